import Verif.Model.Sparse
/-!
# Lemmas about sparse vector operations
-/

namespace Sol.Sparse

variable {α : Type}

theorem trim_le (x : SVec α) (d n : Nat) : trim x d n ≤ n := by
  induction n with
  | zero => simp [trim]
  | succ n ih =>
    unfold trim
    split
    · split <;> omega
    · exact Nat.le_refl _

/-- In an ascending vector the loop leaves exactly the entries inside the range. -/
theorem take_trim_aux (x : SVec α) (hx : Ascending x) (d n : Nat) (hn : n ≤ x.length) :
    x.take (trim x d n) = (x.take n).filter (fun p => p.1 < d) := by
  induction n with
  | zero => simp [trim]
  | succ n ih =>
    have hlt : n < x.length := by omega
    have hget : x[n]? = some x[n] := List.getElem?_eq_getElem hlt
    have htake : x.take (n + 1) = x.take n ++ [x[n]] := by rw [List.take_add_one, hget]; rfl
    simp only [trim, hget]
    by_cases hd : d ≤ x[n].1
    · rw [if_pos hd, ih (by omega), htake, List.filter_append]
      have : [x[n]].filter (fun p => decide (p.1 < d)) = [] := by
        rw [List.filter_eq_nil_iff]
        intro p hp
        rw [List.mem_singleton] at hp
        subst hp
        simpa using hd
      rw [this, List.append_nil]
    · rw [if_neg hd]
      symm
      rw [List.filter_eq_self]
      intro p hp
      rw [htake, List.mem_append, List.mem_singleton] at hp
      simp only [decide_eq_true_eq]
      rcases hp with hp | rfl
      · obtain ⟨k, hk, rfl⟩ := List.mem_iff_getElem.1 hp
        simp only [List.length_take] at hk
        rw [List.getElem_take]
        have := List.pairwise_iff_getElem.1 hx k n (by omega) hlt (by omega)
        omega
      · omega

theorem take_trim (x : SVec α) (hx : Ascending x) (d : Nat) :
    x.take (trim x d x.length) = x.filter (fun p => p.1 < d) := by
  rw [take_trim_aux x hx d x.length (Nat.le_refl _), List.take_length]

/-- When all indexes are inside, nothing is trimmed. -/
theorem trim_all (x : SVec α) (d : Nat) (h : ∀ p ∈ x, p.1 < d) : trim x d x.length = x.length := by
  cases x with
  | nil => rfl
  | cons p l =>
    have hlt : l.length < (p :: l).length := by simp
    have hget : (p :: l)[l.length]? = some (p :: l)[l.length] := List.getElem?_eq_getElem hlt
    have := h _ (List.getElem_mem hlt)
    simp only [List.length_cons, trim, hget]
    rw [if_neg (by omega)]

theorem dotLoop_ok [Zero α] [Add α] (op : α → α → α) (w : List α) (l : SVec α)
    (h : ∀ p ∈ l, p.1 < w.length) (v : α) :
    dotLoop op w l v = .ok (l.foldl (fun v p => v + op (w.getD p.1 0) p.2) v) := by
  induction l generalizing v with
  | nil => rfl
  | cons p l ih =>
    obtain ⟨i, y⟩ := p
    have hi : i < w.length := h (i, y) List.mem_cons_self
    simp only [dotLoop, lget_ok hi, Res.bind_ok]
    rw [ih (fun p hp => h p (List.mem_cons_of_mem _ hp))]
    simp [List.getD_eq_getElem?_getD, hi]

/-- One pass over entries with distinct indexes. -/
theorem calcLoop_ok (op : α → α → α) (f : List α → Nat → α → Res α) (r : Nat → α → α) (w : List α)
    (l : SVec α) (hl : ∀ p ∈ l, p.1 < w.length) (hd : l.Pairwise (fun p q => p.1 ≠ q.1))
    (hf : ∀ w' : List α, w'.length = w.length → ∀ p ∈ l, w'[p.1]? = w[p.1]? → f w' p.1 p.2 = .ok (r p.1 p.2)) :
    ∃ w', calcLoop op f l w = .ok w' ∧ w'.length = w.length ∧
      (∀ p ∈ l, ∃ a, w[p.1]? = some a ∧ w'[p.1]? = some (op a (r p.1 p.2))) ∧
      (∀ i, (∀ p ∈ l, p.1 ≠ i) → w'[i]? = w[i]?) := by
  induction l generalizing w with
  | nil => exact ⟨w, rfl, rfl, by simp, fun _ _ => rfl⟩
  | cons p l ih =>
    obtain ⟨i, y⟩ := p
    have hi : i < w.length := hl (i, y) List.mem_cons_self
    have hne : ∀ q ∈ l, i ≠ q.1 := fun q hq => List.rel_of_pairwise_cons hd hq
    obtain ⟨w', h1, h2, h3, h4⟩ := ih (w.set i (op w[i] (r i y)))
      (fun p hp => by simpa using hl p (List.mem_cons_of_mem _ hp)) hd.of_cons (by
        intro w'' hlen q hq hwq
        refine hf w'' (by simpa using hlen) q (List.mem_cons_of_mem _ hq) ?_
        rw [hwq, List.getElem?_set_ne (hne q hq)])
    refine ⟨w', ?_, by simpa using h2, ?_, ?_⟩
    · simp only [calcLoop, hf w rfl (i, y) List.mem_cons_self rfl, Res.bind_ok, lget_ok hi, lset_ok _ hi, h1]
    · intro q hq
      rcases List.mem_cons.1 hq with rfl | hq
      · refine ⟨w[i], List.getElem?_eq_getElem hi, ?_⟩
        rw [h4 i (fun q hq => (hne q hq).symm), List.getElem?_set_self hi]
      · obtain ⟨a, ha, hb⟩ := h3 q hq
        rw [List.getElem?_set_ne (hne q hq)] at ha
        exact ⟨a, ha, hb⟩
    · intro j hj
      rw [h4 j (fun q hq => hj q (List.mem_cons_of_mem _ hq)),
        List.getElem?_set_ne (hj (i, y) List.mem_cons_self)]

theorem Ascending.distinct {x : SVec α} (h : Ascending x) : x.Pairwise (fun p q => p.1 ≠ q.1) :=
  h.imp (fun h => by omega)

theorem Ascending.filter {x : SVec α} (h : Ascending x) (p : Nat × α → Bool) : Ascending (x.filter p) :=
  List.Pairwise.filter p h

end Sol.Sparse
