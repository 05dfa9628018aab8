import Mathlib.Algebra.BigOperators.Ring.List
import Mathlib.Tactic.Linarith
import Mathlib.Data.List.Nodup
import Mathlib.Data.List.Range
import Verif.Model.Cv
import Verif.Spec.Cv
/-! Proofs about cross validation. -/

namespace Sol.Cv
open Sol.Spec

universe u

variable {V α : Type} {M : Type u}

/-! ### The search space -/

theorem pick_some (params : List (String × List V)) (hp : ∀ p ∈ params, p.2 ≠ []) (k : Nat) : ∃ d, pick params k = some d ∧ Combination params d := by
  induction params generalizing k with
  | nil => exact ⟨[], rfl, .nil⟩
  | cons p ps ih =>
    obtain ⟨name, vals⟩ := p
    have hl : 0 < vals.length := List.length_pos_iff.2 (hp (name, vals) (by simp))
    obtain ⟨d, h1, h2⟩ := ih (fun q hq => hp q (by simp [hq])) (k / vals.length)
    have hlt := Nat.mod_lt k hl
    refine ⟨(name, vals[k % vals.length]) :: d, ?_, .cons ⟨rfl, by simp⟩ h2⟩
    simp [pick, h1, hlt]

theorem pick_onto (params : List (String × List V)) (d : Dict V) (h : Combination params d) :
    ∃ k < (params.map fun p => p.2.length).prod, pick params k = some d := by
  induction h with
  | nil => exact ⟨0, by simp, rfl⟩
  | @cons p q ps d hpq _ ih =>
    obtain ⟨name, vals⟩ := p
    obtain ⟨n2, v⟩ := q
    obtain ⟨rfl, hv⟩ := hpq
    dsimp only at hv
    obtain ⟨k, hk, h1⟩ := ih
    obtain ⟨j, hj, rfl⟩ := List.mem_iff_getElem.1 hv
    refine ⟨j + vals.length * k, ?_, ?_⟩
    · rw [List.map_cons, List.prod_cons]
      dsimp only
      nlinarith
    · have e1 : (j + vals.length * k) % vals.length = j := by
        rw [Nat.add_mul_mod_self_left]
        exact Nat.mod_eq_of_lt hj
      have e2 : (j + vals.length * k) / vals.length = k := by
        rw [Nat.add_mul_div_left _ _ (by omega), Nat.div_eq_of_lt hj, Nat.zero_add]
      simp [pick, e1, e2, h1, hj]

theorem pick_inj (params : List (String × List V)) (hn : ∀ p ∈ params, p.2.Nodup) (k l : Nat) (hk : k < (params.map fun p => p.2.length).prod)
    (hl : l < (params.map fun p => p.2.length).prod) (h : pick params k = pick params l) : k = l := by
  induction params generalizing k l with
  | nil => simp at hk hl; omega
  | cons p ps ih =>
    obtain ⟨name, vals⟩ := p
    rw [List.map_cons, List.prod_cons] at hk hl
    dsimp only at hk hl
    have h0 : 0 < vals.length := by
      rcases Nat.eq_zero_or_pos vals.length with h | h
      · rw [h] at hk; omega
      · exact h
    have hne : ∀ q ∈ ps, q.2 ≠ [] := by
      intro q hq h
      have : (ps.map fun p => p.2.length).prod = 0 := List.prod_eq_zero (List.mem_map.2 ⟨q, hq, by rw [h]; rfl⟩)
      rw [this] at hk
      omega
    obtain ⟨d, h1, -⟩ := pick_some ps hne (k / vals.length)
    obtain ⟨e, h2, -⟩ := pick_some ps hne (l / vals.length)
    have m1 := Nat.mod_lt k h0
    have m2 := Nat.mod_lt l h0
    simp only [pick, h1, h2, List.getElem?_eq_getElem m1, List.getElem?_eq_getElem m2, Option.bind_eq_bind, Option.bind_some, Option.some.injEq,
      List.cons.injEq, Prod.mk.injEq, true_and] at h
    have hq := ih (fun q hq => hn q (by simp [hq])) (k / vals.length) (l / vals.length) ((Nat.div_lt_iff_lt_mul h0).2 (by rw [Nat.mul_comm]; exact hk))
      ((Nat.div_lt_iff_lt_mul h0).2 (by rw [Nat.mul_comm]; exact hl)) (by rw [h1, h2, h.2])
    have hm : k % vals.length = l % vals.length := (List.Nodup.getElem_inj_iff (hn (name, vals) (by simp))).1 h.1
    rw [← Nat.div_add_mod k vals.length, ← Nat.div_add_mod l vals.length, hq, hm]

theorem mapM_some {β γ : Type} (f : β → Option γ) (l : List β) (h : ∀ x ∈ l, ∃ y, f x = some y) :
    ∃ ys, l.mapM f = some ys ∧ List.Forall₂ (fun x y => f x = some y) l ys := by
  induction l with
  | nil => exact ⟨[], rfl, .nil⟩
  | cons x l ih =>
    obtain ⟨y, hy⟩ := h x (by simp)
    obtain ⟨ys, h1, h2⟩ := ih fun z hz => h z (by simp [hz])
    exact ⟨y :: ys, by simp [List.mapM_cons, hy, h1], .cons hy h2⟩

/-! ### The processes -/

theorem set_split {β : Type} {l : List β} {i : Nat} {w : β} (h : l[i]? = some w) : ∃ a b, l = a ++ w :: b ∧ ∀ w', l.set i w' = a ++ w' :: b := by
  obtain ⟨hi, rfl⟩ := List.getElem?_eq_some_iff.1 h
  refine ⟨l.take i, l.drop (i + 1), ?_, fun w' => ?_⟩
  · rw [List.cons_getElem_drop_succ, List.take_append_drop]
  · rw [List.set_eq_take_append_cons_drop, if_pos hi]

/-- The task that a process works on. -/
def atWork : Worker → Option Nat
  | .busy k => some k
  | _ => none

/-- What holds at all times: `ts` are the tasks left, `got` those whose results have been received, `lost` those that failed. -/
structure Inv (size procs : Nat) (run : Nat → Option α) (s : Sys α) (ts got lost : List Nat) (tok : List (Option Nat)) : Prop where
  tasks : s.tasks = ts.map some ++ tok
  token : tok = [] ∨ tok = [none]
  holder : s.workers.count .stopping + tok.length = 1
  late : (Worker.stopping ∈ s.workers ∨ Worker.done ∈ s.workers) → ts = []
  all : (ts ++ s.workers.filterMap atWork ++ s.results.map (·.1) ++ got ++ lost).Perm (List.range size)
  count : got.length = s.received
  kept : ∀ k ∈ got, s.lists[k]? = run k
  right : ∀ p ∈ s.results, run p.1 = some p.2
  failed : ∀ k ∈ lost, run k = none
  dead : s.workers.count .dead = lost.length
  procs : s.workers.length = procs
  len : s.lists.length = size

theorem inv_start (size procs : Nat) (run : Nat → Option α) (zero : α) :
    Inv size procs run (start size procs zero) (List.range size) [] [] [none] := by
  have e : ∀ n, (List.replicate n Worker.idle).filterMap atWork = [] := by
    intro n
    rw [List.filterMap_eq_nil_iff]
    intro w hw
    rw [List.eq_of_mem_replicate hw]
    rfl
  refine ⟨rfl, .inr rfl, ?_, ?_, ?_, rfl, by simp, by simp [start], by simp, ?_, by simp [start], by simp [start]⟩
  · simp [start, List.count_replicate]
  · intro h
    rcases h with h | h <;> · have := List.eq_of_mem_replicate h; simp at this
  · simp [start, e]
  · simp [start, List.count_replicate]

theorem inv_step {size procs : Nat} {run : Nat → Option α} {s s' : Sys α} {ts got lost : List Nat} {tok : List (Option Nat)}
    (h : Inv size procs run s ts got lost tok) (st : Step size run s s') : ∃ ts got lost tok, Inv size procs run s' ts got lost tok := by
  cases st with
  | take i k q hi hq =>
    obtain ⟨a, b, e1, e2⟩ := set_split hi
    obtain ⟨ts', rfl, rfl⟩ : ∃ ts', ts = k :: ts' ∧ q = ts'.map some ++ tok := by
      have := h.tasks
      rw [hq] at this
      rcases ts with _ | ⟨t, ts'⟩
      · rcases h.token with ht | ht <;> simp [ht] at this
      · simp only [List.map_cons, List.cons_append, List.cons.injEq, Option.some.injEq] at this
        obtain ⟨rfl, h2⟩ := this
        exact ⟨ts', rfl, h2⟩
    have hh := h.holder; have hl := h.late; have ha := h.all; have hd := h.dead; have hp := h.procs
    rw [e1] at hh hl ha hd hp
    refine ⟨ts', got, lost, tok, rfl, h.token, ?_, ?_, ?_, h.count, h.kept, h.right, h.failed, ?_, ?_, h.len⟩ <;> dsimp only <;> rw [e2]
    · simpa [List.count_append, List.count_cons] using hh
    · intro hw
      have := hl (by simpa using hw)
      simp at this
    · refine List.Perm.trans ?_ ha
      simp only [List.filterMap_append, List.filterMap_cons, atWork, List.append_assoc, List.cons_append]
      have : ∀ (x y z : List Nat), (x ++ (y ++ k :: z)).Perm (k :: (x ++ (y ++ z))) := fun x y z => by
        rw [← List.append_assoc, ← List.append_assoc]
        exact List.perm_middle
      exact this _ _ _
    · simpa [List.count_append, List.count_cons] using hd
    · simpa using hp
  | finish i k r hi hr =>
    obtain ⟨a, b, e1, e2⟩ := set_split hi
    have hh := h.holder; have hl := h.late; have ha := h.all; have hd := h.dead; have hp := h.procs
    rw [e1] at hh hl ha hd hp
    refine ⟨ts, got, lost, tok, h.tasks, h.token, ?_, ?_, ?_, h.count, h.kept, ?_, h.failed, ?_, ?_, h.len⟩ <;> dsimp only <;> try rw [e2]
    · simpa [List.count_append, List.count_cons] using hh
    · intro hw
      exact hl (by simpa using hw)
    · refine List.Perm.trans ?_ ha
      simp only [List.filterMap_append, List.filterMap_cons, atWork, List.append_assoc, List.cons_append, List.map_append, List.map_cons, List.map_nil, List.nil_append]
      refine List.Perm.append_left _ (List.Perm.append_left _ ?_)
      rw [← List.append_assoc]
      exact List.perm_middle.trans (by simp)
    · intro p hp
      rcases List.mem_append.1 hp with hp | hp
      · exact h.right p hp
      · rw [List.mem_singleton.1 hp]
        exact hr
    · simpa [List.count_append, List.count_cons] using hd
    · simpa using hp
  | crash i k hi hr =>
    obtain ⟨a, b, e1, e2⟩ := set_split hi
    have hh := h.holder; have hl := h.late; have ha := h.all; have hd := h.dead; have hp := h.procs
    rw [e1] at hh hl ha hd hp
    refine ⟨ts, got, k :: lost, tok, h.tasks, h.token, ?_, ?_, ?_, h.count, h.kept, h.right, ?_, ?_, ?_, h.len⟩ <;> (try dsimp only) <;> try rw [e2]
    · simpa [List.count_append, List.count_cons] using hh
    · intro hw
      exact hl (by simpa using hw)
    · refine List.Perm.trans ?_ ha
      simp only [List.filterMap_append, List.filterMap_cons, atWork, List.append_assoc, List.cons_append]
      refine List.Perm.append_left _ (List.Perm.append_left _ ?_)
      rw [← List.append_assoc, ← List.append_assoc]
      exact List.perm_middle.trans (by simp)
    · intro j hj
      rcases List.mem_cons.1 hj with rfl | hj
      · exact hr
      · exact h.failed j hj
    · simp [List.count_append, List.count_cons] at hd ⊢
      omega
    · simpa using hp
  | stop i q hi hq =>
    obtain ⟨a, b, e1, e2⟩ := set_split hi
    obtain ⟨rfl, rfl, rfl⟩ : ts = [] ∧ tok = [none] ∧ q = [] := by
      have := h.tasks
      rw [hq] at this
      rcases ts with _ | ⟨t, ts'⟩
      · rcases h.token with ht | ht
        · simp [ht] at this
        · simp [ht] at this
          exact ⟨rfl, ht, this⟩
      · simp at this
    have hh := h.holder; have hl := h.late; have ha := h.all; have hd := h.dead; have hp := h.procs
    rw [e1] at hh hl ha hd hp
    refine ⟨[], got, lost, [], rfl, .inl rfl, ?_, fun _ => rfl, ?_, h.count, h.kept, h.right, h.failed, ?_, ?_, h.len⟩ <;> dsimp only <;> rw [e2]
    · simp [List.count_append, List.count_cons] at hh ⊢
      omega
    · simpa [List.filterMap_append, List.filterMap_cons, atWork] using ha
    · simpa [List.count_append, List.count_cons] using hd
    · simpa using hp
  | hand i hi =>
    obtain ⟨a, b, e1, e2⟩ := set_split hi
    have hts : ts = [] := h.late (.inl (by rw [e1]; simp))
    subst hts
    have htok : tok = [] := by
      have hh := h.holder
      rw [e1] at hh
      simp [List.count_append, List.count_cons] at hh
      exact List.length_eq_zero_iff.1 (by omega)
    subst htok
    have hh := h.holder; have hl := h.late; have ha := h.all; have hd := h.dead; have hp := h.procs
    rw [e1] at hh hl ha hd hp
    refine ⟨[], got, lost, [none], by simp [h.tasks], .inr rfl, ?_, fun _ => rfl, ?_, h.count, h.kept, h.right, h.failed, ?_, ?_, h.len⟩ <;> dsimp only <;> rw [e2]
    · simp [List.count_append, List.count_cons] at hh ⊢
      omega
    · simpa [List.filterMap_append, List.filterMap_cons, atWork] using ha
    · simpa [List.count_append, List.count_cons] using hd
    · simpa using hp
  | receive k r l l' hlt hr =>
    have ha := h.all
    rw [hr] at ha
    simp only [List.map_append, List.map_cons] at ha
    have ha' : (ts ++ s.workers.filterMap atWork ++ (l.map (·.1) ++ l'.map (·.1)) ++ k :: got ++ lost).Perm (List.range size) := by
      refine List.Perm.trans ?_ ha
      simp only [List.append_assoc, List.cons_append]
      refine List.Perm.append_left _ (List.Perm.append_left _ (List.Perm.append_left _ ?_))
      exact List.perm_middle
    have hnd := ha'.nodup_iff.2 List.nodup_range
    have hk : k ∉ got := by
      intro hm
      have := (List.nodup_append.1 (List.nodup_append.1 hnd).1).2.1
      exact (List.nodup_cons.1 this).1 hm
    have hks : k < size := List.mem_range.1 (ha'.mem_iff.1 (by simp))
    refine ⟨ts, k :: got, lost, tok, h.tasks, h.token, h.holder, h.late, ?_, ?_, ?_, ?_, h.failed, h.dead, h.procs, ?_⟩ <;> dsimp only
    · simpa using ha'
    · rw [List.length_cons, h.count]
    · intro j hj
      rcases List.mem_cons.1 hj with rfl | hj
      · rw [List.getElem?_set_self (by rw [h.len]; exact hks)]
        exact (h.right (j, r) (by rw [hr]; simp)).symm
      · rw [List.getElem?_set_ne (by rintro rfl; exact hk hj)]
        exact h.kept j hj
    · intro p hp
      exact h.right p (by rw [hr]; rcases List.mem_append.1 hp with hp | hp <;> simp [hp])
    · rw [List.length_set, h.len]

theorem inv_reach {size procs : Nat} {run : Nat → Option α} {zero : α} {s : Sys α}
    (h : Relation.ReflTransGen (Step size run) (start size procs zero) s) : ∃ ts got lost tok, Inv size procs run s ts got lost tok := by
  induction h with
  | refl => exact ⟨_, _, _, _, inv_start size procs run zero⟩
  | tail _ st ih =>
    obtain ⟨ts, got, lost, tok, ih⟩ := ih
    exact inv_step ih st

/-- Steps still to come of a process. -/
def weight : Worker → Nat
  | .idle => 2
  | .busy _ => 4
  | .stopping => 1
  | .done => 0
  | .dead => 0

/-- Steps still to come. -/
def togo (s : Sys α) : Nat := 3 * (s.tasks.filterMap id).length + (s.workers.map weight).sum + s.results.length

theorem togo_step {size : Nat} {run : Nat → Option α} {s s' : Sys α} (h : Step size run s s') : togo s' < togo s := by
  cases h with
  | take i k q hi hq =>
    obtain ⟨a, b, e1, e2⟩ := set_split hi
    simp only [togo, e2, hq]
    rw [e1]
    simp [weight]
    omega
  | finish i k r hi hr =>
    obtain ⟨a, b, e1, e2⟩ := set_split hi
    simp only [togo, e2]
    rw [e1]
    simp [weight]
    omega
  | crash i k hi hr =>
    obtain ⟨a, b, e1, e2⟩ := set_split hi
    simp only [togo, e2]
    rw [e1]
    simp [weight]
  | stop i q hi hq =>
    obtain ⟨a, b, e1, e2⟩ := set_split hi
    simp only [togo, e2, hq]
    rw [e1]
    simp [weight]
  | hand i hi =>
    obtain ⟨a, b, e1, e2⟩ := set_split hi
    simp only [togo, e2]
    rw [e1]
    simp [weight]
  | receive k r l l' hlt hr =>
    simp only [togo, hr]
    simp

/-- With a process at least and no exception, somebody can go on until all is done. -/
theorem progress {size procs : Nat} {run : Nat → Option α} {s : Sys α} {ts got lost : List Nat} {tok : List (Option Nat)}
    (h : Inv size procs run s ts got lost tok) (hp : 1 ≤ procs) (hr : ∀ k < size, (run k).isSome) :
    s.Ended size ∨ ∃ s', Step size run s s' := by
  have hmem : ∀ k, k ∈ ts ++ s.workers.filterMap atWork ++ s.results.map (·.1) ++ got ++ lost → k < size := fun k hk =>
    List.mem_range.1 (h.all.mem_iff.1 hk)
  have hlost : lost = [] := by
    rw [List.eq_nil_iff_forall_not_mem]
    intro k hk
    have := hr k (hmem k (by simp [hk]))
    rw [h.failed k hk] at this
    simp at this
  have hdead : Worker.dead ∉ s.workers := by
    rw [← List.count_eq_zero, h.dead, hlost]
    rfl
  by_cases hb : ∃ w ∈ s.workers, w ≠ .done
  · obtain ⟨w, hw, hne⟩ := hb
    obtain ⟨i, hi⟩ := List.mem_iff_getElem?.1 hw
    right
    cases w with
    | idle =>
      rcases ts with _ | ⟨k, ts⟩
      · rcases h.token with ht | ht
        · have hh := h.holder
          rw [ht] at hh
          have : Worker.stopping ∈ s.workers := by
            rw [← List.count_pos_iff]
            simp at hh
            omega
          obtain ⟨j, hj⟩ := List.mem_iff_getElem?.1 this
          exact ⟨_, Step.hand s j hj⟩
        · exact ⟨_, Step.stop s i [] hi (by rw [h.tasks, ht]; rfl)⟩
      · exact ⟨_, Step.take s i k _ hi (by rw [h.tasks]; rfl)⟩
    | busy k =>
      have hk : k < size := hmem k (by
        simp only [List.mem_append, List.mem_filterMap]
        exact .inl (.inl (.inl (.inr ⟨_, hw, rfl⟩))))
      obtain ⟨r, hr⟩ := Option.isSome_iff_exists.1 (hr k hk)
      exact ⟨_, Step.finish s i k r hi hr⟩
    | stopping => exact ⟨_, Step.hand s i hi⟩
    | done => exact absurd rfl hne
    | dead => exact absurd hw hdead
  · push Not at hb
    by_cases hrec : s.received = size
    · exact .inl ⟨hrec, fun w hw => .inl (hb w hw)⟩
    · right
      have hts : ts = [] := by
        refine h.late (.inr ?_)
        have : 0 < s.workers.length := by rw [h.procs]; exact hp
        obtain ⟨w, hw⟩ := List.exists_mem_of_length_pos this
        rw [← hb w hw]
        exact hw
      have hbusy : s.workers.filterMap atWork = [] := by
        rw [List.filterMap_eq_nil_iff]
        intro w hw
        rw [hb w hw]
        rfl
      have hl := h.all.length_eq
      rw [hts, hbusy, hlost] at hl
      simp only [List.nil_append, List.append_nil, List.length_append, List.length_map, List.length_range, h.count] at hl
      rcases hres : s.results with _ | ⟨⟨k, r⟩, rest⟩
      · rw [hres] at hl
        simp at hl
        omega
      · have : s.received < size := by
          rw [hres] at hl
          simp at hl
          omega
        exact ⟨_, Step.receive s k r [] rest this (by simp [hres])⟩

/-- At the end the lists hold the results. -/
theorem ended {size procs : Nat} {run : Nat → Option α} {s : Sys α} {ts got lost : List Nat} {tok : List (Option Nat)}
    (h : Inv size procs run s ts got lost tok) (he : s.Ended size) : s.lists.length = size ∧ ∀ k < size, s.lists[k]? = run k := by
  refine ⟨h.len, fun k hk => h.kept k ?_⟩
  have hl := h.all.length_eq
  simp only [List.length_append, List.length_range, h.count, he.1] at hl
  have hm := h.all.mem_iff.2 (List.mem_range.2 hk)
  have e1 : ts = [] := List.length_eq_zero_iff.1 (by omega)
  have e2 : s.workers.filterMap atWork = [] := List.length_eq_zero_iff.1 (by omega)
  have e3 : s.results.map (·.1) = [] := List.length_eq_zero_iff.1 (by omega)
  have e4 : lost = [] := List.length_eq_zero_iff.1 (by omega)
  rw [e1, e2, e3, e4] at hm
  simpa using hm

end Sol.Cv
