import Verif.Proofs.Olm
/-! The truncation of STG. -/

set_option linter.unusedSectionVars false
set_option linter.unusedVariables false

namespace Sol.Olm

open Sol.Online Sol.Sparse Sol.Loss Sol.Spec

variable {α : Type} [Zero α] [One α] [Add α] [Sub α] [Mul α] [Div α] [Neg α] [FCmp α] [IntCast α] [FFun α] [FSqrt α]

/-- The steps that are due: the largest multiple of `k` in `n`, nothing if `n < k`. -/
def due (k n : Int) : Int := if n < k then 0 else n - n % k

/-- One class: features of the example are truncated by the steps that are due, and their stamps advance. -/
theorem stgLoop_spec (k t : Int) (alpha : α) (x : SVec α) (hx : Ascending x) (w w' : List α) (last last' : List Int)
    (h : stgLoop k t alpha x w last = .ok (w', last')) :
    w'.length = w.length ∧ last'.length = last.length ∧
    (∀ (i : Nat), (∀ y, (i, y) ∉ x) → w'[i]? = w[i]? ∧ last'[i]? = last[i]?) ∧
    ∀ (i : Nat) (y : α), (i, y) ∈ x → ∃ l, last[i]? = some l ∧ last'[i]? = some (l + due k (t - l)) ∧
      (t - l < k → w'[i]? = w[i]?) ∧
      (k ≤ t - l → ∃ a, w[i]? = some a ∧ w'[i]? = some (trunc a ((due k (t - l) : Int) * alpha))) := by
  induction x generalizing w last with
  | nil =>
    simp only [stgLoop, Res.ok.injEq, Prod.mk.injEq] at h
    obtain ⟨rfl, rfl⟩ := h
    exact ⟨rfl, rfl, fun _ _ => ⟨rfl, rfl⟩, by simp⟩
  | cons p x ih =>
    obtain ⟨j, z⟩ := p
    have hj : ∀ y, (j, y) ∉ x := fun y hy => by
      have := List.rel_of_pairwise_cons hx hy
      simp at this
    simp only [stgLoop] at h
    obtain ⟨l, h1, h2⟩ := Res.bind_eq_ok.1 h
    have hl : last[j]? = some l := lget_eq_ok.1 h1
    by_cases hk : t - l < k
    · rw [if_pos hk] at h2
      obtain ⟨a, b, d, e⟩ := ih hx.of_cons _ _ h2
      refine ⟨a, b, fun i hi => d i fun y hy => hi y (List.mem_cons_of_mem _ hy), fun i y hy => ?_⟩
      rcases List.mem_cons.1 hy with hy | hy
      · obtain ⟨rfl, rfl⟩ := Prod.mk.inj hy
        obtain ⟨d1, d2⟩ := d i hj
        refine ⟨l, hl, ?_, fun _ => d1, fun hk' => by omega⟩
        rw [d2, hl, due, if_pos hk, add_zero]
      · exact e i y hy
    · rw [if_neg hk] at h2
      obtain ⟨a, h3, h4⟩ := Res.bind_eq_ok.1 h2
      obtain ⟨w1, h5, h6⟩ := Res.bind_eq_ok.1 h4
      obtain ⟨last1, h7, h8⟩ := Res.bind_eq_ok.1 h6
      have ha : w[j]? = some a := lget_eq_ok.1 h3
      obtain ⟨hjw, rfl⟩ := lset_eq_ok.1 h5
      obtain ⟨hjl, rfl⟩ := lset_eq_ok.1 h7
      obtain ⟨b1, b2, d, e⟩ := ih hx.of_cons _ _ h8
      refine ⟨by simpa using b1, by simpa using b2, fun i hi => ?_, fun i y hy => ?_⟩
      · have hij : j ≠ i := fun hc => hi z (by rw [← hc]; exact List.mem_cons_self)
        obtain ⟨d1, d2⟩ := d i fun y hy => hi y (List.mem_cons_of_mem _ hy)
        rw [d1, d2, List.getElem?_set_ne hij, List.getElem?_set_ne hij]
        exact ⟨rfl, rfl⟩
      · rcases List.mem_cons.1 hy with hy | hy
        · obtain ⟨rfl, rfl⟩ := Prod.mk.inj hy
          obtain ⟨d1, d2⟩ := d i hj
          refine ⟨l, hl, ?_, fun hk' => absurd hk' hk, fun _ => ⟨a, ha, ?_⟩⟩
          · rw [d2, List.getElem?_set_self hjl, due, if_neg hk]
          · rw [d1, List.getElem?_set_self hjw, due, if_neg hk]
        · have hij : j ≠ i := fun hc => hj y (by rw [hc]; exact hy)
          obtain ⟨l', q1, q2, q3, q4⟩ := e i y hy
          rw [List.getElem?_set_ne hij] at q1 q3 q4
          exact ⟨l', q1, q2, q3, q4⟩

/-- Nothing is due after the first class. -/
theorem due_left (k n : Int) (hk : 0 < k) : n - due k n < k := by
  unfold due
  split
  · omega
  · have := Int.emod_lt_of_pos n hk
    omega

/-- If nothing is due, the loop changes nothing. -/
theorem stgLoop_idle (k t : Int) (alpha : α) (x : SVec α) (w : List α) (last : List Int)
    (h : ∀ (i : Nat) (y : α), (i, y) ∈ x → ∃ l, last[i]? = some l ∧ t - l < k) :
    stgLoop k t alpha x w last = .ok (w, last) := by
  induction x with
  | nil => rfl
  | cons p x ih =>
    obtain ⟨j, z⟩ := p
    obtain ⟨l, h1, h2⟩ := h j z List.mem_cons_self
    obtain ⟨h3, h4⟩ := List.getElem?_eq_some_iff.1 h1
    simp only [stgLoop]
    rw [lget_ok h3, Res.bind_ok, h4, if_pos h2]
    exact ih fun i y hy => h i y (List.mem_cons_of_mem _ hy)

/-- Classes for which nothing is due: only the bias is truncated. -/
theorem stgClasses_idle (k t : Int) (hk : 0 < k) (alpha b : α) (x : SVec α) (hx1 : ∀ p ∈ x, 1 ≤ p.1) (l l' : List (List α))
    (last last' : List Int) (h : ∀ (i : Nat) (y : α), (i, y) ∈ x → ∃ l, last[i]? = some l ∧ t - l < k)
    (hc : stgClasses k t alpha b x l last = .ok (l', last')) :
    l'.length = l.length ∧ ∀ (c i : Nat), 1 ≤ i → (l'[c]?.bind fun (w : List α) => w[i]?) = l[c]?.bind fun (w : List α) => w[i]? := by
  induction l generalizing last l' last' with
  | nil =>
    simp only [stgClasses, Res.ok.injEq, Prod.mk.injEq] at hc
    obtain ⟨rfl, -⟩ := hc
    exact ⟨rfl, fun _ _ _ => rfl⟩
  | cons w l ih =>
    simp only [stgClasses, stgLoop_idle k t alpha x w last h, Res.bind_ok] at hc
    obtain ⟨w1, h1, h2⟩ := Res.bind_eq_ok.1 hc
    obtain ⟨last1, h3, h4⟩ := Res.bind_eq_ok.1 h2
    obtain ⟨⟨rest, last2⟩, h5, h6⟩ := Res.bind_eq_ok.1 h4
    simp only [Res.ok.injEq, Prod.mk.injEq] at h6
    obtain ⟨rfl, rfl⟩ := h6
    obtain ⟨h0, rfl⟩ := lset_eq_ok.1 h3
    obtain ⟨q1, q2⟩ := ih _ _ _ (fun i y hy => by
      have := hx1 _ hy
      obtain ⟨l0, a, b⟩ := h i y hy
      refine ⟨l0, ?_, b⟩
      rw [List.getElem?_set_ne (by simp at this; omega)]
      exact a) h5
    refine ⟨by simp [q1], fun c i hi => ?_⟩
    cases c with
    | zero =>
      simp only [atBias] at h1
      obtain ⟨v0, h7, h8⟩ := Res.bind_eq_ok.1 h1
      obtain ⟨-, rfl⟩ := lset_eq_ok.1 h8
      simp [List.getElem?_set_ne (show 0 ≠ i by omega)]
    | succ c => simpa using q2 c i hi

/-- The loop over the classes: the first class is treated, all others keep the weights of all features. -/
theorem stgClasses_first (k t : Int) (hk : 0 < k) (alpha b : α) (x : SVec α) (hx : Ascending x) (hx1 : ∀ p ∈ x, 1 ≤ p.1)
    (w : List α) (l r : List (List α)) (last last' : List Int)
    (hc : stgClasses k t alpha b x (w :: l) last = .ok (r, last')) :
    ∃ w' l', r = w' :: l' ∧ l'.length = l.length ∧
      (∀ (c i : Nat), 1 ≤ i → (l'[c]?.bind fun (w : List α) => w[i]?) = l[c]?.bind fun (w : List α) => w[i]?) ∧
      (∀ (i : Nat), 1 ≤ i → (∀ y, (i, y) ∉ x) → w'[i]? = w[i]?) ∧
      ∀ (i : Nat) (y : α), (i, y) ∈ x → ∃ s, last[i]? = some s ∧ (t - s < k → w'[i]? = w[i]?) ∧
        (k ≤ t - s → ∃ a, w[i]? = some a ∧ w'[i]? = some (trunc a ((due k (t - s) : Int) * alpha))) := by
  simp only [stgClasses] at hc
  obtain ⟨⟨w1, last1⟩, h1, h2⟩ := Res.bind_eq_ok.1 hc
  obtain ⟨w2, h3, h4⟩ := Res.bind_eq_ok.1 h2
  obtain ⟨last2, h5, h6⟩ := Res.bind_eq_ok.1 h4
  obtain ⟨⟨rest, last3⟩, h7, h8⟩ := Res.bind_eq_ok.1 h6
  simp only [Res.ok.injEq, Prod.mk.injEq] at h8
  obtain ⟨rfl, rfl⟩ := h8
  obtain ⟨-, -, a3, a4⟩ := stgLoop_spec k t alpha x hx _ _ _ _ h1
  obtain ⟨-, rfl⟩ := lset_eq_ok.1 h5
  simp only [atBias] at h3
  obtain ⟨v0, -, h10⟩ := Res.bind_eq_ok.1 h3
  obtain ⟨-, rfl⟩ := lset_eq_ok.1 h10
  obtain ⟨b1, b2⟩ := stgClasses_idle k t hk alpha b x hx1 _ _ _ _ (fun i y hy => by
    have hi := hx1 _ hy
    simp only at hi
    obtain ⟨s, c1, c2, -⟩ := a4 i y hy
    refine ⟨_, by rw [List.getElem?_set_ne (by omega)]; exact c2, ?_⟩
    have := due_left k (t - s) hk
    omega) h7
  refine ⟨_, _, rfl, b1, b2, fun i hi hn => ?_, fun i y hy => ?_⟩
  · rw [List.getElem?_set_ne (by omega)]
    exact (a3 i hn).1
  · have hi := hx1 _ hy
    simp only at hi
    obtain ⟨s, c1, -, c3, c4⟩ := a4 i y hy
    rw [List.getElem?_set_ne (by omega)]
    exact ⟨s, c1, c3, c4⟩

end Sol.Olm
