import Verif.Model.Loss
import Verif.Spec.Loss
import Mathlib.Analysis.SpecialFunctions.Log.Basic
import Mathlib.Analysis.Convex.SpecificFunctions.Basic
import Mathlib.Tactic.Linarith
import Mathlib.Tactic.FieldSimp
import Mathlib.Tactic.SplitIfs
/-! Facts about the losses. -/

set_option linter.unusedSectionVars false

namespace Sol.Loss

open Sol

/-- Over the real numbers: `exp`, `log`, `-FLT_MAX`; `1e-12f + 1 = 1` in single precision, so `tiny` is 0. -/
noncomputable instance : FFun ℝ := ⟨Real.exp, Real.log, -((2 ^ 24 - 1) * 2 ^ 104), 0⟩

section generic
variable {α : Type}

theorem get_eq_ok {a : List α} {i : Int} {v : α} : get a i = .ok v ↔ 0 ≤ i ∧ a[i.toNat]? = some v := by
  unfold get
  split
  · rw [lget_eq_ok]; simp [*]
  · simp [*]

theorem set_eq_ok {a b : List α} {i : Int} {v : α} :
    set a i v = .ok b ↔ 0 ≤ i ∧ i.toNat < a.length ∧ b = a.set i.toNat v := by
  unfold set
  split
  · rw [lset_eq_ok]; simp [*]
  · simp [*]

end generic

/-! ### Position of the maximum -/

theorem maxLoop_spec {β : Type} [LinearOrder β] (best : Nat) (bv : β) (i : Nat) (l : List β) :
    (maxLoop best bv i l = best ∧ ∀ v ∈ l, v ≤ bv) ∨
    (∃ k : Nat, ∃ v, maxLoop best bv i l = i + k ∧ l[k]? = some v ∧ bv < v ∧ (∀ u ∈ l, u ≤ v) ∧
      ∀ (j : Nat) (u : β), j < k → l[j]? = some u → u < v) := by
  induction l generalizing best bv i with
  | nil => left; simp [maxLoop]
  | cons a l ih =>
    simp only [maxLoop]
    by_cases h : bv < a
    · rw [if_pos (by simpa using h)]
      right
      rcases ih i a (i + 1) with ⟨h1, h2⟩ | ⟨k, v, h1, h2, h3, h4, h5⟩
      · exact ⟨0, a, by simpa using h1, by simp, h, by simpa using h2, by omega⟩
      · refine ⟨k + 1, v, by omega, by simpa using h2, lt_trans h h3, ?_, ?_⟩
        · intro u hu
          rcases List.mem_cons.1 hu with rfl | hu
          · exact le_of_lt h3
          · exact h4 u hu
        · intro j u hj hu
          cases j with
          | zero => simp at hu; subst hu; exact h3
          | succ j => exact h5 j u (by omega) (by simpa using hu)
    · rw [if_neg (by simpa using h)]
      rcases ih best bv (i + 1) with ⟨h1, h2⟩ | ⟨k, v, h1, h2, h3, h4, h5⟩
      · left
        refine ⟨h1, ?_⟩
        intro u hu
        rcases List.mem_cons.1 hu with rfl | hu
        · exact le_of_not_gt h
        · exact h2 u hu
      · right
        refine ⟨k + 1, v, by omega, by simpa using h2, h3, ?_, ?_⟩
        · intro u hu
          rcases List.mem_cons.1 hu with rfl | hu
          · exact le_trans (le_of_not_gt h) (le_of_lt h3)
          · exact h4 u hu
        · intro j u hj hu
          cases j with
          | zero => simp at hu; subst hu; exact lt_of_le_of_lt (le_of_not_gt h) h3
          | succ j => exact h5 j u (by omega) (by simpa using hu)

/-- `max_element` finds the first position of the largest element. -/
theorem maxElement_spec {β : Type} [LinearOrder β] (l : List β) (h : l ≠ []) :
    ∃ k : Nat, ∃ v, maxElement l = (k : Int) ∧ l[k]? = some v ∧ (∀ u ∈ l, u ≤ v) ∧
      ∀ (j : Nat) (u : β), j < k → l[j]? = some u → u < v := by
  cases l with
  | nil => exact absurd rfl h
  | cons a l =>
    rcases maxLoop_spec 0 a 1 l with ⟨h1, h2⟩ | ⟨k, v, h1, h2, h3, h4, h5⟩
    · exact ⟨0, a, by simp [maxElement, h1], by simp, by simpa using h2, by omega⟩
    · refine ⟨k + 1, v, by simp [maxElement, h1]; omega, by simpa using h2, ?_, ?_⟩
      · intro u hu
        rcases List.mem_cons.1 hu with rfl | hu
        · exact le_of_lt h3
        · exact h4 u hu
      · intro j u hj hu
        cases j with
        | zero => simp at hu; subst hu; exact h3
        | succ j => exact h5 j u (by omega) (by simpa using hu)

theorem get_nat {α : Type} (a : List α) (i : Nat) (h : i < a.length) : get a (i : Int) = .ok a[i] := by
  rw [get_eq_ok]
  simp [h]

theorem set_nat {α : Type} (a : List α) (i : Nat) (v : α) (h : i < a.length) : set a (i : Int) v = .ok (a.set i v) := by
  rw [set_eq_ok]
  simp [h]

section
variable {β : Type} [Field β] [LinearOrder β] [IsStrictOrderedRing β] [FFun β]

/-- All scores are above `-FLT_MAX`. -/
def Above (p : List β) : Prop := ∀ v ∈ p, FFun.lowest < v

/-- The rival is the first of the best wrong classes. -/
structure Rival (p : List β) (label q : Nat) : Prop where
  lt : q < p.length
  ne : q ≠ label
  best : ∀ (j : Nat) (u v : β), j ≠ label → p[j]? = some u → p[q]? = some v → u ≤ v
  first : ∀ (j : Nat) (u v : β), j < q → j ≠ label → p[j]? = some u → p[q]? = some v → u < v

theorem Rival.unique {p : List β} {label q r : Nat} (h : Rival p label q) (h' : Rival p label r) : q = r := by
  have hql := h.lt
  have hrl := h'.lt
  have hq : p[q]? = some p[q] := by simp [hql]
  have hr : p[r]? = some p[r] := by simp [hrl]
  rcases Nat.lt_trichotomy q r with hlt | heq | hgt
  · exact absurd (h'.first q _ _ hlt h.ne hq hr) (not_lt.2 (h.best r _ _ h'.ne hr hq))
  · exact heq
  · exact absurd (h.first r _ _ hgt h'.ne hr hq) (not_lt.2 (h'.best q _ _ h.ne hq hr))

theorem rival_spec (p : List β) (label : Nat) (hl : label < p.length) (h2 : 2 ≤ p.length) (ha : Above p)
    (pl : Int) (hpl : pl = maxElement p) : ∃ q : Nat, rival p (label : Int) pl = .ok (q : Int) ∧ Rival p label q := by
  by_cases h : pl = label
  · obtain ⟨k, v, e1, e2, e3, e4⟩ := maxElement_spec (p.set label FFun.lowest) (by
      intro h0
      have := congrArg List.length h0
      simp at this
      subst this
      simp at hl)
    have hk : k < p.length := by
      have := (List.getElem?_eq_some_iff.1 e2).1
      simpa using this
    have hkl : k ≠ label := by
      rintro rfl
      have hv : v = FFun.lowest := by simpa [hl] using e2.symm
      -- another class
      obtain ⟨j, hj, hjk⟩ : ∃ j, j < p.length ∧ j ≠ k := by
        rcases Nat.eq_zero_or_pos k with h0 | h0
        · exact ⟨1, by omega, by omega⟩
        · exact ⟨0, by omega, by omega⟩
      have hm : p[j] ∈ p.set k FFun.lowest := by
        have : (p.set k FFun.lowest)[j]? = some p[j] := by
          rw [List.getElem?_set_ne (by omega)]; simp [hj]
        exact List.mem_of_getElem? this
      have := e3 _ hm
      have := ha p[j] (List.getElem_mem hj)
      rw [hv] at *
      linarith
    have hset : ∀ j : Nat, j ≠ label → (p.set label FFun.lowest)[j]? = p[j]? := fun j hj =>
      List.getElem?_set_ne (Ne.symm hj)
    refine ⟨k, ?_, hk, hkl, ?_, ?_⟩
    · unfold rival
      rw [if_pos h, get_nat p label hl, Res.bind_ok, set_nat p label _ hl, Res.bind_ok, e1]
    · intro j u w hj hu hw
      rw [← hset k hkl, e2] at hw
      obtain rfl := Option.some.inj hw
      exact e3 u (List.mem_of_getElem? (by rw [hset j hj]; exact hu))
    · intro j u w hjk hj hu hw
      rw [← hset k hkl, e2] at hw
      obtain rfl := Option.some.inj hw
      exact e4 j u hjk (by rw [hset j hj]; exact hu)
  · obtain ⟨k, v, e1, e2, e3, e4⟩ := maxElement_spec p (by rintro rfl; simp at hl)
    have hk : k < p.length := (List.getElem?_eq_some_iff.1 e2).1
    refine ⟨k, ?_, hk, ?_, ?_, ?_⟩
    · unfold rival
      rw [if_neg h, hpl, e1]
    · rintro rfl
      exact h (by rw [hpl, e1])
    · intro j u w hj hu hw
      rw [e2] at hw
      obtain rfl := Option.some.inj hw
      exact e3 u (List.mem_of_getElem? hu)
    · intro j u w hjk hj hu hw
      rw [e2] at hw
      obtain rfl := Option.some.inj hw
      exact e4 j u hjk hu

end

/-! ### Numbers -/

theorem fmax_real (a b : ℝ) : fmax a b = max a b := by
  unfold fmax
  by_cases h : a < b
  · rw [if_pos (by simpa using h), max_eq_right h.le]
  · rw [if_neg (by simpa using h), max_eq_left (not_lt.1 h)]

/-- The logistic function's primitive. -/
noncomputable def f (z : ℝ) : ℝ := Real.log (1 + Real.exp z)

noncomputable def σ (z : ℝ) : ℝ := 1 / (1 + Real.exp (-z))

theorem softplus_real (z : ℝ) : softplus z = if 100 < z then z else if z < -100 then 0 else f z := by
  unfold softplus f
  simp only [FFun.log, FFun.exp]
  have e1 : (((100 : Int) : ℝ)) = 100 := by norm_num
  have e2 : (((-100 : Int) : ℝ)) = -100 := by norm_num
  rw [e1, e2]
  by_cases h1 : (100 : ℝ) < z
  · rw [if_pos (by simpa using h1), if_pos h1]
  · rw [if_neg (by simpa using h1), if_neg h1]
    by_cases h2 : z < -100
    · rw [if_pos (by simpa using h2), if_pos h2]
    · rw [if_neg (by simpa using h2), if_neg h2]

theorem f_pos (z : ℝ) : 0 < f z := by
  unfold f
  apply Real.log_pos
  have := Real.exp_pos z
  linarith

theorem f_ge (z : ℝ) : z ≤ f z := by
  unfold f
  have h : Real.log (Real.exp z) ≤ Real.log (1 + Real.exp z) := by
    apply Real.log_le_log (Real.exp_pos z)
    linarith
  rwa [Real.log_exp] at h

theorem softplus_nonneg (z : ℝ) : 0 ≤ softplus z := by
  rw [softplus_real]
  split_ifs with h1 h2
  · linarith
  · exact le_refl _
  · exact (f_pos z).le

theorem σ_pos (z : ℝ) : 0 < σ z := by
  unfold σ
  have := Real.exp_pos (-z)
  positivity

theorem σ_le_one (z : ℝ) : σ z ≤ 1 := by
  unfold σ
  rw [div_le_one (by have := Real.exp_pos (-z); positivity)]
  have := Real.exp_pos (-z)
  linarith

/-- The tangent of the convex function `f` is below it. -/
theorem f_tangent (z z' : ℝ) : f z + σ z * (z' - z) ≤ f z' := by
  have hz := Real.exp_pos z
  have hz' := Real.exp_pos z'
  have hs := σ_pos z
  have hs1 := σ_le_one z
  -- exp (σ t) ≤ 1 - σ + σ exp t
  have hc : Real.exp (σ z * (z' - z)) ≤ (1 - σ z) + σ z * Real.exp (z' - z) := by
    have h := convexOn_exp.2 (Set.mem_univ (0 : ℝ)) (Set.mem_univ (z' - z)) (by linarith : (0 : ℝ) ≤ 1 - σ z) hs.le
      (by ring)
    simpa using h
  have e1 : σ z = Real.exp z / (1 + Real.exp z) := by
    unfold σ
    rw [Real.exp_neg]
    field_simp
    ring
  have e2 : (1 - σ z) + σ z * Real.exp (z' - z) = (1 + Real.exp z') / (1 + Real.exp z) := by
    rw [e1, Real.exp_sub]
    field_simp
    ring
  have h3 : σ z * (z' - z) ≤ Real.log ((1 + Real.exp z') / (1 + Real.exp z)) := by
    rw [← e2, Real.le_log_iff_exp_le (by rw [e2]; positivity)]
    exact hc
  rw [Real.log_div (by positivity) (by positivity)] at h3
  unfold f
  linarith

/-- Far right, `f` is close to the identity. -/
theorem f_le (z : ℝ) : f z ≤ z + Real.exp (-z) := by
  unfold f
  have hz := Real.exp_pos z
  have e : 1 + Real.exp z = Real.exp z * (1 + Real.exp (-z)) := by
    rw [mul_add, ← Real.exp_add]
    simp
    ring
  rw [e, Real.log_mul (by positivity) (by have := Real.exp_pos (-z); positivity), Real.log_exp]
  have := Real.log_le_sub_one_of_pos (by have := Real.exp_pos (-z); positivity : (0 : ℝ) < 1 + Real.exp (-z))
  linarith

theorem f_le_exp (z : ℝ) : f z ≤ Real.exp z := by
  unfold f
  have := Real.log_le_sub_one_of_pos (by have := Real.exp_pos z; positivity : (0 : ℝ) < 1 + Real.exp z)
  linarith

/-- The slope of `softplus` as reported with the gradient. -/
noncomputable def slope (z : ℝ) : ℝ := if 100 < z then 1 else if z < -100 then 0 else σ z

theorem softplus_le_f (z : ℝ) : softplus z ≤ f z := by
  rw [softplus_real]
  split_ifs with h1 h2
  · exact f_ge z
  · exact (f_pos z).le
  · exact le_refl _

theorem f_le_softplus (z : ℝ) : f z ≤ softplus z + Real.exp (-100) := by
  rw [softplus_real]
  have h0 := Real.exp_pos (-100 : ℝ)
  split_ifs with h1 h2
  · have := f_le z
    have : Real.exp (-z) ≤ Real.exp (-100) := Real.exp_le_exp.2 (by linarith)
    linarith
  · have := f_le_exp z
    have : Real.exp z ≤ Real.exp (-100) := Real.exp_le_exp.2 (by linarith)
    linarith
  · linarith

/-- The reported slope is a subgradient, up to the jumps of size at most `exp (-100)` at the cut-offs. -/
theorem softplus_tangent (z z' : ℝ) : softplus z + slope z * (z' - z) ≤ softplus z' + Real.exp (-100) := by
  have h0 := Real.exp_pos (-100 : ℝ)
  have hn := softplus_nonneg z'
  by_cases h1 : 100 < z
  · have hz' : z' ≤ softplus z' := by
      rw [softplus_real]
      split_ifs with a b
      · exact le_refl _
      · linarith
      · exact f_ge z'
    have e : softplus z = z := by rw [softplus_real, if_pos h1]
    rw [e]
    simp only [slope, if_pos h1]
    linarith
  · by_cases h2 : z < -100
    · have e : softplus z = 0 := by rw [softplus_real, if_neg h1, if_pos h2]
      rw [e]
      simp only [slope, if_neg h1, if_pos h2]
      linarith
    · simp only [slope, if_neg h1, if_neg h2]
      have := f_tangent z z'
      have := softplus_le_f z
      have := f_le_softplus z'
      linarith

/-- Exactly a subgradient when the other point is not cut off, or this one is. -/
theorem softplus_tangent_exact (z z' : ℝ) (h : (100 < z ∨ z < -100) ∨ (-100 ≤ z' ∧ z' ≤ 100)) :
    softplus z + slope z * (z' - z) ≤ softplus z' := by
  have hn := softplus_nonneg z'
  by_cases h1 : 100 < z
  · have hz' : z' ≤ softplus z' := by
      rw [softplus_real]
      split_ifs with a b
      · exact le_refl _
      · linarith
      · exact f_ge z'
    have e : softplus z = z := by rw [softplus_real, if_pos h1]
    rw [e]
    simp only [slope, if_pos h1]
    linarith
  · by_cases h2 : z < -100
    · have e : softplus z = 0 := by rw [softplus_real, if_neg h1, if_pos h2]
      rw [e]
      simp only [slope, if_neg h1, if_pos h2]
      linarith
    · simp only [slope, if_neg h1, if_neg h2]
      have := f_tangent z z'
      have := softplus_le_f z
      have e : softplus z' = f z' := by
        rw [softplus_real, if_neg (by rcases h with h | h; tauto; linarith), if_neg (by rcases h with h | h; tauto; linarith)]
      linarith

/-! ### Gradient arrays -/

open Sol.Spec

theorem dot_zero (g d : List ℝ) (h : ∀ v ∈ g, v = 0) : dot g d = 0 := by
  induction g generalizing d with
  | nil => cases d <;> rfl
  | cons a g ih =>
    cases d with
    | nil => rfl
    | cons b d =>
      simp only [dot]
      rw [ih d fun v hv => h v (by simp [hv]), h a (by simp)]
      ring

theorem dot_set (g d : List ℝ) (i : Nat) (v : ℝ) (hg : i < g.length) (hd : i < d.length) :
    dot (g.set i v) d = dot g d + (v - g[i]) * d[i] := by
  induction g generalizing d i with
  | nil => simp at hg
  | cons a g ih =>
    cases d with
    | nil => simp at hd
    | cons b d =>
      cases i with
      | zero => simp [dot]; ring
      | succ i =>
        simp only [List.set_cons_succ, dot, List.getElem_cons_succ]
        rw [ih d i (by simpa using hg) (by simpa using hd)]
        ring

theorem sum_set (g : List ℝ) (i : Nat) (v : ℝ) (hg : i < g.length) : (g.set i v).sum = g.sum + (v - g[i]) := by
  induction g generalizing i with
  | nil => simp at hg
  | cons a g ih =>
    cases i with
    | zero => simp; ring
    | succ i =>
      simp only [List.set_cons_succ, List.sum_cons, List.getElem_cons_succ]
      rw [ih i (by simpa using hg)]
      ring

/-- The array written by `pairGrad`. -/
def pair (n q : Nat) (u : ℝ) (label : Nat) (v : ℝ) : List ℝ := ((List.replicate n 0).set q u).set label v

theorem pairGrad_eq (g : List ℝ) (q label : Nat) (u v : ℝ) (hq : q < g.length) (hl : label < g.length) :
    pairGrad g (q : Int) u (label : Int) v = .ok (pair g.length q u label v) := by
  unfold pairGrad pair
  have e : (g.map fun _ => (0 : ℝ)) = List.replicate g.length 0 := by
    apply List.ext_getElem
    · simp
    · simp
  rw [e, set_nat _ q u (by simpa using hq), Res.bind_ok, set_nat _ label v (by simpa using hl)]

theorem pair_length (n q label : Nat) (u v : ℝ) : (pair n q u label v).length = n := by simp [pair]

theorem pair_sum (n q label : Nat) (u v : ℝ) (hq : q < n) (hl : label < n) (hne : q ≠ label) :
    (pair n q u label v).sum = u + v := by
  unfold pair
  rw [sum_set _ _ _ (by simpa using hl), sum_set _ _ _ (by simpa using hq)]
  simp [hne]

theorem pair_get (n q label : Nat) (u v : ℝ) (hq : q < n) (hl : label < n) (hne : q ≠ label) (j : Nat) (hj : j < n) :
    (pair n q u label v)[j]? = some (if j = label then v else if j = q then u else 0) := by
  unfold pair
  rw [List.getElem?_set, List.getElem?_set]
  by_cases h1 : j = label
  · subst h1; simp [hj]
  · rw [if_neg (Ne.symm h1), if_neg h1]
    by_cases h2 : j = q
    · subst h2; simp [hj]
    · rw [if_neg (Ne.symm h2), if_neg h2]; simp [hj]

theorem pair_dot (n q label : Nat) (u v : ℝ) (d : List ℝ) (hd : d.length = n) (hq : q < n) (hl : label < n)
    (hne : q ≠ label) : dot (pair n q u label v) d = u * d[q] + v * d[label] := by
  unfold pair
  rw [dot_set _ _ _ _ (by simpa using hl) (by omega), dot_set _ _ _ _ (by simpa using hq) (by omega), dot_zero]
  · simp [hne]
  · intro v hv
    exact (List.mem_replicate.1 hv).2

/-! ### The uniform losses -/

/-- Number of classes that are not below `x` (the true class among them). -/
noncomputable def notBelow (p : List ℝ) (x : ℝ) : Nat := p.countP fun v => decide (x ≤ v)

/-- Sum of their scores. -/
noncomputable def notBelowSum (p : List ℝ) (x : ℝ) : ℝ := (p.filter fun v => decide (x ≤ v)).sum

theorem falseLoop_eq (x : ℝ) (p : List ℝ) (a b : ℝ) :
    falseLoop x p (a, b) = (a + notBelowSum p x, b + notBelow p x) := by
  induction p generalizing a b with
  | nil => simp [falseLoop, notBelowSum, notBelow]
  | cons v p ih =>
    simp only [falseLoop]
    by_cases h : x ≤ v
    · rw [if_pos (by simpa using h), ih]
      simp [notBelowSum, notBelow, h]
      constructor <;> ring
    · rw [if_neg (by simpa using h), ih]
      simp [notBelowSum, notBelow, h]

theorem falses_eq (p : List ℝ) (label : Nat) (hl : label < p.length) :
    falses p (label : Int) = .ok (notBelowSum p p[label] - p[label], (notBelow p p[label] : ℝ) - 1) := by
  unfold falses
  rw [get_nat p label hl, Res.bind_ok, falseLoop_eq]
  simp [FFun.tiny]

theorem uniGrad_eq (p : List ℝ) (label : Nat) (v u : ℝ) (hl : label < p.length) :
    uniGrad p (label : Int) v u = .ok ((p.map fun x => if p[label] ≤ x then v else 0).set label u) := by
  unfold uniGrad
  rw [get_nat p label hl, Res.bind_ok, set_nat _ _ _ (by simpa using hl)]
  congr 2
  apply List.map_congr_left
  intro x _
  by_cases h : p[label] ≤ x
  · rw [if_pos (by simpa using h), if_pos h]
  · rw [if_neg (by simpa using h), if_neg h]

theorem uni_sum (p : List ℝ) (x v : ℝ) : (p.map fun y => if x ≤ y then v else 0).sum = notBelow p x * v := by
  induction p with
  | nil => simp [notBelow]
  | cons a p ih =>
    simp only [List.map_cons, List.sum_cons, ih]
    by_cases h : x ≤ a
    · simp [notBelow, h]; ring
    · simp [notBelow, h]

theorem uni_total (p : List ℝ) (label : Nat) (v u : ℝ) (hl : label < p.length) :
    ((p.map fun x => if p[label] ≤ x then v else 0).set label u).sum = ((notBelow p p[label] : ℝ) - 1) * v + u := by
  rw [sum_set _ _ _ (by simpa using hl), uni_sum]
  simp
  ring

/-- A contested true class: at least two classes are not below it. -/
theorem contested_count (p : List ℝ) (label : Nat) (hl : label < p.length) (hc : Contested p label) :
    2 ≤ notBelow p p[label] := by
  obtain ⟨j, a, b, hj, ha, hb, hab⟩ := hc
  have hb' : b = p[label] := by simpa [hl] using hb.symm
  subst hb'
  obtain ⟨hjl, rfl⟩ := List.getElem?_eq_some_iff.1 ha
  unfold notBelow
  -- split the list at the smaller of the two positions
  have key : ∀ (l : List ℝ) (i k : Nat) (hi : i < l.length) (hk : k < l.length) (x : ℝ), i < k → x ≤ l[i] → x ≤ l[k] →
      2 ≤ l.countP fun v => decide (x ≤ v) := by
    intro l
    induction l with
    | nil => intro i k hi; simp at hi
    | cons c l ih =>
      intro i k hi hk x hik h1 h2
      cases i with
      | zero =>
        obtain ⟨m, rfl⟩ : ∃ m, k = m + 1 := ⟨k - 1, by omega⟩
        simp only [List.getElem_cons_zero] at h1
        simp only [List.getElem_cons_succ] at h2
        have : 0 < l.countP fun v => decide (x ≤ v) := by
          rw [List.countP_pos_iff]
          exact ⟨_, List.getElem_mem (by simpa using hk), by simpa using h2⟩
        rw [List.countP_cons, if_pos (by simpa using h1)]
        omega
      | succ i =>
        obtain ⟨m, rfl⟩ : ∃ m, k = m + 1 := ⟨k - 1, by omega⟩
        have := ih i m (by simpa using hi) (by simpa using hk) x (by omega) (by simpa using h1) (by simpa using h2)
        rw [List.countP_cons]
        omega
  rcases Nat.lt_or_ge j label with h | h
  · exact key p j label hjl hl _ h hab (le_refl _)
  · exact key p label j hl hjl _ (by omega) (le_refl _) hab

/-! ### Shifting all scores -/

theorem maxLoop_shift (best : Nat) (bv : ℝ) (i : Nat) (l : List ℝ) (c : ℝ) :
    maxLoop best (bv + c) i (l.map (· + c)) = maxLoop best bv i l := by
  induction l generalizing best bv i with
  | nil => rfl
  | cons a l ih =>
    simp only [List.map_cons, maxLoop]
    by_cases h : bv < a
    · rw [if_pos (by simpa using h), if_pos (by simpa using h), ih]
    · rw [if_neg (by simpa using h), if_neg (by simpa using h), ih]

theorem maxElement_shift (l : List ℝ) (c : ℝ) : maxElement (l.map (· + c)) = maxElement l := by
  cases l with
  | nil => rfl
  | cons a l => simp only [List.map_cons, maxElement, maxLoop_shift]

theorem Rival.shift {p : List ℝ} {label q : Nat} (h : Rival p label q) (c : ℝ) : Rival (p.map (· + c)) label q := by
  refine ⟨by simpa using h.lt, h.ne, ?_, ?_⟩
  · intro j u v hj hu hv
    rw [List.getElem?_map] at hu hv
    obtain ⟨u, hu', rfl⟩ := Option.map_eq_some_iff.1 hu
    obtain ⟨v, hv', rfl⟩ := Option.map_eq_some_iff.1 hv
    have := h.best j u v hj hu' hv'
    linarith
  · intro j u v hjq hj hu hv
    rw [List.getElem?_map] at hu hv
    obtain ⟨u, hu', rfl⟩ := Option.map_eq_some_iff.1 hu
    obtain ⟨v, hv', rfl⟩ := Option.map_eq_some_iff.1 hv
    have := h.first j u v hjq hj hu' hv'
    linarith

theorem notBelow_shift (p : List ℝ) (x c : ℝ) : notBelow (p.map (· + c)) (x + c) = notBelow p x := by
  unfold notBelow
  rw [List.countP_map]
  congr 1
  funext v
  simp

theorem notBelowSum_shift (p : List ℝ) (x c : ℝ) :
    notBelowSum (p.map (· + c)) (x + c) = notBelowSum p x + notBelow p x * c := by
  induction p with
  | nil => simp [notBelowSum, notBelow]
  | cons a p ih =>
    simp only [notBelowSum, notBelow, List.map_cons] at ih ⊢
    by_cases h : x ≤ a
    · rw [List.filter_cons_of_pos (by simpa using h), List.filter_cons_of_pos (by simpa using h),
        List.countP_cons_of_pos (by simpa using h), List.sum_cons, List.sum_cons, ih]
      push_cast
      ring
    · rw [List.filter_cons_of_neg (by simpa using h), List.filter_cons_of_neg (by simpa using h),
        List.countP_cons_of_neg (by simpa using h), ih]

theorem f_mono {z z' : ℝ} (h : z ≤ z') : f z ≤ f z' := by
  unfold f
  have := Real.exp_pos z
  have := Real.exp_le_exp.2 h
  exact Real.log_le_log (by linarith) (by linarith)

end Sol.Loss
