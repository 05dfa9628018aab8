import Verif.Proofs.DualRegret
import Verif.Props.AdaRegret
import Mathlib.NumberTheory.Harmonic.Bounds
/-! C70: the cumulative loss of regularised dual averaging, compared with any fixed linear function. -/

set_option linter.unusedSectionVars false

namespace Sol.Props

open Sol.Online Sol.Olm Sol.Sparse Sol.Loss Sol.Spec

section
variable {α : Type} [Field α] [LinearOrder α] [IsStrictOrderedRing α] [FFun α] [FSqrt α]

/-- `ends` are the models that training would give if it ended before each of the examples. -/
def EndsAs {A : Type} (G : Alg α A) (c : Cfg α) (sts ends : List (St α A)) : Prop :=
  List.Forall₂ (fun st m => G.endTrain c st = .ok m) sts ends

/-- The setting: plain updates (no lazy updates, no active learning, no costs), an untrained model, examples with features 1 to
    `D-1` and norm at most `R`, proper labels, and linear functions `U` to compare with (without bias if it is not learnt). -/
structure Averages (c : Cfg α) (m : α) (Lab : Int → Prop) (Low : (Nat → α) → Prop) (D : Nat) (R : α) (U : Nat → Nat → α)
    (s : St α (List (List α))) (l : List (Ex α × α)) (ends : List (St α (List (List α)))) : Prop where
  lazy : c.lazyUpdate = false
  smooth : c.smooth ≤ 0
  cost : c.cost = none
  bias : 0 ≤ c.biasEta0
  dim : 1 ≤ D
  unbiased : c.biasEta0 = 0 → ∀ k < c.clf, U k 0 = 0
  fit : Fit c (vecs c.clf) s
  blank : ∀ v ∈ s.alg, ∀ a ∈ v, a = 0
  start : s.t = 0
  margin : s.margin = m
  tame : ∀ q ∈ l, Tame c.biasEta0 D R q.1.x
  labels : ∀ q ∈ l, Lab q.1.label
  scores : ∀ z ∈ ends.zip l, Low (scoresOf (fun k i => coord (z.1.w.getD k []) i) z.2.1.x)

/-- The squared norm of the weights of a model. -/
def heft {A : Type} (c : Cfg α) (D : Nat) (s : St α A) : α :=
  ∑ k ∈ Finset.range c.clf, unorm D c.biasEta0 fun i => coord (s.w.getD k []) i

theorem unorm_rate {D : Nat} (hD : 1 ≤ D) (b : α) (u : Nat → α) : unorm D b u = ∑ i ∈ Finset.range D, u i ^ 2 / rateOf b i := by
  unfold unorm
  rw [Finset.range_eq_Ico, Finset.sum_eq_sum_Ico_succ_bot (show 0 < D from hD), add_comm]
  congr 1
  refine Finset.sum_congr rfl fun i hi => ?_
  rw [rateOf, if_neg (by have := (Finset.mem_Ico.1 hi).1; omega), div_one]

theorem dual_bent {c : Cfg α} {m κ ε R sigma eps : α} {L : Ex α → (Nat → α) → α} {Lab : Int → Prop} {Low : (Nat → α) → Prop}
    (hL : Bent c m L κ ε Lab Low) (hk : Matches c.kind c.clf) (hlab : ∀ y, Lab y → LabelOk c.clf y) {D : Nat}
    {U : Nat → Nat → α} {s s' : St α (List (List α))} {l : List (Ex α × α)} {sts ends : List (St α (List (List α)))}
    (hA : Averages c m Lab Low D R U s l ends) (hsig : 0 < sigma) (heps : 0 < eps) (hv : Visits (rda sigma eps) c s l sts s')
    (he : EndsAs (rda sigma eps) c sts ends) :
    (suffered L ends l).sum + sigma / 2 * (ends.map (heft c D)).sum ≤ (fixed L U l).sum + l.length * ε
      + sigma / 2 * (l.length + eps) * energy c D U + 2 * (κ * R ^ 2) / sigma * ∑ j ∈ Finset.range l.length, 1 / ((j : α) + 1) := by
  -- the states fit
  have hfits : ∀ st ∈ sts, Fit c (vecs c.clf) st := by
    have hgood : ∀ q ∈ l, Good q.1.x ∧ LabelOk c.clf q.1.label := fun q hq => ⟨(hA.tame q hq).1, hlab _ (hA.labels q hq)⟩
    have hf := hA.fit
    clear he hA
    induction hv with
    | nil => simp
    | @cons s s1 s2 e r l sts hone ht ih =>
      obtain ⟨hx, hle⟩ := hgood (e, r) List.mem_cons_self
      obtain ⟨ev, s'', hh, hf', -⟩ := happens (safe_rda c sigma eps) hk s hf e r hx hle
      obtain ⟨_, _, _, _, _, _, _, _, h1⟩ := hh
      rw [hone] at h1
      obtain rfl := Res.ok.inj h1
      intro st hst
      rcases List.mem_cons.1 hst with rfl | hst
      · exact hf
      · exact ih (fun q hq => hgood q (List.mem_cons_of_mem _ hq)) hf' st hst
  have hlen : sts.length = l.length := by
    clear he hA hfits
    induction hv with
    | nil => rfl
    | cons _ _ ih => simp [ih]
  have hlen' : ends.length = sts.length := he.length_eq.symm
  -- the weights of the ends
  have hend : ∀ i (hi : i < sts.length) (hj : i < ends.length), ∀ k < c.clf, ∀ j,
      cell ends[i].w k j = dualOf c.biasEta0 (1 / (((sts[i].t : α) + eps) * sigma)) sts[i].alg k j := by
    intro i hi hj
    have := (List.forall₂_iff_get.1 he).2 i hi hj
    exact rda_end_cell c sigma eps (hfits _ (List.getElem_mem hi)) this
  have hwid : ∀ i (hi : i < sts.length) (hj : i < ends.length), ∀ k, c.clf ≤ k → ∀ j,
      cell ends[i].w k j = dualOf c.biasEta0 (1 / (((sts[i].t : α) + eps) * sigma)) sts[i].alg k j := by
    intro i hi hj k hk' j
    have h1 := (List.forall₂_iff_get.1 he).2 i hi hj
    have h2 := hfits _ (List.getElem_mem hi)
    simp only [List.get_eq_getElem, rda] at h1
    rw [eachWith_closed _ _ _ (h2.w.1.trans h2.alg.1.symm) fun v hv u hu => fromDualAll_closed _ _
      (by rw [h2.alg.2 u hu]; exact h2.dim) (by rw [h2.alg.2 u hu, h2.w.2 v hv]), Res.bind_ok] at h1
    rw [← Res.ok.inj h1]
    have h3 : cell sts[i].alg k j = 0 := by
      have : sts[i].alg[k]? = none := List.getElem?_eq_none (by rw [h2.alg.1]; exact hk')
      simp [cell, coord, List.getD_eq_getElem?_getD, this]
    unfold dualOf
    rw [h3, mul_zero]
    simp only [cell, List.getD_eq_getElem?_getD]
    rw [List.getElem?_eq_none (by simp [h2.w.1, h2.alg.1]; omega)]
    simp [coord]
  have hall : ∀ i (hi : i < sts.length) (hj : i < ends.length),
      cell ends[i].w = dualOf c.biasEta0 (1 / (((sts[i].t : α) + eps) * sigma)) sts[i].alg := by
    intro i hi hj
    funext k j
    rcases Nat.lt_or_ge k c.clf with h | h
    · exact hend i hi hj k h j
    · exact hwid i hi hj k h j
  have h0 : ∀ k i, cell s.alg k i = 0 := by
    intro k i
    unfold cell coord
    rw [List.getD_eq_getElem?_getD (l := s.alg), List.getD_eq_getElem?_getD]
    cases hv : s.alg[k]? with
    | none => simp
    | some v =>
      simp only [Option.getD_some]
      cases hw : v[i]? with
      | none => rfl
      | some b => exact hA.blank v (List.mem_of_getElem? hv) b (List.mem_of_getElem? hw)
  have hP0 : wsum c D (fun k i => cell s.alg k i ^ 2) = 0 := by
    unfold wsum
    simp [h0]
  obtain ⟨-, h1⟩ := dual_visits hsig heps hk hA.lazy hA.smooth hA.cost hA.dim hA.bias U hL (R := R) 0 (by simpa using hA.start) hA.fit
    hA.margin (by rw [hP0]; simp) (fun q hq => ⟨(hA.tame q hq).1, (hA.tame q hq).2.1, (hA.tame q hq).2.2, hlab _ (hA.labels q hq),
      hA.labels q hq⟩) hv (by
      intro z hz
      obtain ⟨i, hi, rfl⟩ := List.mem_iff_getElem.1 hz
      have hi' : i < sts.length ∧ i < l.length := by simpa using hi
      have h2 := hA.scores ((ends.zip l)[i]'(by simp; omega)) (List.getElem_mem _)
      rw [List.getElem_zip] at h2 ⊢
      have h3 := hall i hi'.1 (by omega)
      simp only at h2 ⊢
      rw [← h3]
      exact h2)
  have h2 := dual_last (a := (l.length : α) + eps) hA.bias hsig (by positivity) D hA.unbiased (cell s'.alg)
  rw [hP0] at h1
  simp only [h0, zero_mul, Finset.sum_const_zero, zero_div, Nat.cast_zero, zero_add, add_zero] at h1
  have e1 : ∑ k ∈ Finset.range c.clf, ∑ i ∈ Finset.range D, U k i ^ 2 / rateOf c.biasEta0 i = energy c D U := by
    unfold energy
    exact Finset.sum_congr rfl fun k _ => (unorm_rate hA.dim _ _).symm
  rw [e1] at h2
  have e2 : ∑ j ∈ Finset.range l.length, 2 * (κ * R ^ 2) / (sigma * ((j : α) + 1))
      = 2 * (κ * R ^ 2) / sigma * ∑ j ∈ Finset.range l.length, 1 / ((j : α) + 1) := by
    rw [Finset.mul_sum]
    refine Finset.sum_congr rfl fun j _ => ?_
    have : (0 : α) < (j : α) + 1 := by positivity
    field_simp
  rw [e2] at h1
  have e3 : ((sts.zip l).map (gainOf c D sigma eps ε U L)).sum
      = (suffered L ends l).sum + sigma / 2 * (ends.map (heft c D)).sum - (fixed L U l).sum - l.length * ε := by
    have hl3 : (sts.zip l).map (gainOf c D sigma eps ε U L) = (ends.zip l).map fun z =>
        L z.2.1 (scoresOf (fun k i => coord (z.1.w.getD k []) i) z.2.1.x) - L z.2.1 (scoresOf U z.2.1.x) - ε
          + sigma / 2 * heft c D z.1 := by
      apply List.ext_getElem (by simp [hlen', hlen])
      intro i hi hj
      have hi' : i < sts.length ∧ i < l.length := by simpa using hi
      simp only [List.getElem_map, List.getElem_zip, gainOf]
      have h3 := hall i hi'.1 (by omega)
      have h4 : (fun k i_1 => coord ((ends[i]'(by omega)).w.getD k []) i_1) = cell (ends[i]'(by omega)).w := rfl
      rw [h4, h3]
      congr 2
      unfold heft wsum
      rw [Finset.sum_div]
      refine Finset.sum_congr rfl fun k hk' => ?_
      rw [unorm_rate hA.dim, Finset.sum_div]
      refine Finset.sum_congr rfl fun j _ => ?_
      have h5 := congrFun (congrFun h3 k) j
      unfold cell at h5
      rw [h5]
      unfold dualOf
      by_cases hr : rateOf c.biasEta0 j = 0
      · rw [hr]; simp
      · have e6 : ∀ r Y g : α, r ≠ 0 → r * g ^ 2 / Y ^ 2 = (-(r * (1 / Y)) * g) ^ 2 / r := by
          intro r Y g hr
          rw [show (-(r * (1 / Y)) * g) ^ 2 / r = r / r * (r * g ^ 2 * (1 / Y) ^ 2) by ring, div_self hr]
          rw [one_div, inv_pow, one_mul, div_eq_mul_inv]
        rw [mul_comm ((sts[i].t : α) + eps) sigma]
        exact e6 _ _ _ hr
    rw [hl3]
    have hl4 : ∀ (es : List (St α (List (List α)))) (ls : List (Ex α × α)), es.length = ls.length →
        ((es.zip ls).map fun z => L z.2.1 (scoresOf (fun k i => coord (z.1.w.getD k []) i) z.2.1.x) - L z.2.1 (scoresOf U z.2.1.x) - ε
          + sigma / 2 * heft c D z.1).sum
        = (suffered L es ls).sum + sigma / 2 * (es.map (heft c D)).sum - (fixed L U ls).sum - ls.length * ε := by
      intro es
      induction es with
      | nil => intro ls h; have : ls = [] := List.length_eq_zero_iff.1 h.symm; subst this; simp [suffered, fixed]
      | cons a es ih =>
        intro ls h
        cases ls with
        | nil => simp at h
        | cons q ls =>
          have := ih ls (by simpa using h)
          simp only [List.zip_cons_cons, List.map_cons, List.sum_cons, suffered, fixed, List.length_cons] at this ⊢
          push_cast
          rw [this]
          ring
    exact hl4 ends l (by omega)
  rw [e3] at h1
  linarith

/-- C70: the cumulative loss of RDA, with the regulariser `σ/2 |w|²` added to the loss of each model, exceeds that of any `U`,
    with `σ/2 |U|²` added, by at most `2 κ R²/σ` times the harmonic number of the examples (and `σ ε/2 |U|²` for the tiny
    number the code adds to the count). -/
theorem C70_regret (c : Cfg α) (m κ R sigma eps : α) (L : Ex α → (Nat → α) → α) (Lab : Int → Prop)
    (Low : (Nat → α) → Prop) (hL : HingeLoss c m L κ Lab Low) (D : Nat) (U : Nat → Nat → α) (s s' : St α (List (List α)))
    (l : List (Ex α × α)) (sts ends : List (St α (List (List α)))) (hA : Averages c m Lab Low D R U s l ends)
    (hsig : 0 < sigma) (heps : 0 < eps) (hv : Visits (rda sigma eps) c s l sts s') (he : EndsAs (rda sigma eps) c sts ends) :
    (suffered L ends l).sum + sigma / 2 * (ends.map (heft c D)).sum ≤ (fixed L U l).sum
      + sigma / 2 * (l.length + eps) * energy c D U + 2 * (κ * R ^ 2) / sigma * ∑ j ∈ Finset.range l.length, 1 / ((j : α) + 1) := by
  obtain ⟨hB, hk, -, hlab⟩ := hL.bent
  have := dual_bent hB hk hlab hA hsig heps hv he
  simpa using this

/-- Training can always end: the hypothesis `EndsAs` can be met. -/
theorem C70_ends (c : Cfg α) (sigma eps : α) (hk : Matches c.kind c.clf) (l : List (Ex α × α)) (hl : Usable c l)
    (s s' : St α (List (List α))) (hs : Fit c (vecs c.clf) s) (sts : List (St α (List (List α))))
    (hv : Visits (rda sigma eps) c s l sts s') : ∃ ends, EndsAs (rda sigma eps) c sts ends := by
  induction hv with
  | nil s => exact ⟨[], .nil⟩
  | @cons s s1 s2 e r l sts hone ht ih =>
    obtain ⟨hx, hle⟩ := hl (e, r) List.mem_cons_self
    obtain ⟨ev, s'', hh, hf', -⟩ := happens (safe_rda c sigma eps) hk s hs e r hx hle
    obtain ⟨_, _, _, _, _, _, _, _, h1⟩ := hh
    rw [hone] at h1
    obtain rfl := Res.ok.inj h1
    obtain ⟨ends, he⟩ := ih (fun q hq => hl q (List.mem_cons_of_mem _ hq)) hf'
    obtain ⟨m, hm, -⟩ := closes_rda c sigma eps s hs
    exact ⟨m :: ends, .cons hm he⟩

end

theorem harmonic_log (n : Nat) : ∑ j ∈ Finset.range n, 1 / ((j : ℝ) + 1) ≤ 1 + Real.log n := by
  have h := harmonic_le_one_add_log n
  unfold harmonic at h
  push_cast at h
  simpa [one_div] using h

/-- C70: the bound grows like the logarithm of the number of examples. -/
theorem C70_logarithmic (c : Cfg ℝ) (m κ R sigma eps : ℝ) (L : Ex ℝ → (Nat → ℝ) → ℝ) (Lab : Int → Prop)
    (Low : (Nat → ℝ) → Prop) (hL : HingeLoss c m L κ Lab Low) (D : Nat) (U : Nat → Nat → ℝ) (s s' : St ℝ (List (List ℝ)))
    (l : List (Ex ℝ × ℝ)) (sts ends : List (St ℝ (List (List ℝ)))) (hA : Averages c m Lab Low D R U s l ends)
    (hsig : 0 < sigma) (heps : 0 < eps) (hv : Visits (rda sigma eps) c s l sts s') (he : EndsAs (rda sigma eps) c sts ends) :
    (suffered L ends l).sum + sigma / 2 * (ends.map (heft c D)).sum ≤ (fixed L U l).sum
      + sigma / 2 * (l.length + eps) * energy c D U + 2 * (κ * R ^ 2) / sigma * (1 + Real.log l.length) := by
  have h1 := C70_regret c m κ R sigma eps L Lab Low hL D U s s' l sts ends hA hsig heps hv he
  have hκ := hL.bent.2.2.1
  have h4 : 2 * (κ * R ^ 2) / sigma * ∑ j ∈ Finset.range l.length, 1 / ((j : ℝ) + 1)
      ≤ 2 * (κ * R ^ 2) / sigma * (1 + Real.log l.length) := mul_le_mul_of_nonneg_left (harmonic_log _) (by positivity)
  linarith

/-- C70 for the logistic loss, up to `2 exp(-100)` per example for the cut-offs of the code. -/
theorem C70_logistic (c : Cfg ℝ) (hkind : c.kind = .logistic) (hclf : c.clf = 1) (m R sigma eps : ℝ) (D : Nat) (U : Nat → Nat → ℝ)
    (s s' : St ℝ (List (List ℝ))) (l : List (Ex ℝ × ℝ)) (sts ends : List (St ℝ (List (List ℝ))))
    (hA : Averages c m (fun y => y = 1 ∨ y = -1) (fun _ => True) D R U s l ends)
    (hsig : 0 < sigma) (heps : 0 < eps) (hv : Visits (rda sigma eps) c s l sts s') (he : EndsAs (rda sigma eps) c sts ends) :
    (suffered logisticOf ends l).sum + sigma / 2 * (ends.map (heft c D)).sum ≤ (fixed logisticOf U l).sum
      + sigma / 2 * (l.length + eps) * energy c D U + 2 * R ^ 2 / sigma * (1 + Real.log l.length)
      + 2 * Real.exp (-100) * l.length := by
  have h1 := dual_bent (bent_logistic hkind hclf m) (by rw [hkind]; exact hclf) (fun _ _ => .inl hclf) hA hsig heps hv he
  obtain ⟨h2, h3⟩ := logistic_close U l ends (he.length_eq.symm.trans (visits_length hv))
  have h4 := mul_le_mul_of_nonneg_left (harmonic_log l.length) (show 0 ≤ 2 * (1 * R ^ 2) / sigma by positivity)
  rw [one_mul] at h1 h4
  linarith

/-! ### Instance -/

/-- The models of dual averaging with `σ = 1` and `ε = 1`. -/
def averages : List (St Rat (List (List Rat))) :=
  [model1 [[0]], ⟨2, [[0, 0]], [-1], 1, 1, 0, 1, 1, 1, 0, false, [[-1, -1]]⟩, ⟨2, [[0, 1 / 2]], [1], 1 / 2, 1, 0, 2, 2, 2, 1, false, [[0, 0]]⟩]

/-- The models that training would give there. -/
def averageEnds : List (St Rat (List (List Rat))) :=
  [⟨1, [[0]], [0], 1, 1, 0, 0, 0, 0, 0, false, [[0]]⟩, ⟨2, [[0, 1 / 2]], [-1], 1 / 2, 1, 0, 1, 1, 1, 0, false, [[-1, -1]]⟩,
   ⟨2, [[0, 0]], [1], 1 / 3, 1, 0, 2, 2, 2, 1, false, [[0, 0]]⟩]

/-- A run that meets the hypotheses of C70, compared with the function `x ↦ x`: losses 1, 3/2, 1 and regularisers 0, 1/8, 0
    against losses 0, 2, 0 and regularisers 1/2 each. -/
theorem C70_instance :
    letI : FFun Rat := lowFun
    letI : FSqrt Rat := ⟨fun a => a⟩
    (∃ s', Visits (rda 1 1) (cfg1 : Cfg Rat) (model1 [[0]]) noisy averages s') ∧
    EndsAs (rda 1 1) (cfg1 : Cfg Rat) averages averageEnds ∧
    HingeLoss (cfg1 : Cfg Rat) 1 (hingeOf 1) 1 (fun y => y = 1 ∨ y = -1) (fun _ => True) ∧
    Averages (cfg1 : Cfg Rat) 1 (fun y => y = 1 ∨ y = -1) (fun _ => True) 2 1 (fun _ i => if i = 1 then 1 else 0) (model1 [[0]]) noisy
      averageEnds ∧
    suffered (hingeOf 1) averageEnds noisy = [1, 3 / 2, 1] ∧ averageEnds.map (heft cfg1 2) = [0, 1 / 4, 0] := by
  letI : FFun Rat := lowFun
  letI : FSqrt Rat := ⟨fun a => a⟩
  refine ⟨⟨⟨2, [[0, 0]], [-1], 1 / 3, 1, 0, 3, 3, 3, 1, false, [[-1, -1]]⟩, .cons (by decide +kernel) (.cons (by decide +kernel)
    (.cons (by decide +kernel) (.nil _)))⟩, .cons (by decide +kernel) (.cons (by decide +kernel) (.cons (by decide +kernel) .nil)),
    .binary rfl rfl, ?_, by decide +kernel, by decide +kernel⟩
  refine ⟨rfl, le_refl _, rfl, le_refl _, by decide, fun _ _ _ => rfl, ⟨by decide, ⟨rfl, by simp [model1]⟩, rfl, ⟨rfl, by simp [model1]⟩⟩,
    by simp [model1], rfl, rfl, ?_, ?_, fun _ _ => trivial⟩
  · intro q hq
    simp only [noisy, List.mem_cons, List.not_mem_nil, or_false] at hq
    rcases hq with rfl | rfl | rfl <;>
      exact ⟨⟨by simp [Ascending], by simp⟩, by simp, by norm_num [sqnorm, cfg1]⟩
  · intro q hq
    simp only [noisy, List.mem_cons, List.not_mem_nil, or_false] at hq
    rcases hq with rfl | rfl | rfl <;> simp

end Sol.Props
