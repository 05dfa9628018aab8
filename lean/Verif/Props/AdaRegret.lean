import Verif.Proofs.AdaDual
import Verif.Props.Regret
/-! C68, C69: the cumulative loss of the adaptive algorithms AdaFOBOS and AdaRDA, compared with any fixed linear function. -/

set_option linter.unusedSectionVars false

namespace Sol.Props

open Sol.Online Sol.Olm Sol.Sparse Sol.Loss Sol.Spec

/-- The setting: plain updates (no lazy updates, no active learning, no costs), an untrained model with margin `m` and step
    size `eta`, examples with features 1 to `D-1`, and proper labels. -/
structure Plain {A : Type} (c : Cfg ℝ) (m eta : ℝ) (Lab : Int → Prop) (Low : (Nat → ℝ) → Prop) (D : Nat)
    (s : St ℝ A) (l : List (Ex ℝ × ℝ)) (sts : List (St ℝ A)) : Prop where
  lazy : c.lazyUpdate = false
  smooth : c.smooth ≤ 0
  cost : c.cost = none
  dim : 1 ≤ D
  blank : Blank s
  margin : s.margin = m
  step : s.eta = eta
  good : ∀ q ∈ l, Good q.1.x ∧ ∀ p ∈ q.1.x, 1 ≤ p.1 ∧ p.1 < D
  labels : ∀ q ∈ l, Lab q.1.label
  scores : ∀ z ∈ sts.zip l, Low (scoresOf (fun k i => coord (z.1.w.getD k []) i) z.2.1.x)

/-- All numbers of the vectors are `a`. -/
def Constant (a : ℝ) (H : List (List ℝ)) : Prop := ∀ v ∈ H, ∀ b ∈ v, b = a

theorem constant_cell {a : ℝ} {H : List (List ℝ)} (h : Constant a H) (k i : Nat) : hcell a H k i = a := by
  unfold hcell
  rw [List.getD_eq_getElem?_getD (l := H), List.getD_eq_getElem?_getD]
  cases hv : H[k]? with
  | none => rfl
  | some v =>
    simp only [Option.getD_some]
    cases hw : v[i]? with
    | none => rfl
    | some b => exact h v (List.mem_of_getElem? hv) b (List.mem_of_getElem? hw)

theorem extent_eq {l : List (Ex ℝ × ℝ)} (h : ∀ q ∈ l, ∀ p ∈ q.1.x, 1 ≤ p.1) (i : Nat) :
    Real.sqrt (0 + (l.map fun q => dir 1 q.1.x i ^ 2).sum) = extent l i := by
  unfold extent
  rw [zero_add]
  congr 2
  refine List.map_congr_left fun q hq => ?_
  have h0 : feat q.1.x 0 = 0 := feat_eq_zero fun p hp => by have := h q hq p hp; omega
  unfold dir
  by_cases hi : i = 0
  · subst hi
    simp [h0]
  · simp [hi]

theorem HingeLoss.steep {c : Cfg ℝ} {m κ : ℝ} {L : Ex ℝ → (Nat → ℝ) → ℝ} {Lab : Int → Prop} {Low : (Nat → ℝ) → Prop}
    (h : HingeLoss c m L κ Lab Low) : Steep c m Lab Low := by
  have hb := h.bent.1
  cases h with
  | binary h1 h2 => exact steep_of_bent h2 (le_refl _) hb
  | multi h1 h2 => exact steep_maxHinge h1 h2 m

/-! ### C68: AdaFOBOS -/

/-- What AdaFOBOS may lose against `U`, if its weights stay within `B` of those of `U`. -/
noncomputable def fobosRegret (c : Cfg ℝ) (D : Nat) (delta eta B : ℝ) (U : Nat → Nat → ℝ) (l : List (Ex ℝ × ℝ)) : ℝ :=
  ∑ k ∈ Finset.range c.clf, ∑ i ∈ Finset.range D,
    ((delta * U k i ^ 2 + B ^ 2 * extent l i) / (2 * (eta * if i = 0 then c.biasEta0 else 1))
      + eta * (if i = 0 then c.biasEta0 else 1) * extent l i)

theorem fobos_bent {c : Cfg ℝ} {m κ ε delta eta B : ℝ} {L : Ex ℝ → (Nat → ℝ) → ℝ} {Lab : Int → Prop} {Low : (Nat → ℝ) → Prop}
    (hL : Bent c m L κ ε Lab Low) (hS : Steep c m Lab Low) (hk : Matches c.kind c.clf) (hlab : ∀ y, Lab y → LabelOk c.clf y)
    {D : Nat} {U : Nat → Nat → ℝ} {s s' : St ℝ (List (List ℝ))} {l : List (Ex ℝ × ℝ)} {sts : List (St ℝ (List (List ℝ)))}
    (hP : Plain c m eta Lab Low D s l sts) (hs : Fit c (vecs c.clf) s) (hH : Constant delta s.alg) (hd : 0 < delta) (he : 0 < eta)
    (hb : 0 ≤ c.biasEta0) (hU : c.biasEta0 = 0 → ∀ k < c.clf, U k 0 = 0) (hv : Visits (adaFobos delta) c s l sts s')
    (hB : ∀ st ∈ sts, ∀ k < c.clf, ∀ i < D, |coord (st.w.getD k []) i - U k i| ≤ B) :
    (suffered L sts l).sum ≤ (fixed L U l).sum + l.length * ε + fobosRegret c D delta eta B U l := by
  have h0 : ∀ k < c.clf, ∀ i, cell s.w k i = 0 := fun k hk' i => blank_cell hs hP.blank k i hk'
  have hi : AdaInv c m delta eta (fun _ => 0) s := ⟨hs, hP.margin, hP.step, fun _ k hk' => h0 k hk' 0,
    fun k _ i => (constant_cell hH k i).ge, fun k _ i => by rw [constant_cell hH k i]; simp⟩
  obtain ⟨h1, h2⟩ := ada_visits hd he hk hP.lazy hP.smooth hP.cost hb hP.dim hU hL hS hi
    (fun q hq => ⟨(hP.good q hq).1, (hP.good q hq).2, hlab _ (hP.labels q hq), hP.labels q hq⟩) hv hP.scores hB
  have h3 := pot_bound (B := B) (D := D) (U := U) hd he hb h0 (fun k _ i => constant_cell hH k i) h1
  have e : ∀ i, Real.sqrt (0 + (l.map fun q => dir 1 q.1.x i ^ 2).sum) = extent l i :=
    extent_eq fun q hq p hp => ((hP.good q hq).2 p hp).1
  simp only [e, rate] at h3
  unfold fobosRegret
  linarith

/-- C68: the cumulative hinge loss of AdaFOBOS exceeds that of any `U` by at most the sum over the coordinates of
    `(δ u² + B² X)/(2η) + η X`, where `X` is the root of the sum of the squares of the feature. -/
theorem C68_regret (c : Cfg ℝ) (m κ delta eta B : ℝ) (L : Ex ℝ → (Nat → ℝ) → ℝ) (Lab : Int → Prop) (Low : (Nat → ℝ) → Prop)
    (hL : HingeLoss c m L κ Lab Low) (D : Nat) (U : Nat → Nat → ℝ) (s s' : St ℝ (List (List ℝ))) (l : List (Ex ℝ × ℝ))
    (sts : List (St ℝ (List (List ℝ)))) (hP : Plain c m eta Lab Low D s l sts) (hs : Fit c (vecs c.clf) s)
    (hH : Constant delta s.alg) (hd : 0 < delta) (he : 0 < eta) (hb : 0 ≤ c.biasEta0)
    (hU : c.biasEta0 = 0 → ∀ k < c.clf, U k 0 = 0) (hv : Visits (adaFobos delta) c s l sts s')
    (hB : ∀ st ∈ sts, ∀ k < c.clf, ∀ i < D, |coord (st.w.getD k []) i - U k i| ≤ B) :
    (suffered L sts l).sum ≤ (fixed L U l).sum + fobosRegret c D delta eta B U l := by
  obtain ⟨h1, h2, h3, h4⟩ := hL.bent
  have := fobos_bent h1 hL.steep h2 h4 hP hs hH hd he hb hU hv hB
  simpa using this

/-- The sums of the logistic loss and of the function the code computes. -/
theorem logistic_close {A : Type} (U : Nat → Nat → ℝ) (l : List (Ex ℝ × ℝ)) (sts : List (St ℝ A)) (h : sts.length = l.length) :
    (suffered logisticOf sts l).sum ≤ (suffered (fun e v => softplus (-(v 0) * (e.label : ℝ))) sts l).sum
      + l.length * Real.exp (-100) ∧
    (fixed (fun e v => softplus (-(v 0) * (e.label : ℝ))) U l).sum ≤ (fixed logisticOf U l).sum := by
  have e : ∀ (e : Ex ℝ) (v : Nat → ℝ), logisticOf e v = f (-(v 0) * (e.label : ℝ)) := by
    intro e v
    unfold logisticOf f
    congr 3
    ring
  constructor
  · have h7 : (suffered logisticOf sts l).sum ≤ ((sts.zip l).map fun z => softplus
        (-(scoresOf (fun k i => coord (z.1.w.getD k []) i) z.2.1.x 0) * (z.2.1.label : ℝ)) + Real.exp (-100)).sum := by
      refine List.sum_le_sum fun z _ => ?_
      rw [e]
      exact f_le_softplus _
    rw [List.sum_map_add] at h7
    simp only [List.map_const', List.sum_replicate, List.length_zip, h, min_self, nsmul_eq_mul] at h7
    exact h7
  · exact List.sum_le_sum fun q _ => by rw [e]; exact softplus_le_f _

theorem visits_length {A : Type} {G : Alg ℝ A} {c : Cfg ℝ} {s s' : St ℝ A} {l : List (Ex ℝ × ℝ)} {sts : List (St ℝ A)}
    (h : Visits G c s l sts s') : sts.length = l.length := by
  induction h with
  | nil => rfl
  | cons _ _ ih => simp [ih]

/-- C68 for the logistic loss, up to `2 exp(-100)` per example for the cut-offs of the code. -/
theorem C68_logistic (c : Cfg ℝ) (hkind : c.kind = .logistic) (hclf : c.clf = 1) (m delta eta B : ℝ)
    (D : Nat) (U : Nat → Nat → ℝ) (s s' : St ℝ (List (List ℝ))) (l : List (Ex ℝ × ℝ))
    (sts : List (St ℝ (List (List ℝ)))) (hP : Plain c m eta (fun y => y = 1 ∨ y = -1) (fun _ => True) D s l sts)
    (hs : Fit c (vecs c.clf) s) (hH : Constant delta s.alg) (hd : 0 < delta) (he : 0 < eta) (hb : 0 ≤ c.biasEta0)
    (hU : c.biasEta0 = 0 → ∀ k < c.clf, U k 0 = 0) (hv : Visits (adaFobos delta) c s l sts s')
    (hB : ∀ st ∈ sts, ∀ k < c.clf, ∀ i < D, |coord (st.w.getD k []) i - U k i| ≤ B) :
    (suffered logisticOf sts l).sum ≤ (fixed logisticOf U l).sum + fobosRegret c D delta eta B U l
      + 2 * Real.exp (-100) * l.length := by
  have hbent := bent_logistic hkind hclf m
  have h1 := fobos_bent hbent (steep_of_bent hclf (le_refl _) hbent) (by rw [hkind]; exact hclf) (fun _ _ => .inl hclf)
    hP hs hH hd he hb hU hv hB
  obtain ⟨h2, h3⟩ := logistic_close U l sts (visits_length hv)
  linarith

/-- The weights of a run always stay within some distance of `U`. -/
theorem C68_bounded {A : Type} (n D : Nat) (U : Nat → Nat → ℝ) (sts : List (St ℝ A)) :
    ∃ B, ∀ st ∈ sts, ∀ k < n, ∀ i < D, |coord (st.w.getD k []) i - U k i| ≤ B := by
  induction sts with
  | nil => exact ⟨0, by simp⟩
  | cons s sts ih =>
    obtain ⟨B, hB⟩ := ih
    refine ⟨max B (∑ k ∈ Finset.range n, ∑ i ∈ Finset.range D, |coord (s.w.getD k []) i - U k i|), ?_⟩
    intro st hst k hk i hi
    rcases List.mem_cons.1 hst with rfl | hst
    · refine le_trans ?_ (le_max_right _ _)
      refine le_trans ?_ (Finset.single_le_sum (f := fun k => ∑ i ∈ Finset.range D, |coord (st.w.getD k []) i - U k i|)
        (fun k _ => Finset.sum_nonneg fun i _ => abs_nonneg _) (Finset.mem_range.2 hk))
      exact Finset.single_le_sum (f := fun i => |coord (st.w.getD k []) i - U k i|) (fun i _ => abs_nonneg _) (Finset.mem_range.2 hi)
    · exact (hB st hst k hk i hi).trans (le_max_left _ _)

/-! ### C69: AdaRDA -/

/-- What AdaRDA may lose against `U`. -/
noncomputable def rdaRegret (c : Cfg ℝ) (D : Nat) (delta eta : ℝ) (U : Nat → Nat → ℝ) (l : List (Ex ℝ × ℝ)) : ℝ :=
  ∑ k ∈ Finset.range c.clf, ∑ i ∈ Finset.Ico 1 D, ((delta + extent l i) * U k i ^ 2 / (2 * eta) + eta * extent l i)

theorem rda_bent {c : Cfg ℝ} {m κ ε delta eta : ℝ} {L : Ex ℝ → (Nat → ℝ) → ℝ} {Lab : Int → Prop} {Low : (Nat → ℝ) → Prop}
    (hL : Bent c m L κ ε Lab Low) (hS : Steep c m Lab Low) (hk : Matches c.kind c.clf) (hlab : ∀ y, Lab y → LabelOk c.clf y)
    {D : Nat} {U : Nat → Nat → ℝ} {s s' : St ℝ (AdaRdaSt ℝ)} {l : List (Ex ℝ × ℝ)} {sts : List (St ℝ (AdaRdaSt ℝ))}
    (hP : Plain c m eta Lab Low D s l sts) (hs : Fit c (adaRdaInv c.clf) s) (hH : Constant delta s.alg.H) (hu : Constant 0 s.alg.ut)
    (hd : 0 < delta) (he : 0 < eta) (hbig : ∀ q ∈ l, ∀ p ∈ q.1.x, |p.2| ≤ 2 * delta) (hU : ∀ k < c.clf, U k 0 = 0)
    (hv : Visits (adaRda delta) c s l sts s') :
    (∀ st ∈ sts, ∀ k < c.clf, coord (st.w.getD k []) 0 = 0) ∧
      (suffered L sts l).sum ≤ (fixed L U l).sum + l.length * ε + rdaRegret c D delta eta U l := by
  have h0 : ∀ k < c.clf, ∀ i, cell s.w k i = 0 := fun k hk' i => blank_cell hs hP.blank k i hk'
  have hu0 : ∀ k i, cell s.alg.ut k i = 0 := fun k i => constant_cell hu k i
  have hi : RdaInv c m delta eta (fun _ => 0) s := ⟨hs, hP.margin, hP.step, fun k hk' => h0 k hk' 0,
    fun k hk' i _ => by rw [h0 k hk', hu0]; simp,
    fun k _ i => (constant_cell hH k i).ge, fun k _ i => by rw [constant_cell hH k i]; simp⟩
  obtain ⟨hb, h1, h2⟩ := rda_visits hd he hk hP.lazy hP.smooth hP.cost hP.dim hU hL hS hi
    (fun q hq => ⟨(hP.good q hq).1, (hP.good q hq).2, hlab _ (hP.labels q hq), hP.labels q hq⟩) hbig hv hP.scores
  refine ⟨hb, ?_⟩
  have h3 := rpot_bound (D := D) (U := U) hd he (fun k _ i => hu0 k i) (fun k _ i => constant_cell hH k i) h1
  have e : ∀ i, Real.sqrt (0 + (l.map fun q => dir 1 q.1.x i ^ 2).sum) = extent l i :=
    extent_eq fun q hq p hp => ((hP.good q hq).2 p hp).1
  simp only [e] at h3
  have e2 : ∀ k, (∑ i ∈ Finset.range D, if i = 0 then 0 else (delta + extent l i) * U k i ^ 2 / (2 * eta) + eta * extent l i)
      = ∑ i ∈ Finset.Ico 1 D, ((delta + extent l i) * U k i ^ 2 / (2 * eta) + eta * extent l i) := by
    intro k
    rw [Finset.range_eq_Ico, Finset.sum_eq_sum_Ico_succ_bot (show 0 < D from hP.dim)]
    simp only [if_true, zero_add]
    exact Finset.sum_congr rfl fun i hi => if_neg (by have := (Finset.mem_Ico.1 hi).1; omega)
  simp only [e2] at h3
  unfold rdaRegret
  linarith

/-- C69: the cumulative hinge loss of AdaRDA exceeds that of any `U` without bias by at most the sum over the features of
    `(δ + X) u²/(2η) + η X`, if no feature is larger than `2 δ`. -/
theorem C69_regret (c : Cfg ℝ) (m κ delta eta : ℝ) (L : Ex ℝ → (Nat → ℝ) → ℝ) (Lab : Int → Prop) (Low : (Nat → ℝ) → Prop)
    (hL : HingeLoss c m L κ Lab Low) (D : Nat) (U : Nat → Nat → ℝ) (s s' : St ℝ (AdaRdaSt ℝ)) (l : List (Ex ℝ × ℝ))
    (sts : List (St ℝ (AdaRdaSt ℝ))) (hP : Plain c m eta Lab Low D s l sts) (hs : Fit c (adaRdaInv c.clf) s)
    (hH : Constant delta s.alg.H) (hu : Constant 0 s.alg.ut) (hd : 0 < delta) (he : 0 < eta)
    (hbig : ∀ q ∈ l, ∀ p ∈ q.1.x, |p.2| ≤ 2 * delta) (hU : ∀ k < c.clf, U k 0 = 0)
    (hv : Visits (adaRda delta) c s l sts s') :
    (suffered L sts l).sum ≤ (fixed L U l).sum + rdaRegret c D delta eta U l := by
  obtain ⟨h1, h2, h3, h4⟩ := hL.bent
  have := (rda_bent h1 hL.steep h2 h4 hP hs hH hu hd he hbig hU hv).2
  simpa using this

/-- C69 for the logistic loss. -/
theorem C69_logistic (c : Cfg ℝ) (hkind : c.kind = .logistic) (hclf : c.clf = 1) (m delta eta : ℝ)
    (D : Nat) (U : Nat → Nat → ℝ) (s s' : St ℝ (AdaRdaSt ℝ)) (l : List (Ex ℝ × ℝ))
    (sts : List (St ℝ (AdaRdaSt ℝ))) (hP : Plain c m eta (fun y => y = 1 ∨ y = -1) (fun _ => True) D s l sts)
    (hs : Fit c (adaRdaInv c.clf) s) (hH : Constant delta s.alg.H) (hu : Constant 0 s.alg.ut) (hd : 0 < delta) (he : 0 < eta)
    (hbig : ∀ q ∈ l, ∀ p ∈ q.1.x, |p.2| ≤ 2 * delta) (hU : ∀ k < c.clf, U k 0 = 0)
    (hv : Visits (adaRda delta) c s l sts s') :
    (suffered logisticOf sts l).sum ≤ (fixed logisticOf U l).sum + rdaRegret c D delta eta U l
      + 2 * Real.exp (-100) * l.length := by
  have hbent := bent_logistic hkind hclf m
  have h1 := (rda_bent hbent (steep_of_bent hclf (le_refl _) hbent) (by rw [hkind]; exact hclf) (fun _ _ => .inl hclf)
    hP hs hH hu hd he hbig hU hv).2
  obtain ⟨h2, h3⟩ := logistic_close U l sts (visits_length hv)
  linarith

/-- Why `U` has no bias: while AdaRDA learns, its models have none, whatever the rate of the bias. -/
theorem C69_bias_is_not_learnt (c : Cfg ℝ) (m κ delta eta : ℝ) (L : Ex ℝ → (Nat → ℝ) → ℝ) (Lab : Int → Prop)
    (Low : (Nat → ℝ) → Prop) (hL : HingeLoss c m L κ Lab Low) (D : Nat) (s s' : St ℝ (AdaRdaSt ℝ)) (l : List (Ex ℝ × ℝ))
    (sts : List (St ℝ (AdaRdaSt ℝ))) (hP : Plain c m eta Lab Low D s l sts) (hs : Fit c (adaRdaInv c.clf) s)
    (hH : Constant delta s.alg.H) (hu : Constant 0 s.alg.ut) (hd : 0 < delta) (he : 0 < eta)
    (hbig : ∀ q ∈ l, ∀ p ∈ q.1.x, |p.2| ≤ 2 * delta) (hv : Visits (adaRda delta) c s l sts s') :
    ∀ st ∈ sts, ∀ k < c.clf, coord (st.w.getD k []) 0 = 0 := by
  obtain ⟨h1, h2, h3, h4⟩ := hL.bent
  exact (rda_bent (U := fun _ _ => 0) h1 hL.steep h2 h4 hP hs hH hu hd he hbig (fun _ _ => rfl) hv).1

/-! ### Instances -/

/-- Three examples of which no linear function without bias gets all right. -/
def noisyReal : List (Ex ℝ × ℝ) := [(⟨1, [(1, 1)]⟩, 0), (⟨-1, [(1, 1), (2, 3)]⟩, 0), (⟨1, [(1, 1)]⟩, 0)]

/-- One classifier with a bias learnt at half the rate. -/
noncomputable def cfgBias : Cfg ℝ := ⟨1, .hinge, 1 / 2, false, 0, none⟩

/-- The hypotheses of C68 and C69 are met by runs over the three examples: the losses of `x ↦ x₁` are 0, 2, 0. -/
theorem C68_instance :
    let U : Nat → Nat → ℝ := fun _ i => if i = 1 then 1 else 0
    let s : St ℝ (List (List ℝ)) := model1 [[10]]
    ∃ sts s' B, Visits (adaFobos 10) cfgBias s noisyReal sts s' ∧
      HingeLoss cfgBias 1 (hingeOf 1) 1 (fun y => y = 1 ∨ y = -1) (fun _ => True) ∧
      Plain cfgBias 1 1 (fun y => y = 1 ∨ y = -1) (fun _ => True) 3 s noisyReal sts ∧ Fit cfgBias (vecs 1) s ∧ Constant 10 s.alg ∧
      (∀ st ∈ sts, ∀ k < 1, ∀ i < 3, |coord (st.w.getD k []) i - U k i| ≤ B) ∧ fixed (hingeOf 1) U noisyReal = [0, 2, 0] := by
  intro U s
  have hs : Fit cfgBias (vecs 1) s := ⟨by decide, ⟨rfl, by simp [s, model1]⟩, rfl, ⟨rfl, by simp [s, model1]⟩⟩
  have hgood : ∀ q ∈ noisyReal, (Good q.1.x ∧ ∀ p ∈ q.1.x, 1 ≤ p.1 ∧ p.1 < 3) ∧ (q.1.label = 1 ∨ q.1.label = -1) := by
    intro q hq
    simp only [noisyReal, List.mem_cons, List.not_mem_nil, or_false] at hq
    rcases hq with rfl | rfl | rfl <;> simp [Good, Ascending]
  obtain ⟨sts, s', hv⟩ := C63_runs cfgBias (adaFobos 10) (vecs 1) (.adaFobos 10) rfl noisyReal
    (fun q hq => ⟨(hgood q hq).1.1, .inl rfl⟩) s hs
  obtain ⟨B, hB⟩ := C68_bounded 1 3 U sts
  refine ⟨sts, s', B, hv, .binary rfl rfl, ⟨rfl, le_refl _, rfl, by decide, by simp [Blank, s, model1], rfl, rfl,
    fun q hq => (hgood q hq).1, fun q hq => (hgood q hq).2, fun _ _ => trivial⟩, hs, by simp [Constant, s, model1], hB, ?_⟩
  norm_num [fixed, noisyReal, hingeOf, scoresOf, linear, U]

theorem C69_instance :
    let U : Nat → Nat → ℝ := fun _ i => if i = 1 then 1 else 0
    let s : St ℝ (AdaRdaSt ℝ) := model1 ⟨[[10]], [[0]]⟩
    ∃ sts s', Visits (adaRda 10) cfgBias s noisyReal sts s' ∧
      HingeLoss cfgBias 1 (hingeOf 1) 1 (fun y => y = 1 ∨ y = -1) (fun _ => True) ∧
      Plain cfgBias 1 1 (fun y => y = 1 ∨ y = -1) (fun _ => True) 3 s noisyReal sts ∧ Fit cfgBias (adaRdaInv 1) s ∧
      Constant 10 s.alg.H ∧ Constant 0 s.alg.ut ∧ (∀ q ∈ noisyReal, ∀ p ∈ q.1.x, |p.2| ≤ 2 * 10) ∧ (∀ k < 1, U k 0 = 0) ∧
      fixed (hingeOf 1) U noisyReal = [0, 2, 0] := by
  intro U s
  have hs : Fit cfgBias (adaRdaInv 1) s :=
    ⟨by decide, ⟨rfl, by simp [s, model1]⟩, rfl, ⟨⟨rfl, by simp [s, model1]⟩, ⟨rfl, by simp [s, model1]⟩⟩⟩
  have hgood : ∀ q ∈ noisyReal, (Good q.1.x ∧ ∀ p ∈ q.1.x, 1 ≤ p.1 ∧ p.1 < 3) ∧ (q.1.label = 1 ∨ q.1.label = -1) := by
    intro q hq
    simp only [noisyReal, List.mem_cons, List.not_mem_nil, or_false] at hq
    rcases hq with rfl | rfl | rfl <;> simp [Good, Ascending]
  obtain ⟨sts, s', hv⟩ := C63_runs cfgBias (adaRda 10) (adaRdaInv 1) (.adaRda 10) rfl noisyReal
    (fun q hq => ⟨(hgood q hq).1.1, .inl rfl⟩) s hs
  refine ⟨sts, s', hv, .binary rfl rfl, ⟨rfl, le_refl _, rfl, by decide, by simp [Blank, s, model1], rfl, rfl,
    fun q hq => (hgood q hq).1, fun q hq => (hgood q hq).2, fun _ _ => trivial⟩, hs, by simp [Constant, s, model1],
    by simp [Constant, s, model1], ?_, fun _ _ => rfl, ?_⟩
  · intro q hq
    simp only [noisyReal, List.mem_cons, List.not_mem_nil, or_false] at hq
    rcases hq with rfl | rfl | rfl <;> norm_num
  · norm_num [fixed, noisyReal, hingeOf, scoresOf, linear, U]

end Sol.Props
