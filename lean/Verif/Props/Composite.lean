import Verif.Proofs.Composite
import Verif.Props.Fobos
import Verif.Props.DualRegret
/-! C101: the cumulative loss of FOBOS-L1 and the absolute weights of its models, compared with any fixed linear function. -/

set_option linter.unusedSectionVars false

namespace Sol.Props

open Sol.Online Sol.Olm Sol.Sparse Sol.Loss Sol.Spec

section
variable {α : Type} [Field α] [LinearOrder α] [IsStrictOrderedRing α] [FFun α] [FSqrt α]

/-- The setting: plain updates (no lazy updates, no active learning, no costs), an unused model, examples with features 1 to
    `D-1` and norm at most `R`, proper labels, and linear functions `U` to compare with (without bias if it is not learnt). -/
structure Shrinks (c : Cfg α) (m : α) (Lab : Int → Prop) (Low : (Nat → α) → Prop) (D : Nat) (R : α) (U : Nat → Nat → α) (t0 : Int)
    (s : St α (List Int)) (l : List (Ex α × α)) (ps : List (List α)) : Prop where
  lazy : c.lazyUpdate = false
  smooth : c.smooth = 0
  cost : c.cost = none
  bias : 0 ≤ c.biasEta0
  dim : 1 ≤ D
  unbiased : c.biasEta0 = 0 → ∀ k < c.clf, U k 0 = 0
  unused : Unused c t0 s
  margin : s.margin = m
  tame : ∀ q ∈ l, Tame c.biasEta0 D R q.1.x
  labels : ∀ q ∈ l, Lab q.1.label
  scores : ∀ p ∈ ps, Low fun k => p.getD k 0

/-- The model that training would give has no larger weights than the eager one. -/
theorem ends_light {c : Cfg α} {eta lambda thresh : α} {t0 : Int} (hl : 0 ≤ lambda) (hb : 0 ≤ c.biasEta0) {s s' : St α (List Int)}
    {u : St α Unit} (h : Owes c eta lambda t0 s u) (he : (fobosL1 eta (fun _ => 1) lambda thresh t0).endTrain c s = .ok s') (D : Nat) :
    absWeights c.clf D s' ≤ absSum c.clf D (cell u.w) := by
  obtain ⟨s1, u1, h1, h2, -, h4, -⟩ := owes_end (thresh := thresh) hl hb h
  rw [he] at h1
  obtain rfl := Res.ok.inj h1
  obtain rfl := Res.ok.inj h2
  unfold absWeights absSum
  refine Finset.sum_le_sum fun k hk => ?_
  have hk' := Finset.mem_range.1 hk
  refine le_trans (Finset.sum_le_sum (g := fun i => |cell u.w k i|) fun i hi => ?_)
    (Finset.sum_le_sum_of_subset_of_nonneg (fun i hi => Finset.mem_range.2 (Finset.mem_Ico.1 hi).2) fun _ _ _ => abs_nonneg _)
  have h5 := h4 k hk' i (Finset.mem_Ico.1 hi).1
  show |cell s'.w k i| ≤ _
  rw [h5]
  simp only
  rw [cell_map _ h.fit'.w.1 k i hk']
  show _ ≤ |coord (u.w.getD k []) i|
  unfold coord
  simp only [List.getD_eq_getElem?_getD, List.getElem?_map]
  cases hv : ((u.w[k]?).getD [])[i]? with
  | none => simp
  | some a =>
    simp only [Option.map_some, Option.getD_some]
    split
    · rw [abs_zero]; exact abs_nonneg _
    · exact le_refl _

theorem composite_run {c : Cfg α} {m κ ε R eta lambda thresh : α} {t0 : Int} {L : Ex α → (Nat → α) → α} {Lab : Int → Prop}
    {Low : (Nat → α) → Prop} (hL : Bent c m L κ ε Lab Low) (hk : Matches c.kind c.clf) (hlab : ∀ y, Lab y → LabelOk c.clf y)
    (hlazy : c.lazyUpdate = false) (hsm : c.smooth = 0) (hcost : c.cost = none) (hb : 0 ≤ c.biasEta0) (D : Nat) (hD : 1 ≤ D)
    (U : Nat → Nat → α) (hU0 : c.biasEta0 = 0 → ∀ k < c.clf, U k 0 = 0) (he : 0 ≤ eta) (hla : 0 ≤ lambda)
    {s s' : St α (List Int)} {u : St α Unit} {l : List (Ex α × α)} {sts ends : List (St α (List Int))} {ps : List (List α)}
    (hO : Owes c eta lambda t0 s u) (hmar : u.margin = m) (h0 : c.biasEta0 = 0 → ∀ k < c.clf, cell u.w k 0 = 0)
    (hl : ∀ q ∈ l, Tame c.biasEta0 D R q.1.x) (hy : ∀ q ∈ l, Lab q.1.label) (hlow : ∀ p ∈ ps, Low fun k => p.getD k 0)
    (hv : Scored (fobosL1 eta (fun _ => 1) lambda thresh t0) c s l sts ps s')
    (hends : EndsAs (fobosL1 eta (fun _ => 1) lambda thresh t0) c sts ends) :
    2 * eta * ((scoredLoss L ps l).sum - (fixed L U l).sum - l.length * ε)
        + 2 * (eta * lambda) * ((ends.map (absWeights c.clf D)).sum - l.length * absSum c.clf D U)
        - l.length * (eta ^ 2 * (κ * R ^ 2))
      ≤ dist2 c.clf D c.biasEta0 (cell u.w) U + 2 * (eta * lambda) * absSum c.clf D (cell u.w) := by
  have hel : 0 ≤ eta * lambda := mul_nonneg he hla
  induction hv generalizing u ends with
  | nil s =>
    cases hends
    have h1 := dist2_nonneg (n := c.clf) (D := D) hb (cell u.w) U
    have h2 : 0 ≤ absSum c.clf D (cell u.w) := Finset.sum_nonneg fun _ _ => Finset.sum_nonneg fun _ _ => abs_nonneg _
    have h3 := mul_nonneg (mul_nonneg zero_le_two hel) h2
    simp only [scoredLoss, fixed, List.zip_nil_left, List.map_nil, List.sum_nil, List.length_nil, Nat.cast_zero, zero_mul, sub_zero,
      mul_zero, add_zero]
    linarith
  | @cons s s0 s1 s2 s3 e r p pred l sts ps h1 h2 h3 h4 ht ih =>
    cases hends with
    | @cons _ en _ ends hen hends =>
    obtain ⟨hx, hr, hR⟩ := hl (e, r) List.mem_cons_self
    have hya := hy (e, r) List.mem_cons_self
    obtain ⟨ev, s2', hh, -, -⟩ := happens (safe_fobosL1_fresh c eta (fun _ => 1) lambda thresh t0) hk s hO.fit e r hx (hlab _ hya)
    have hh' := hh
    obtain ⟨_, _, _, _, _, _, _, _, h5⟩ := hh'
    rw [h4] at h5
    obtain rfl := Res.ok.inj h5
    obtain ⟨u', hu', hO', s0', s1', p', k1, k2, k3, k4⟩ := owes_step (thresh' := thresh) hla hb he hsm hk hx
      (fun q hq => (hr q hq).1) (hlab _ hya) hO hh
    rw [h1] at k1
    obtain rfl := Res.ok.inj k1
    rw [h2] at k2
    obtain rfl := Res.ok.inj k2
    rw [h3] at k3
    obtain ⟨rfl, -⟩ := Prod.mk.inj (Res.ok.inj k3)
    have hsc := scores_cell hO.fit' hx k4
    have hlo := hlow p List.mem_cons_self
    rw [hsc] at hlo
    obtain ⟨_, _, _, _, _, _, _, _, k5⟩ := hu'
    have hrate : u.eta = eta ∨ ∀ k < c.clf, ∀ i, cell u.w k i = 0 := by
      rcases hO.rate with h | h
      · exact .inl (hO.eta.trans h)
      · refine .inr fun k hk' i => ?_
        rcases Nat.eq_zero_or_pos i with rfl | hi
        · rw [hO.bias k hk', h k hk', soft_zero (mul_nonneg (mul_nonneg hb hO.pos) hla)]
        · by_cases hd : i < s.dim
          · rw [hO.weights k hk' i hi hd, h k hk', soft_zero]
            refine mul_nonneg (mul_nonneg hO.pos hla) ?_
            have := hO.past i hd
            exact_mod_cast (by omega : (0 : Int) ≤ s.t - s.alg.getD i 0)
          · have := hO.fit'.w.2 _ (cell_mem hO.fit'.w.1 hk')
            have hdim := hO.dim
            unfold cell coord
            rw [List.getD_eq_getElem?_getD, List.getElem?_eq_none (by omega)]
            rfl
    obtain ⟨k6, k7, k8⟩ := composite_step hk hlazy hsm.le hcost hb D hD U hU0 hL he hla hO.fit' hmar h0 hrate (hO.eta ▸ hO.pos) hx hr
      (hlab _ hya) hya hlo k5
    have k9 := ih hO' k6 k7 (fun q hq => hl q (List.mem_cons_of_mem _ hq)) (fun q hq => hy q (List.mem_cons_of_mem _ hq))
      (fun q hq => hlow q (List.mem_cons_of_mem _ hq)) hends
    have k10 := mul_le_mul_of_nonneg_left (ends_light hla hb hO hen D) (mul_nonneg zero_le_two hel)
    have k11 := mul_le_mul_of_nonneg_left (mul_le_mul_of_nonneg_left hR hL.sq) (sq_nonneg eta)
    rw [← hsc] at k8
    have e1 : (scoredLoss L (p :: ps) ((e, r) :: l)).sum = L e (fun k => p.getD k 0) + (scoredLoss L ps l).sum := by
      simp [scoredLoss]
    have e2 : (fixed L U ((e, r) :: l)).sum = L e (scoresOf U e.x) + (fixed L U l).sum := by simp [fixed]
    rw [e1, e2]
    simp only [List.map_cons, List.sum_cons, List.length_cons, Nat.cast_add, Nat.cast_one]
    linarith

theorem composite_bent {c : Cfg α} {m κ ε R eta lambda thresh : α} {t0 : Int} {L : Ex α → (Nat → α) → α} {Lab : Int → Prop}
    {Low : (Nat → α) → Prop} (hB : Bent c m L κ ε Lab Low) (hk : Matches c.kind c.clf) (hlab : ∀ y, Lab y → LabelOk c.clf y)
    {D : Nat} {U : Nat → Nat → α} {s s' : St α (List Int)} {l : List (Ex α × α)} {sts ends : List (St α (List Int))}
    {ps : List (List α)} (hC : Shrinks c m Lab Low D R U t0 s l ps) (heta : 0 < eta) (hlambda : 0 ≤ lambda)
    (hv : Scored (fobosL1 eta (fun _ => 1) lambda thresh t0) c s l sts ps s')
    (he : EndsAs (fobosL1 eta (fun _ => 1) lambda thresh t0) c sts ends) :
    (scoredLoss L ps l).sum + lambda * (ends.map (absWeights c.clf D)).sum
      ≤ (fixed L U l).sum + l.length * ε + lambda * (l.length * absSum c.clf D U) + energy c D U / (2 * eta)
        + eta / 2 * (κ * R ^ 2) * l.length := by
  have h0 := hC.unused.zero
  have h1 := composite_run hB hk hlab hC.lazy hC.smooth hC.cost hC.bias D hC.dim U hC.unbiased heta.le hlambda
    (owes_start hlambda hC.bias hC.unused) hC.margin (fun _ k hk' => h0 k hk' 0) hC.tame hC.labels hC.scores hv he
  have hd : dist2 c.clf D c.biasEta0 (cell (asEager s).w) U = energy c D U := by
    show dist2 c.clf D c.biasEta0 (cell s.w) U = _
    rw [energy, ← ip_self c.clf D c.biasEta0 U hC.dim, dist2_eq, ip_congr (U' := fun _ _ => 0) (V' := fun _ _ => 0) h0 h0,
      ip_congr (V' := fun _ _ => 0) h0 (fun _ _ _ => rfl)]
    simp [ip]
  have hz : absSum c.clf D (cell (asEager s).w) = 0 :=
    Finset.sum_eq_zero fun k hk' => Finset.sum_eq_zero fun i _ => by
      show |cell s.w k i| = 0
      rw [h0 k (Finset.mem_range.1 hk') i, abs_zero]
  rw [hd, hz] at h1
  have h2 : (scoredLoss L ps l).sum + lambda * (ends.map (absWeights c.clf D)).sum - (fixed L U l).sum
      - l.length * ε - lambda * (l.length * absSum c.clf D U) - eta / 2 * (κ * R ^ 2) * l.length ≤ energy c D U / (2 * eta) := by
    rw [le_div_iff₀ (by positivity)]
    linarith
  linarith

/-- C101: with a constant step size `eta`, the losses that FOBOS-L1 sees during training, together with `lambda` times the
    absolute weights of the models that training would give before each example, exceed the losses of `U` together with
    `lambda` times its absolute coefficients by at most `|U|²/(2η) + η κ R² n / 2`. -/
theorem C101_composite (c : Cfg α) (m κ R eta lambda thresh : α) (t0 : Int) (L : Ex α → (Nat → α) → α) (Lab : Int → Prop)
    (Low : (Nat → α) → Prop) (hL : HingeLoss c m L κ Lab Low) (D : Nat) (U : Nat → Nat → α) (s s' : St α (List Int))
    (l : List (Ex α × α)) (sts ends : List (St α (List Int))) (ps : List (List α)) (hC : Shrinks c m Lab Low D R U t0 s l ps)
    (heta : 0 < eta) (hlambda : 0 ≤ lambda) (hv : Scored (fobosL1 eta (fun _ => 1) lambda thresh t0) c s l sts ps s')
    (he : EndsAs (fobosL1 eta (fun _ => 1) lambda thresh t0) c sts ends) :
    (scoredLoss L ps l).sum + lambda * (ends.map (absWeights c.clf D)).sum
      ≤ (fixed L U l).sum + lambda * (l.length * absSum c.clf D U) + energy c D U / (2 * eta)
        + eta / 2 * (κ * R ^ 2) * l.length := by
  obtain ⟨hB, hk, -, hlab⟩ := hL.bent
  have := composite_bent hB hk hlab hC heta hlambda hv he
  simpa using this

/-- Training always gives such scores and models: the hypotheses `Scored` and `EndsAs` can be met. -/
theorem C101_runs (c : Cfg α) (eta lambda thresh : α) (t0 : Int) (hk : Matches c.kind c.clf) (l : List (Ex α × α)) (hl : Usable c l)
    (s : St α (List Int)) (hs : Fit c stamps s) : ∃ sts ends ps s', Scored (fobosL1 eta (fun _ => 1) lambda thresh t0) c s l sts ps s' ∧
      EndsAs (fobosL1 eta (fun _ => 1) lambda thresh t0) c sts ends := by
  induction l generalizing s with
  | nil => exact ⟨[], [], [], s, .nil s, .nil⟩
  | cons q l ih =>
    obtain ⟨hx, hle⟩ := hl q List.mem_cons_self
    obtain ⟨ev, s1, hh, hf, -⟩ := happens (safe_fobosL1_fresh c eta (fun _ => 1) lambda thresh t0) hk s hs q.1 q.2 hx hle
    obtain ⟨a, b, p, h1, h2, h3, -, -, h4⟩ := hh
    obtain ⟨sts, ends, ps, s', h5, h6⟩ := ih (fun y hy => hl y (List.mem_cons_of_mem _ hy)) s1 hf
    obtain ⟨m, hm, -⟩ := closes_fobosL1 c eta (fun _ => 1) lambda thresh t0 s hs
    exact ⟨s :: sts, m :: ends, p :: ps, s', .cons h1 h2 h3 h4 h5, .cons hm h6⟩

end

theorem scored_length {A : Type} {G : Alg ℝ A} {c : Cfg ℝ} {s s' : St ℝ A} {l : List (Ex ℝ × ℝ)} {sts : List (St ℝ A)}
    {ps : List (List ℝ)} (h : Scored G c s l sts ps s') : ps.length = l.length := by
  induction h with
  | nil => rfl
  | cons _ _ _ _ _ ih => simp [ih]

/-- The sums of the logistic loss of scores and of the function the code computes. -/
theorem scored_logistic (U : Nat → Nat → ℝ) (l : List (Ex ℝ × ℝ)) (ps : List (List ℝ)) (hlen : ps.length = l.length) :
    (scoredLoss logisticOf ps l).sum ≤ (scoredLoss (fun e v => softplus (-(v 0) * (e.label : ℝ))) ps l).sum
      + l.length * Real.exp (-100) ∧
    (fixed (fun e v => softplus (-(v 0) * (e.label : ℝ))) U l).sum ≤ (fixed logisticOf U l).sum := by
  have h2 : (fixed (fun e v => softplus (-(v 0) * (e.label : ℝ))) U l).sum ≤ (fixed logisticOf U l).sum :=
    (logistic_close (A := Unit) U l (l.map fun _ => model1 ()) (by simp)).2
  have e : ∀ (e : Ex ℝ) (v : Nat → ℝ), logisticOf e v = f (-(v 0) * (e.label : ℝ)) := by
    intro e v
    unfold logisticOf f
    congr 3
    ring
  have h3 : (scoredLoss logisticOf ps l).sum
      ≤ ((ps.zip l).map fun z => softplus (-(z.1.getD 0 0) * (z.2.1.label : ℝ)) + Real.exp (-100)).sum := by
    refine List.sum_le_sum fun z _ => ?_
    rw [e]
    exact f_le_softplus _
  rw [List.sum_map_add] at h3
  simp only [List.map_const', List.sum_replicate, List.length_zip, hlen, min_self, nsmul_eq_mul] at h3
  have h4 : (scoredLoss (fun e v => softplus (-(v 0) * (e.label : ℝ))) ps l).sum
      = ((ps.zip l).map fun z => softplus (-(z.1.getD 0 0) * (z.2.1.label : ℝ))).sum := rfl
  exact ⟨by linarith, h2⟩

/-- C101 for the logistic loss, up to `2 exp(-100)` per example for the cut-offs of the code. -/
theorem C101_logistic (c : Cfg ℝ) (hkind : c.kind = .logistic) (hclf : c.clf = 1) (m R eta lambda thresh : ℝ) (t0 : Int) (D : Nat)
    (U : Nat → Nat → ℝ) (s s' : St ℝ (List Int)) (l : List (Ex ℝ × ℝ)) (sts ends : List (St ℝ (List Int))) (ps : List (List ℝ))
    (hC : Shrinks c m (fun y => y = 1 ∨ y = -1) (fun _ => True) D R U t0 s l ps) (heta : 0 < eta) (hlambda : 0 ≤ lambda)
    (hv : Scored (fobosL1 eta (fun _ => 1) lambda thresh t0) c s l sts ps s')
    (he : EndsAs (fobosL1 eta (fun _ => 1) lambda thresh t0) c sts ends) :
    (scoredLoss logisticOf ps l).sum + lambda * (ends.map (absWeights c.clf D)).sum
      ≤ (fixed logisticOf U l).sum + lambda * (l.length * absSum c.clf D U) + energy c D U / (2 * eta)
        + eta / 2 * R ^ 2 * l.length + 2 * Real.exp (-100) * l.length := by
  have h1 := composite_bent (bent_logistic hkind hclf m) (by rw [hkind]; exact hclf) (fun _ _ => .inl hclf) hC heta hlambda hv he
  obtain ⟨h2, h3⟩ := scored_logistic U l ps (scored_length hv)
  rw [one_mul] at h1
  linarith

/-! ### Instance -/

/-- The models of FOBOS-L1 on `stream3`, with step size 1/2 and `lambda` 1/4. -/
def shrunk : List (St Rat (List Int)) :=
  [model1 [0], ⟨2, [[0, 1]], [-1], 1 / 2, 1, 0, 1, 1, 1, 0, false, [0, 0]⟩,
   ⟨3, [[0, 1, -1 / 2]], [1], 1 / 2, 1, 0, 2, 2, 2, 1, false, [1, 0, 1]⟩]

/-- The models that training would give there. -/
def shrunkEnds : List (St Rat (List Int)) :=
  [model1 [0], ⟨2, [[0, 7 / 8]], [-1], 1 / 2, 1, 0, 1, 1, 1, 0, false, [0, 0]⟩,
   ⟨3, [[0, 3 / 4, -3 / 8]], [1], 1 / 2, 1, 0, 2, 2, 2, 1, false, [1, 0, 1]⟩]

/-- A run that meets the hypotheses of C101, compared with the function `x ↦ x 1`: losses 1, 1, 19/16 and absolute weights 0,
    7/8, 9/8 against losses 0, 1, 3/4 and absolute weight 1. -/
theorem C101_instance :
    letI : FFun Rat := lowFun
    letI : FSqrt Rat := ⟨fun a => a⟩
    (∃ s', Scored (fobosL1 (1 / 2) (fun _ => 1) (1 / 4) 0 0) (cfg1 : Cfg Rat) (model1 [0]) stream3 shrunk [[0], [0], [-3 / 16]] s') ∧
    EndsAs (fobosL1 (1 / 2) (fun _ => 1) (1 / 4) 0 0) (cfg1 : Cfg Rat) shrunk shrunkEnds ∧
    HingeLoss (cfg1 : Cfg Rat) 1 (hingeOf 1) 1 (fun y => y = 1 ∨ y = -1) (fun _ => True) ∧
    Shrinks (cfg1 : Cfg Rat) 1 (fun y => y = 1 ∨ y = -1) (fun _ => True) 3 2 (fun _ i => if i = 1 then 1 else 0) 0 (model1 [0])
      stream3 [[0], [0], [-3 / 16]] ∧
    scoredLoss (hingeOf 1) [[0], [0], [-3 / 16]] stream3 = [1, 1, 19 / 16] ∧
    shrunkEnds.map (absWeights 1 3) = [0, 7 / 8, 9 / 8] ∧
    fixed (hingeOf 1) (fun _ i => if i = 1 then 1 else 0) stream3 = [0, 1, 3 / 4] := by
  letI : FFun Rat := lowFun
  letI : FSqrt Rat := ⟨fun a => a⟩
  have hun : Unused (cfg1 : Cfg Rat) 0 (model1 [0]) := C35_instance.1
  refine ⟨⟨⟨3, [[0, 7 / 8, 1 / 8]], [-1], 1 / 2, 1, 0, 3, 3, 3, 2, false, [2, 2, 2]⟩,
    .cons (s0 := ⟨2, [[0, 0]], [0], 1, 1, 0, 1, 1, 0, 0, false, [0, 0]⟩) (s1 := ⟨2, [[0, 0]], [0], 1, 1, 0, 1, 1, 0, 0, false, [0, 0]⟩)
      (pred := 1) (by decide +kernel) (by decide +kernel) (by decide +kernel) (by decide +kernel)
    (.cons (s0 := ⟨3, [[0, 1, 0]], [-1], 1 / 2, 1, 0, 2, 2, 1, 0, false, [0, 0, 0]⟩)
      (s1 := ⟨3, [[0, 1, 0]], [-1], 1 / 2, 1, 0, 2, 2, 1, 0, false, [0, 0, 0]⟩)
      (pred := 1) (by decide +kernel) (by decide +kernel) (by decide +kernel) (by decide +kernel)
    (.cons (s0 := ⟨3, [[0, 1, -1 / 2]], [1], 1 / 2, 1, 0, 3, 3, 2, 1, false, [1, 0, 1]⟩)
      (s1 := ⟨3, [[0, 3 / 4, -3 / 8]], [1], 1 / 2, 1, 0, 3, 3, 2, 1, false, [1, 0, 1]⟩)
      (pred := -1) (by decide +kernel) (by decide +kernel) (by decide +kernel) (by decide +kernel) (.nil _)))⟩,
    .cons (by decide +kernel) (.cons (by decide +kernel) (.cons (by decide +kernel) .nil)),
    .binary rfl rfl, ?_, by decide +kernel, by decide +kernel, by decide +kernel⟩
  refine ⟨rfl, rfl, rfl, le_refl _, by decide, fun _ _ _ => rfl, hun, rfl, ?_, ?_, fun _ _ => trivial⟩
  · intro q hq
    simp only [stream3, List.mem_cons, List.not_mem_nil, or_false] at hq
    rcases hq with rfl | rfl | rfl <;>
      exact ⟨⟨by simp [Ascending], by simp⟩, by simp, by norm_num [sqnorm, cfg1]⟩
  · intro q hq
    simp only [stream3, List.mem_cons, List.not_mem_nil, or_false] at hq
    rcases hq with rfl | rfl | rfl <;> simp

end Sol.Props
