import Verif.Proofs.Erda
import Verif.Props.Composite
/-! C102: the cumulative loss of enhanced dual averaging with L1 and the absolute weights of its models, compared with any fixed
linear function. -/

set_option linter.unusedSectionVars false

namespace Sol.Props

open Sol.Online Sol.Olm Sol.Sparse Sol.Loss Sol.Spec

section
variable {α : Type} [Field α] [LinearOrder α] [IsStrictOrderedRing α] [FFun α] [FSqrt α]

/-- The setting: plain updates (no lazy updates, no active learning, no costs), an untrained model, examples with features 1 to
    `D-1` and norm at most `R`, proper labels, and linear functions `U` to compare with (without bias if it is not learnt). -/
structure Enhanced (c : Cfg α) (m : α) (Lab : Int → Prop) (Low : (Nat → α) → Prop) (D : Nat) (R : α) (U : Nat → Nat → α)
    (s : St α (List (List α))) (l : List (Ex α × α)) (ps : List (List α)) : Prop where
  lazy : c.lazyUpdate = false
  smooth : c.smooth ≤ 0
  cost : c.cost = none
  bias : 0 ≤ c.biasEta0
  dim : 1 ≤ D
  unbiased : c.biasEta0 = 0 → ∀ k < c.clf, U k 0 = 0
  fit : Fit c (vecs c.clf) s
  blank : ∀ v ∈ s.alg, ∀ a ∈ v, a = 0
  start : s.t = 0
  margin : s.margin = m
  tame : ∀ q ∈ l, Tame c.biasEta0 D R q.1.x
  labels : ∀ q ∈ l, Lab q.1.label
  scores : ∀ p ∈ ps, Low fun k => p.getD k 0

theorem erda_run {c : Cfg α} {m κ ε R sigma eps lambda rou thresh : α} {L : Ex α → (Nat → α) → α} {Lab : Int → Prop}
    {Low : (Nat → α) → Prop} (hL : Bent c m L κ ε Lab Low) (hk : Matches c.kind c.clf) (hlab : ∀ y, Lab y → LabelOk c.clf y)
    (hlazy : c.lazyUpdate = false) (hsm : c.smooth ≤ 0) (hcost : c.cost = none) (hb : 0 ≤ c.biasEta0) (D : Nat) (hD : 1 ≤ D)
    (U : Nat → Nat → α) (hla : 0 ≤ lambda) (hB : ∀ n : Nat, 0 < erdaDiv sigma eps (n : α))
    (hBm : ∀ n : Nat, erdaDiv sigma eps (n : α) ≤ erdaDiv sigma eps ((n + 1 : Nat) : α))
    (hC : ∀ n : Nat, 0 ≤ erdaCut sigma eps lambda rou (n : α))
    (hCm : ∀ n : Nat, erdaCut sigma eps lambda rou (n : α) + lambda ≤ erdaCut sigma eps lambda rou ((n + 1 : Nat) : α))
    {s s' : St α (List (List α))} {l : List (Ex α × α)} {sts ends : List (St α (List (List α)))} {ps : List (List α)} (n : Nat)
    (hn : s.t = n) (hs : Fit c (vecs c.clf) s) (hmar : s.margin = m) (h0 : n = 0 → ∀ k < c.clf, ∀ i, cell s.alg k i = 0)
    (hl : ∀ q ∈ l, Tame c.biasEta0 D R q.1.x) (hy : ∀ q ∈ l, Lab q.1.label) (hlow : ∀ p ∈ ps, Low fun k => p.getD k 0)
    (hv : Scored (erdaL1 sigma eps lambda rou thresh) c s l sts ps s')
    (hends : EndsAs (erdaL1 sigma eps lambda rou thresh) c sts ends) :
    (scoredLoss L ps l).sum - (fixed L U l).sum - l.length * ε + lambda * (ends.map (absWeights c.clf D)).sum
        + (∑ k ∈ Finset.range c.clf, ∑ i ∈ Finset.range D, cell s'.alg k i * U k i)
        + erdaPot c D (erdaCut sigma eps lambda rou ((n + l.length : Nat) : α)) (erdaDiv sigma eps ((n + l.length : Nat) : α)) s'.alg
      ≤ erdaPot c D (erdaCut sigma eps lambda rou (n : α)) (erdaDiv sigma eps (n : α)) s.alg
        + lambda * absSum c.clf D (erdaOf c sigma eps lambda rou (n : α) s.alg)
        + (∑ k ∈ Finset.range c.clf, ∑ i ∈ Finset.range D, cell s.alg k i * U k i)
        + ∑ j ∈ Finset.range l.length, κ * R ^ 2 * (1 / (2 * erdaDiv sigma eps ((max (n + j) 1 : Nat) : α))) := by
  induction hv generalizing n ends with
  | nil s =>
    cases hends
    have h2 : 0 ≤ absSum c.clf D (erdaOf c sigma eps lambda rou (n : α) s.alg) :=
      Finset.sum_nonneg fun _ _ => Finset.sum_nonneg fun _ _ => abs_nonneg _
    have h3 := mul_nonneg hla h2
    simp only [scoredLoss, fixed, List.zip_nil_left, List.map_nil, List.sum_nil, List.length_nil, Nat.cast_zero, zero_mul, sub_zero,
      mul_zero, add_zero, Finset.range_zero, Finset.sum_empty]
    linarith
  | @cons s s0 s1 s2 s3 e r p pred l sts ps h1 h2 h3 h4 ht ih =>
    cases hends with
    | @cons _ en _ ends hen hends =>
    obtain ⟨hx, hr, hR⟩ := hl (e, r) List.mem_cons_self
    have hya := hy (e, r) List.mem_cons_self
    have ht' : (s.t : α) = n := by rw [hn]; simp
    have hcut : 0 ≤ erdaCut sigma eps lambda rou (s.t : α) := by rw [ht']; exact hC n
    obtain rfl := Res.ok.inj h1
    have hsc := erda_scores hs hx hcut h2 h3
    have hlo := hlow p List.mem_cons_self
    rw [hsc] at hlo
    obtain ⟨k1, k2, k3, z, k4, k5, k6⟩ := erda_step hk hlazy hsm hcost hD hb U hL hs hmar hx hr (hlab _ hya) hya hlo hcut h4
    have k7 := ih (n + 1) (by rw [k3, hn]; push_cast; ring) k1 k2 (fun h => absurd h (Nat.succ_ne_zero n))
      (fun q hq => hl q (List.mem_cons_of_mem _ hq)) (fun q hq => hy q (List.mem_cons_of_mem _ hq))
      (fun q hq => hlow q (List.mem_cons_of_mem _ hq)) hends
    have k8 := mul_le_mul_of_nonneg_left (erda_end hs hcut hen D) hla
    have hZ : (∑ k ∈ Finset.range c.clf, ∑ i ∈ Finset.range D, rateOf c.biasEta0 i * z k i ^ 2) ≤ κ * R ^ 2 :=
      k5.trans (mul_le_mul_of_nonneg_left hR hL.sq)
    rw [← hsc, ht'] at k6
    rw [ht'] at k8
    -- the potential falls
    have k9 : (∑ k ∈ Finset.range c.clf, ∑ i ∈ Finset.range D, z k i * erdaOf c sigma eps lambda rou (n : α) s.alg k i)
        + erdaPot c D (erdaCut sigma eps lambda rou ((n + 1 : Nat) : α)) (erdaDiv sigma eps ((n + 1 : Nat) : α)) s2.alg
        + lambda * absSum c.clf D (erdaOf c sigma eps lambda rou ((n + 1 : Nat) : α) s2.alg)
        ≤ erdaPot c D (erdaCut sigma eps lambda rou (n : α)) (erdaDiv sigma eps (n : α)) s.alg
          + κ * R ^ 2 * (1 / (2 * erdaDiv sigma eps ((max n 1 : Nat) : α))) := by
      rcases Nat.eq_zero_or_pos n with rfl | hpos
      · have hz := h0 rfl
        have f1 := erda_fall (u := s.alg) (u' := s2.alg) hb D (b := 0) (le_refl _) hla
          (show (0 : α) + lambda ≤ erdaCut sigma eps lambda rou ((0 + 1 : Nat) : α) by
            have := hCm 0; have := hC 0; linarith) (hB (0 + 1)) (le_refl _) k4
        have f2 : ∀ b d : α, 0 ≤ b → erdaPot c D b d s.alg = 0 := fun b d hb' =>
          Finset.sum_eq_zero fun k hk' => Finset.sum_eq_zero fun i _ => by
            rw [hz k (Finset.mem_range.1 hk'), soft_zero hb']; simp
        have f3 : ∀ b d : α, 0 ≤ b → (∑ k ∈ Finset.range c.clf, ∑ i ∈ Finset.range D, z k i * softOf c.biasEta0 d b s.alg k i) = 0 :=
          fun b d hb' => Finset.sum_eq_zero fun k hk' => Finset.sum_eq_zero fun i _ => by
            unfold softOf
            rw [hz k (Finset.mem_range.1 hk'), soft_zero hb']; simp
        rw [f3 _ _ (le_refl _), f2 _ _ (le_refl _)] at f1
        have f4 : (∑ k ∈ Finset.range c.clf, ∑ i ∈ Finset.range D,
            z k i * erdaOf c sigma eps lambda rou ((0 : Nat) : α) s.alg k i) = 0 := f3 _ _ (hC 0)
        rw [f4, f2 _ _ (hC 0)]
        have hpos1 := hB 1
        have f5 := mul_le_mul_of_nonneg_right hZ (show 0 ≤ 1 / (2 * erdaDiv sigma eps ((1 : Nat) : α)) by positivity)
        exact le_trans f1 (by simpa using f5)
      · have f1 := erda_fall (u := s.alg) (u' := s2.alg) hb D (hC n) hla (hCm n) (hB n) (hBm n) k4
        rw [max_eq_left (show 1 ≤ n from hpos)]
        have hpos1 := hB n
        have f5 := mul_le_mul_of_nonneg_right hZ (show 0 ≤ 1 / (2 * erdaDiv sigma eps (n : α)) by positivity)
        exact le_trans f1 (by linarith)
    have k10 : (∑ k ∈ Finset.range c.clf, ∑ i ∈ Finset.range D, cell s2.alg k i * U k i)
        = (∑ k ∈ Finset.range c.clf, ∑ i ∈ Finset.range D, cell s.alg k i * U k i)
          + ∑ k ∈ Finset.range c.clf, ∑ i ∈ Finset.range D, z k i * U k i := by
      rw [← Finset.sum_add_distrib]
      refine Finset.sum_congr rfl fun k hk' => ?_
      rw [← Finset.sum_add_distrib]
      exact Finset.sum_congr rfl fun i _ => by rw [k4 k (Finset.mem_range.1 hk')]; ring
    have k11 : (∑ k ∈ Finset.range c.clf, ∑ i ∈ Finset.range D, z k i * (erdaOf c sigma eps lambda rou (n : α) s.alg k i - U k i))
        = (∑ k ∈ Finset.range c.clf, ∑ i ∈ Finset.range D, z k i * erdaOf c sigma eps lambda rou (n : α) s.alg k i)
          - ∑ k ∈ Finset.range c.clf, ∑ i ∈ Finset.range D, z k i * U k i := by
      rw [← Finset.sum_sub_distrib]
      refine Finset.sum_congr rfl fun k _ => ?_
      rw [← Finset.sum_sub_distrib]
      exact Finset.sum_congr rfl fun i _ => by ring
    rw [k11] at k6
    have e1 : (scoredLoss L (p :: ps) ((e, r) :: l)).sum = L e (fun k => p.getD k 0) + (scoredLoss L ps l).sum := by
      simp [scoredLoss]
    have e2 : (fixed L U ((e, r) :: l)).sum = L e (scoresOf U e.x) + (fixed L U l).sum := by simp [fixed]
    rw [e1, e2]
    rw [k10] at k7
    simp only [List.map_cons, List.sum_cons, List.length_cons]
    rw [Finset.sum_range_succ', show n + (l.length + 1) = n + 1 + l.length by omega]
    have e3 : (∑ j ∈ Finset.range l.length, κ * R ^ 2 * (1 / (2 * erdaDiv sigma eps ((max (n + (j + 1)) 1 : Nat) : α))))
        = ∑ j ∈ Finset.range l.length, κ * R ^ 2 * (1 / (2 * erdaDiv sigma eps ((max (n + 1 + j) 1 : Nat) : α))) :=
      Finset.sum_congr rfl fun j _ => by rw [show n + (j + 1) = n + 1 + j by omega]
    rw [e3, add_zero]
    have e4 : ((l.length + 1 : Nat) : α) = (l.length : α) + 1 := by push_cast; rfl
    rw [e4]
    linarith

/-- What is needed of the square root. -/
def Rooted (α : Type) [Field α] [LinearOrder α] [FSqrt α] : Prop :=
  ∀ a b : α, 0 < a → a ≤ b → 0 < FSqrt.sqrt a ∧ FSqrt.sqrt a ≤ FSqrt.sqrt b

theorem erda_bent {c : Cfg α} {m κ ε R sigma eps lambda rou thresh : α} {L : Ex α → (Nat → α) → α} {Lab : Int → Prop}
    {Low : (Nat → α) → Prop} (hB : Bent c m L κ ε Lab Low) (hk : Matches c.kind c.clf) (hlab : ∀ y, Lab y → LabelOk c.clf y)
    {D : Nat} {U : Nat → Nat → α} {s s' : St α (List (List α))} {l : List (Ex α × α)} {sts ends : List (St α (List (List α)))}
    {ps : List (List α)} (hroot : Rooted α) (hC : Enhanced c m Lab Low D R U s l ps) (hsig : 0 < sigma) (heps : 0 < eps)
    (hlambda : 0 ≤ lambda) (hrou : 0 ≤ rou) (hv : Scored (erdaL1 sigma eps lambda rou thresh) c s l sts ps s')
    (he : EndsAs (erdaL1 sigma eps lambda rou thresh) c sts ends) :
    (scoredLoss L ps l).sum + lambda * (ends.map (absWeights c.clf D)).sum
      ≤ (fixed L U l).sum + l.length * ε + lambda * ((l.length + eps) * absSum c.clf D U)
        + sigma * FSqrt.sqrt (l.length + eps) * (energy c D U / 2 + rou * absSum c.clf D U)
        + κ * R ^ 2 / (2 * sigma) * ∑ j ∈ Finset.range l.length, 1 / FSqrt.sqrt (((max j 1 : Nat) : α) + eps) := by
  have hp : ∀ n : Nat, (0 : α) < (n : α) + eps := fun n => by positivity
  have hsq : ∀ n : Nat, 0 < FSqrt.sqrt ((n : α) + eps) := fun n => (hroot _ _ (hp n) (le_refl _)).1
  have hsm : ∀ n : Nat, FSqrt.sqrt ((n : α) + eps) ≤ FSqrt.sqrt (((n + 1 : Nat) : α) + eps) := fun n =>
    (hroot _ _ (hp n) (by push_cast; linarith)).2
  have hD : ∀ n : Nat, 0 < erdaDiv sigma eps (n : α) := fun n => mul_pos (hsq n) hsig
  have hcut : ∀ n : Nat, 0 ≤ erdaCut sigma eps lambda rou (n : α) := fun n => by
    have := hsq n
    have := hp n
    unfold erdaCut
    positivity
  have h0 : ∀ k i, cell s.alg k i = 0 := by
    intro k i
    unfold cell coord
    rw [List.getD_eq_getElem?_getD (l := s.alg), List.getD_eq_getElem?_getD]
    cases hv : s.alg[k]? with
    | none => simp
    | some v =>
      simp only [Option.getD_some]
      cases hw : v[i]? with
      | none => rfl
      | some b => exact hC.blank v (List.mem_of_getElem? hv) b (List.mem_of_getElem? hw)
  have h1 := erda_run hB hk hlab hC.lazy hC.smooth hC.cost hC.bias D hC.dim U hlambda hD
    (fun n => mul_le_mul_of_nonneg_right (hsm n) hsig.le) hcut (fun n => by
      have := mul_le_mul_of_nonneg_left (hsm n) (mul_nonneg hsig.le hrou)
      unfold erdaCut
      push_cast at this ⊢
      linarith) 0 (by simpa using hC.start) hC.fit hC.margin (fun _ k _ i => h0 k i) hC.tame hC.labels hC.scores hv he
  have h2 := erda_close (D := D) hC.bias (hcut l.length) (hD l.length) hC.unbiased s'.alg
  have e1 : ∑ k ∈ Finset.range c.clf, ∑ i ∈ Finset.range D, U k i ^ 2 / rateOf c.biasEta0 i = energy c D U := by
    unfold energy
    exact Finset.sum_congr rfl fun k _ => (unorm_rate hC.dim _ _).symm
  rw [e1] at h2
  have e2 : erdaPot c D (erdaCut sigma eps lambda rou ((0 : Nat) : α)) (erdaDiv sigma eps ((0 : Nat) : α)) s.alg = 0 :=
    Finset.sum_eq_zero fun k _ => Finset.sum_eq_zero fun i _ => by rw [h0, soft_zero (hcut 0)]; simp
  have e3 : absSum c.clf D (erdaOf c sigma eps lambda rou ((0 : Nat) : α) s.alg) = 0 :=
    Finset.sum_eq_zero fun k _ => Finset.sum_eq_zero fun i _ => by
      unfold erdaOf softOf
      rw [h0, soft_zero (hcut 0)]; simp
  have e4 : (∑ k ∈ Finset.range c.clf, ∑ i ∈ Finset.range D, cell s.alg k i * U k i) = 0 :=
    Finset.sum_eq_zero fun k _ => Finset.sum_eq_zero fun i _ => by rw [h0, zero_mul]
  have e5 : ∑ j ∈ Finset.range l.length, κ * R ^ 2 * (1 / (2 * erdaDiv sigma eps ((max (0 + j) 1 : Nat) : α)))
      = κ * R ^ 2 / (2 * sigma) * ∑ j ∈ Finset.range l.length, 1 / FSqrt.sqrt (((max j 1 : Nat) : α) + eps) := by
    rw [Finset.mul_sum]
    refine Finset.sum_congr rfl fun j _ => ?_
    have := hsq (max j 1)
    rw [zero_add]
    unfold erdaDiv
    field_simp
  rw [e2, e3, e4, e5, Nat.zero_add] at h1
  have e6 : erdaDiv sigma eps (l.length : α) = FSqrt.sqrt ((l.length : α) + eps) * sigma := rfl
  have e7 : erdaCut sigma eps lambda rou (l.length : α)
      = lambda * ((l.length : α) + eps) + sigma * rou * FSqrt.sqrt ((l.length : α) + eps) := rfl
  rw [e7] at h2 h1
  rw [e6] at h2 h1
  linarith

/-- C102: the losses that ERDA_L1 sees during training, together with `lambda` times the absolute weights of the models that
    training would give before each example, exceed the losses of `U` together with `lambda` times its absolute coefficients by
    at most `σ √n (|U|²/2 + ρ |U|₁) + κ R²/(2σ) Σ 1/√j` (the code adds a tiny number to `n` and `j`). -/
theorem C102_composite (c : Cfg α) (m κ R sigma eps lambda rou thresh : α) (L : Ex α → (Nat → α) → α) (Lab : Int → Prop)
    (Low : (Nat → α) → Prop) (hL : HingeLoss c m L κ Lab Low) (D : Nat) (U : Nat → Nat → α) (s s' : St α (List (List α)))
    (l : List (Ex α × α)) (sts ends : List (St α (List (List α)))) (ps : List (List α)) (hroot : Rooted α)
    (hC : Enhanced c m Lab Low D R U s l ps) (hsig : 0 < sigma) (heps : 0 < eps) (hlambda : 0 ≤ lambda) (hrou : 0 ≤ rou)
    (hv : Scored (erdaL1 sigma eps lambda rou thresh) c s l sts ps s') (he : EndsAs (erdaL1 sigma eps lambda rou thresh) c sts ends) :
    (scoredLoss L ps l).sum + lambda * (ends.map (absWeights c.clf D)).sum
      ≤ (fixed L U l).sum + lambda * ((l.length + eps) * absSum c.clf D U)
        + sigma * FSqrt.sqrt (l.length + eps) * (energy c D U / 2 + rou * absSum c.clf D U)
        + κ * R ^ 2 / (2 * sigma) * ∑ j ∈ Finset.range l.length, 1 / FSqrt.sqrt (((max j 1 : Nat) : α) + eps) := by
  obtain ⟨hB, hk, -, hlab⟩ := hL.bent
  have := erda_bent hB hk hlab hroot hC hsig heps hlambda hrou hv he
  simpa using this

/-- Training always gives such scores and models: the hypotheses `Scored` and `EndsAs` can be met. -/
theorem C102_runs (c : Cfg α) (sigma eps lambda rou thresh : α) (hk : Matches c.kind c.clf) (l : List (Ex α × α)) (hl : Usable c l)
    (s : St α (List (List α))) (hs : Fit c (vecs c.clf) s) : ∃ sts ends ps s',
      Scored (erdaL1 sigma eps lambda rou thresh) c s l sts ps s' ∧ EndsAs (erdaL1 sigma eps lambda rou thresh) c sts ends := by
  induction l generalizing s with
  | nil => exact ⟨[], [], [], s, .nil s, .nil⟩
  | cons q l ih =>
    obtain ⟨hx, hle⟩ := hl q List.mem_cons_self
    obtain ⟨ev, s1, hh, hf, -⟩ := happens (safe_erdaL1 c sigma eps lambda rou thresh) hk s hs q.1 q.2 hx hle
    obtain ⟨a, b, p, h1, h2, h3, -, -, h4⟩ := hh
    obtain ⟨sts, ends, ps, s', h5, h6⟩ := ih (fun y hy => hl y (List.mem_cons_of_mem _ hy)) s1 hf
    obtain ⟨m, hm, -⟩ := closes_erdaL1 c sigma eps lambda rou thresh s hs
    exact ⟨s :: sts, m :: ends, p :: ps, s', .cons h1 h2 h3 h4 h5, .cons hm h6⟩

end

theorem rooted_real : Rooted ℝ := fun _ _ h1 h2 => ⟨Real.sqrt_pos.2 h1, Real.sqrt_le_sqrt h2⟩

theorem root_sum (n : Nat) {eps : ℝ} (he : 0 < eps) :
    ∑ j ∈ Finset.range n, 1 / FSqrt.sqrt (((max j 1 : Nat) : ℝ) + eps) ≤ 1 + 2 * Real.sqrt n := by
  have hle : ∀ j : Nat, 1 / FSqrt.sqrt (((max j 1 : Nat) : ℝ) + eps) ≤ 1 / Real.sqrt ((max j 1 : Nat) : ℝ) := by
    intro j
    have h1 : (0 : ℝ) < ((max j 1 : Nat) : ℝ) := by exact_mod_cast (by omega : 0 < max j 1)
    exact one_div_le_one_div_of_le (Real.sqrt_pos.2 h1) (Real.sqrt_le_sqrt (by linarith))
  refine (Finset.sum_le_sum fun j _ => hle j).trans ?_
  have hall : ∀ n : Nat, ∑ j ∈ Finset.range (n + 1), 1 / Real.sqrt ((max j 1 : Nat) : ℝ) ≤ 1 + 2 * Real.sqrt n := by
    intro n
    induction n with
    | zero => simp
    | succ n ih =>
      rw [Finset.sum_range_succ, max_eq_left (show 1 ≤ n + 1 by omega)]
      have hp : (0 : ℝ) < ((n + 1 : Nat) : ℝ) := by positivity
      have h1 : 0 < Real.sqrt ((n + 1 : Nat) : ℝ) := Real.sqrt_pos.2 hp
      have h2 : Real.sqrt ((n + 1 : Nat) : ℝ) ^ 2 = (n : ℝ) + 1 := by rw [Real.sq_sqrt hp.le]; push_cast; rfl
      have h3 : Real.sqrt (n : ℝ) ^ 2 = n := Real.sq_sqrt (Nat.cast_nonneg n)
      have h4 : 1 / Real.sqrt ((n + 1 : Nat) : ℝ) ≤ 2 * Real.sqrt ((n + 1 : Nat) : ℝ) - 2 * Real.sqrt n := by
        rw [div_le_iff₀ h1]
        nlinarith [sq_nonneg (Real.sqrt ((n + 1 : Nat) : ℝ) - Real.sqrt (n : ℝ))]
      linarith
  cases n with
  | zero => simp
  | succ n =>
    have h1 : Real.sqrt (n : ℝ) ≤ Real.sqrt ((n + 1 : Nat) : ℝ) := Real.sqrt_le_sqrt (by push_cast; linarith)
    have h2 := hall n
    linarith

/-- C102 over the reals: the bound grows like the square root of the number of examples. -/
theorem C102_root (c : Cfg ℝ) (m κ R sigma eps lambda rou thresh : ℝ) (L : Ex ℝ → (Nat → ℝ) → ℝ) (Lab : Int → Prop)
    (Low : (Nat → ℝ) → Prop) (hL : HingeLoss c m L κ Lab Low) (D : Nat) (U : Nat → Nat → ℝ) (s s' : St ℝ (List (List ℝ)))
    (l : List (Ex ℝ × ℝ)) (sts ends : List (St ℝ (List (List ℝ)))) (ps : List (List ℝ)) (hC : Enhanced c m Lab Low D R U s l ps)
    (hsig : 0 < sigma) (heps : 0 < eps) (hlambda : 0 ≤ lambda) (hrou : 0 ≤ rou)
    (hv : Scored (erdaL1 sigma eps lambda rou thresh) c s l sts ps s') (he : EndsAs (erdaL1 sigma eps lambda rou thresh) c sts ends) :
    (scoredLoss L ps l).sum + lambda * (ends.map (absWeights c.clf D)).sum
      ≤ (fixed L U l).sum + lambda * ((l.length + eps) * absSum c.clf D U)
        + sigma * Real.sqrt (l.length + eps) * (energy c D U / 2 + rou * absSum c.clf D U)
        + κ * R ^ 2 / (2 * sigma) * (1 + 2 * Real.sqrt l.length) := by
  have h1 := C102_composite c m κ R sigma eps lambda rou thresh L Lab Low hL D U s s' l sts ends ps rooted_real hC hsig heps hlambda
    hrou hv he
  have hκ := hL.bent.2.2.1
  have h2 := mul_le_mul_of_nonneg_left (root_sum l.length heps) (show 0 ≤ κ * R ^ 2 / (2 * sigma) by positivity)
  have e : FSqrt.sqrt ((l.length : ℝ) + eps) = Real.sqrt ((l.length : ℝ) + eps) := rfl
  rw [e] at h1
  linarith

/-- C102 for the logistic loss, up to `2 exp(-100)` per example for the cut-offs of the code. -/
theorem C102_logistic (c : Cfg ℝ) (hkind : c.kind = .logistic) (hclf : c.clf = 1) (m R sigma eps lambda rou thresh : ℝ) (D : Nat)
    (U : Nat → Nat → ℝ) (s s' : St ℝ (List (List ℝ))) (l : List (Ex ℝ × ℝ)) (sts ends : List (St ℝ (List (List ℝ))))
    (ps : List (List ℝ)) (hC : Enhanced c m (fun y => y = 1 ∨ y = -1) (fun _ => True) D R U s l ps)
    (hsig : 0 < sigma) (heps : 0 < eps) (hlambda : 0 ≤ lambda) (hrou : 0 ≤ rou)
    (hv : Scored (erdaL1 sigma eps lambda rou thresh) c s l sts ps s') (he : EndsAs (erdaL1 sigma eps lambda rou thresh) c sts ends) :
    (scoredLoss logisticOf ps l).sum + lambda * (ends.map (absWeights c.clf D)).sum
      ≤ (fixed logisticOf U l).sum + lambda * ((l.length + eps) * absSum c.clf D U)
        + sigma * Real.sqrt (l.length + eps) * (energy c D U / 2 + rou * absSum c.clf D U)
        + R ^ 2 / (2 * sigma) * (1 + 2 * Real.sqrt l.length) + 2 * Real.exp (-100) * l.length := by
  have h1 := erda_bent (bent_logistic hkind hclf m) (by rw [hkind]; exact hclf) (fun _ _ => .inl hclf) rooted_real hC hsig heps hlambda
    hrou hv he
  obtain ⟨h2, h3⟩ := scored_logistic U l ps (scored_length hv)
  have h4 := mul_le_mul_of_nonneg_left (root_sum l.length heps) (show 0 ≤ R ^ 2 / (2 * sigma) by positivity)
  have e : FSqrt.sqrt ((l.length : ℝ) + eps) = Real.sqrt ((l.length : ℝ) + eps) := rfl
  rw [e, one_mul] at h1
  linarith

/-! ### Instances -/

/-- An untrained model over the reals, examples of norm at most 2 and a linear function meet the hypotheses, with a bias that is
    learnt. -/
theorem C102_hypotheses (ps : List (List ℝ)) :
    let c : Cfg ℝ := { cfg1 with biasEta0 := 1 }
    HingeLoss c 1 (hingeOf 1) 1 (fun y => y = 1 ∨ y = -1) (fun _ => True) ∧
    Enhanced c 1 (fun y => y = 1 ∨ y = -1) (fun _ => True) 3 2 (fun _ i => if i = 1 then 1 else -1) (model1 [[0]])
      [(⟨1, [(1, 1)]⟩, 0), (⟨-1, [(1, 1), (2, 1)]⟩, 0)] ps := by
  refine ⟨.binary rfl rfl, rfl, le_refl _, rfl, zero_le_one, by decide, fun h => absurd h one_ne_zero,
    ⟨by decide, ⟨rfl, by simp [model1]⟩, rfl, ⟨rfl, by simp [model1]⟩⟩, by simp [model1], rfl, rfl, ?_, ?_, fun _ _ => trivial⟩
  · intro q hq
    simp only [List.mem_cons, List.not_mem_nil, or_false] at hq
    rcases hq with rfl | rfl <;> exact ⟨⟨by simp [Ascending], by simp⟩, by simp, by norm_num [sqnorm]⟩
  · intro q hq
    simp only [List.mem_cons, List.not_mem_nil, or_false] at hq
    rcases hq with rfl | rfl <;> simp

/-- The models of ERDA_L1 on `stream3`, with `σ = ε = 1`, `λ = ρ = 1/8`, and the identity in place of the square root. -/
def enhanced : List (St Rat (List (List Rat))) :=
  [model1 [[0]], ⟨2, [[0, 0]], [-1], 1, 1, 0, 1, 1, 1, 0, false, [[-1, -2]]⟩,
   ⟨3, [[0, 0, 0]], [1], 1 / 2, 1, 0, 2, 2, 2, 1, false, [[0, -2, 1]]⟩]

/-- The models that training would give there. -/
def enhancedEnds : List (St Rat (List (List Rat))) :=
  [model1 [[0]], ⟨2, [[0, 3 / 4]], [-1], 1 / 2, 1, 0, 1, 1, 1, 0, false, [[-1, -2]]⟩,
   ⟨3, [[0, 5 / 12, -1 / 12]], [1], 1 / 3, 1, 0, 2, 2, 2, 1, false, [[0, -2, 1]]⟩]

/-- A run that meets the hypotheses of C102, compared with the function `x ↦ x 1`: losses 1, 1, 47/48 and absolute weights 0,
    3/4, 1/2 against losses 0, 1, 3/4 and absolute weight 1. -/
theorem C102_instance :
    letI : FFun Rat := lowFun
    letI : FSqrt Rat := ⟨fun a => a⟩
    Rooted Rat ∧
    (∃ s', Scored (erdaL1 1 1 (1 / 8) (1 / 8) 0) (cfg1 : Cfg Rat) (model1 [[0]]) stream3 enhanced [[0], [0], [1 / 48]] s') ∧
    EndsAs (erdaL1 1 1 (1 / 8) (1 / 8) 0) (cfg1 : Cfg Rat) enhanced enhancedEnds ∧
    HingeLoss (cfg1 : Cfg Rat) 1 (hingeOf 1) 1 (fun y => y = 1 ∨ y = -1) (fun _ => True) ∧
    Enhanced (cfg1 : Cfg Rat) 1 (fun y => y = 1 ∨ y = -1) (fun _ => True) 3 2 (fun _ i => if i = 1 then 1 else 0) (model1 [[0]])
      stream3 [[0], [0], [1 / 48]] ∧
    scoredLoss (hingeOf 1) [[0], [0], [1 / 48]] stream3 = [1, 1, 47 / 48] ∧
    enhancedEnds.map (absWeights 1 3) = [0, 3 / 4, 1 / 2] ∧
    fixed (hingeOf 1) (fun _ i => if i = 1 then 1 else 0) stream3 = [0, 1, 3 / 4] := by
  letI : FFun Rat := lowFun
  letI : FSqrt Rat := ⟨fun a => a⟩
  refine ⟨fun a b h1 h2 => ⟨h1, h2⟩, ⟨⟨3, [[0, 5 / 12, -1 / 12]], [-1], 1 / 3, 1, 0, 3, 3, 3, 1, false, [[-1, -9 / 4, 0]]⟩,
    .cons (s0 := ⟨2, [[0, 0]], [0], 1, 1, 0, 1, 1, 0, 0, false, [[0, 0]]⟩)
      (s1 := ⟨2, [[0, 0]], [0], 1, 1, 0, 1, 1, 0, 0, false, [[0, 0]]⟩)
      (pred := 1) (by decide +kernel) (by decide +kernel) (by decide +kernel) (by decide +kernel)
    (.cons (s0 := ⟨3, [[0, 0, 0]], [-1], 1, 1, 0, 2, 2, 1, 0, false, [[-1, -2, 0]]⟩)
      (s1 := ⟨3, [[0, 0, 0]], [-1], 1 / 2, 1, 0, 2, 2, 1, 0, false, [[-1, -2, 0]]⟩)
      (pred := 1) (by decide +kernel) (by decide +kernel) (by decide +kernel) (by decide +kernel)
    (.cons (s0 := ⟨3, [[0, 0, 0]], [1], 1 / 2, 1, 0, 3, 3, 2, 1, false, [[0, -2, 1]]⟩)
      (s1 := ⟨3, [[0, 5 / 12, -1 / 12]], [1], 1 / 3, 1, 0, 3, 3, 2, 1, false, [[0, -2, 1]]⟩)
      (pred := 1) (by decide +kernel) (by decide +kernel) (by decide +kernel) (by decide +kernel) (.nil _)))⟩,
    .cons (by decide +kernel) (.cons (by decide +kernel) (.cons (by decide +kernel) .nil)),
    .binary rfl rfl, ?_, by decide +kernel, by decide +kernel, by decide +kernel⟩
  refine ⟨rfl, le_refl _, rfl, le_refl _, by decide, fun _ _ _ => rfl, ⟨by decide, ⟨rfl, by simp [model1]⟩, rfl, ⟨rfl, by simp [model1]⟩⟩,
    by simp [model1], rfl, rfl, ?_, ?_, fun _ _ => trivial⟩
  · intro q hq
    simp only [stream3, List.mem_cons, List.not_mem_nil, or_false] at hq
    rcases hq with rfl | rfl | rfl <;>
      exact ⟨⟨by simp [Ascending], by simp⟩, by simp, by norm_num [sqnorm, cfg1]⟩
  · intro q hq
    simp only [stream3, List.mem_cons, List.not_mem_nil, or_false] at hq
    rcases hq with rfl | rfl | rfl <;> simp

end Sol.Props
