import Verif.Proofs.Eta
import Verif.Proofs.F32
import Verif.Props.Online
/-! C33, C34: the passive-aggressive algorithms. -/

set_option linter.unusedSectionVars false

namespace Sol.Props

open Sol.Online Sol.Olm Sol.Sparse Sol.Loss Sol.Spec

section
variable {α : Type} [Field α] [LinearOrder α] [IsStrictOrderedRing α] [FFun α] [FSqrt α]

/-- The score of class `k` for `x`. -/
def scoreOf {A : Type} (s : St α A) (k : Nat) (x : SVec α) : α := linear (cell s.w k) x + cell s.w k 0

/-- The setting of the binary theorems: hinge loss, labels +1 and -1, features numbered from 1. -/
structure Binary (c : Cfg α) (s : St α Unit) (e : Ex α) : Prop where
  kind : c.kind = .hinge
  clf : c.clf = 1
  bias : 0 ≤ c.biasEta0
  fit : Fit c (none' Unit) s
  good : Good e.x
  feats : ∀ p ∈ e.x, 1 ≤ p.1
  label : e.label = 1 ∨ e.label = -1

/-- The hinge loss of the example before the update, and the step `E` of the algorithm. -/
theorem binary_step {c : Cfg α} {s s' : St α Unit} {e : Ex α} {r : α} {ev : Event} (hB : Binary c s e)
    {G : Alg α Unit} {mid : SVec α → Nat → Unit → Prop} (hG : Safe c G (none' Unit) mid) (hm : Margin G)
    (E : SVec α → α → α) (hupd : ∀ c s x l, G.update c s x l = etaStep c { s with eta := E x l } x)
    (hhand : ∀ c s x, G.handler c s x = none) (hh : Happens G c s e r ev s') (hf : ev.fired = true) :
    ∃ l, l = max 0 (costMargin c e.label s.margin - (e.label : α) * scoreOf s 0 e.x) ∧
      (c.lazyUpdate = false → 0 < l) ∧ s'.eta = E e.x l ∧
      (∀ i, cell s'.w 0 i = cell s.w 0 i + (if 0 < l then E e.x l * (e.label : α) else 0) * dir c.biasEta0 e.x i) ∧
      scoreOf s' 0 e.x = scoreOf s 0 e.x + (if 0 < l then E e.x l * (e.label : α) else 0) * (sqnorm e.x + c.biasEta0) := by
  have hk : Matches c.kind c.clf := by rw [hB.kind, hB.clf]; rfl
  obtain ⟨p, l, g, st, -, hM⟩ := moved hG hm hk (fun _ x l => E x l) hupd hhand e.x hB.fit hB.good (.inl hB.clf) hh hf
  have h0 : 0 < c.clf := by rw [hB.clf]; exact Nat.one_pos
  obtain ⟨g0, vi, m', v', hg0, hgr⟩ := hM.grad
  rw [hB.kind] at hgr
  obtain ⟨hl, hg⟩ := hinge_grad (by rw [hM.plen, hB.clf]) (by rw [hg0, hB.clf]) hgr
  have hmove : ∀ i, cell s'.w 0 i = cell s.w 0 i + (if 0 < l then E e.x l * (e.label : α) else 0) * dir c.biasEta0 e.x i := by
    intro i
    rw [hM.move 0 h0 i, hg]
    split <;> ring
  refine ⟨l, ?_, ?_, hM.eta, hmove, ?_⟩
  · rw [hl, hM.score 0 h0, mul_comm]; rfl
  · intro hz
    have := hM.rule
    rw [hz] at this
    simpa using this
  · have := score_after hB.good.1 hB.feats c.biasEta0 (-(if 0 < l then E e.x l * (e.label : α) else 0)) (cell s.w 0)
      (cell s'.w 0) (fun i => by rw [hmove i]; ring)
    unfold scoreOf
    rw [this]
    ring

theorem label_sq {y : Int} (h : y = 1 ∨ y = -1) : (y : α) * (y : α) = 1 := by
  rcases h with rfl | rfl <;> simp

/-- C33: after an update of PA the example has hinge loss zero: its margin is reached. -/
theorem C33_pa_reaches_margin (c : Cfg α) (s s' : St α Unit) (e : Ex α) (r : α) (ev : Event) (hB : Binary c s e)
    (hx : 0 < sqnorm e.x) (hh : Happens (pa 1) c s e r ev s') (hf : ev.fired = true) :
    costMargin c e.label s.margin ≤ (e.label : α) * scoreOf s' 0 e.x ∧
    (c.biasEta0 = 0 → costMargin c e.label s.margin > (e.label : α) * scoreOf s 0 e.x →
      (e.label : α) * scoreOf s' 0 e.x = costMargin c e.label s.margin) := by
  obtain ⟨l, h1, -, -, -, h2⟩ := binary_step hB (safe_pa c 1) (.pa 1) (fun x l => l / (1 * norm2 x)) (fun _ _ _ _ => rfl)
    (fun _ _ _ => rfl) hh hf
  rw [norm2_eq, one_mul] at h2
  set m := costMargin c e.label s.margin
  have hy := label_sq (α := α) hB.label
  have hb := hB.bias
  by_cases hl : 0 < l
  · rw [if_pos hl] at h2
    have hlv : l = m - (e.label : α) * scoreOf s 0 e.x := by
      rcases max_choice 0 (m - (e.label : α) * scoreOf s 0 e.x) with h | h
      · rw [h] at h1; linarith
      · rw [h] at h1; exact h1
    have h3 : (e.label : α) * scoreOf s' 0 e.x
        = (e.label : α) * scoreOf s 0 e.x + l + l / sqnorm e.x * c.biasEta0 := by
      rw [h2]
      have : l / sqnorm e.x * sqnorm e.x = l := div_mul_cancel₀ _ (ne_of_gt hx)
      calc (e.label : α) * (scoreOf s 0 e.x + l / sqnorm e.x * (e.label : α) * (sqnorm e.x + c.biasEta0))
          = (e.label : α) * scoreOf s 0 e.x + ((e.label : α) * (e.label : α)) * (l / sqnorm e.x * sqnorm e.x
              + l / sqnorm e.x * c.biasEta0) := by ring
        _ = _ := by rw [hy, this]; ring
    have h4 : 0 ≤ l / sqnorm e.x * c.biasEta0 := mul_nonneg (div_nonneg hl.le hx.le) hb
    constructor
    · rw [h3]; linarith
    · intro hb0 _
      rw [h3, hb0]
      linarith
  · have hl0 : m - (e.label : α) * scoreOf s 0 e.x ≤ 0 := by
      have := le_max_right 0 (m - (e.label : α) * scoreOf s 0 e.x)
      rw [← h1] at this
      linarith
    rw [if_neg hl] at h2
    have h3 : scoreOf s' 0 e.x = scoreOf s 0 e.x := by rw [h2]; ring
    rw [h3]
    exact ⟨by linarith, fun _ h => by linarith⟩

/-- C33: the update of PA (without bias) is the smallest one that reaches the margin: every weight vector `v` with the same
    bias and hinge loss zero on the example is at least as far away. -/
theorem C33_pa_moves_least (c : Cfg α) (s s' : St α Unit) (e : Ex α) (r : α) (ev : Event) (hB : Binary c s e)
    (hb : c.biasEta0 = 0) (hx : 0 < sqnorm e.x) (hh : Happens (pa 1) c s e r ev s') (hf : ev.fired = true)
    (D : Nat) (hD : ∀ p ∈ e.x, p.1 < D) (v : Nat → α) (hv0 : v 0 = cell s.w 0 0)
    (hv : costMargin c e.label s.margin ≤ (e.label : α) * (linear v e.x + v 0)) :
    ∑ i ∈ Finset.range D, (cell s'.w 0 i - cell s.w 0 i) ^ 2 ≤ ∑ i ∈ Finset.range D, (v i - cell s.w 0 i) ^ 2 := by
  obtain ⟨l, h1, -, -, h2, -⟩ := binary_step hB (safe_pa c 1) (.pa 1) (fun x l => l / (1 * norm2 x)) (fun _ _ _ _ => rfl)
    (fun _ _ _ => rfl) hh hf
  simp only [norm2_eq, one_mul, hb] at h2
  set m := costMargin c e.label s.margin
  have hy := label_sq (α := α) hB.label
  have hdir : ∀ i, dir 0 e.x i = feat e.x i := fun i => by simp [dir]
  by_cases hl : 0 < l
  · have hlv : l = m - (e.label : α) * scoreOf s 0 e.x := by
      rcases max_choice 0 (m - (e.label : α) * scoreOf s 0 e.x) with h | h
      · rw [h] at h1; linarith
      · rw [h] at h1; exact h1
    have hsq : sqnorm e.x = ∑ i ∈ Finset.range D, feat e.x i * feat e.x i := by
      rw [sqnorm_linear hB.good.1, linear_sum hB.good.1 hD]
    have h3 : ∑ i ∈ Finset.range D, (cell s'.w 0 i - cell s.w 0 i) ^ 2 = l ^ 2 / sqnorm e.x := by
      have : ∀ i ∈ Finset.range D, (cell s'.w 0 i - cell s.w 0 i) ^ 2 = (l / sqnorm e.x) ^ 2 * (feat e.x i * feat e.x i) := by
        intro i _
        rw [h2 i, if_pos hl, hdir]
        calc (cell s.w 0 i + l / sqnorm e.x * (e.label : α) * feat e.x i - cell s.w 0 i) ^ 2
            = (l / sqnorm e.x) ^ 2 * ((e.label : α) * (e.label : α)) * (feat e.x i * feat e.x i) := by ring
          _ = _ := by rw [hy, mul_one]
      rw [Finset.sum_congr rfl this, ← Finset.mul_sum, ← hsq]
      field_simp
    have h4 : l ≤ (e.label : α) * ∑ i ∈ Finset.range D, (v i - cell s.w 0 i) * feat e.x i := by
      have hlin : ∑ i ∈ Finset.range D, (v i - cell s.w 0 i) * feat e.x i = linear v e.x - linear (cell s.w 0) e.x := by
        rw [linear_sum hB.good.1 hD, linear_sum hB.good.1 hD, ← Finset.sum_sub_distrib]
        exact Finset.sum_congr rfl fun i _ => by ring
      rw [hlin, hlv]
      unfold scoreOf
      rw [hv0] at hv
      linarith
    have h5 := Finset.sum_mul_sq_le_sq_mul_sq (Finset.range D) (fun i => v i - cell s.w 0 i) (feat e.x)
    have h6 : l ^ 2 ≤ (∑ i ∈ Finset.range D, (v i - cell s.w 0 i) * feat e.x i) ^ 2 := by
      have h7 := pow_le_pow_left₀ hl.le h4 2
      calc l ^ 2 ≤ ((e.label : α) * ∑ i ∈ Finset.range D, (v i - cell s.w 0 i) * feat e.x i) ^ 2 := h7
        _ = ((e.label : α) * (e.label : α)) * (∑ i ∈ Finset.range D, (v i - cell s.w 0 i) * feat e.x i) ^ 2 := by ring
        _ = _ := by rw [hy, one_mul]
    have h8 : ∑ i ∈ Finset.range D, feat e.x i ^ 2 = sqnorm e.x := by
      rw [hsq]; exact Finset.sum_congr rfl fun i _ => by ring
    rw [h3, div_le_iff₀ hx]
    rw [h8] at h5
    linarith
  · have : ∀ i ∈ Finset.range D, (cell s'.w 0 i - cell s.w 0 i) ^ 2 = 0 := by
      intro i _
      rw [h2 i, if_neg hl]
      ring
    rw [Finset.sum_eq_zero this]
    exact Finset.sum_nonneg fun i _ => sq_nonneg _

/-- C33: PA-I never moves a weight further than `C` times the feature (bias: `C * bias_eta`). -/
theorem C33_pa1_bounded (c : Cfg α) (s s' : St α Unit) (e : Ex α) (r : α) (ev : Event) (hB : Binary c s e) (C : α)
    (hC : 0 ≤ C) (hh : Happens (pa1 C 1) c s e r ev s') (hf : ev.fired = true) (i : Nat) :
    s'.eta ≤ C ∧ |cell s'.w 0 i - cell s.w 0 i| ≤ C * |dir c.biasEta0 e.x i| := by
  obtain ⟨l, h1, -, h3, h2, -⟩ := binary_step hB (safe_pa1 c C 1) (.pa1 C 1) (fun x l => fmin C (l / (1 * norm2 x)))
    (fun _ _ _ _ => rfl) (fun _ _ _ => rfl) hh hf
  have hl : 0 ≤ l := by rw [h1]; exact le_max_left _ _
  have he : 0 ≤ fmin C (l / (1 * norm2 e.x)) ∧ fmin C (l / (1 * norm2 e.x)) ≤ C := by
    unfold fmin
    split
    · rename_i h
      simp only [flt_iff] at h
      refine ⟨div_nonneg hl ?_, h.le⟩
      rw [norm2_eq, one_mul]
      exact sqnorm_nonneg _
    · exact ⟨hC, le_refl _⟩
  refine ⟨by rw [h3]; exact he.2, ?_⟩
  rw [h2 i, add_sub_cancel_left, abs_mul]
  refine mul_le_mul_of_nonneg_right ?_ (abs_nonneg _)
  split
  · rw [abs_mul, abs_of_nonneg he.1]
    have : |(e.label : α)| = 1 := by rcases hB.label with h | h <;> rw [h] <;> simp
    rw [this, mul_one]
    exact he.2
  · rw [abs_zero]; exact hC

/-- C33: PA-I takes the step of PA whenever that step is at most `C`. -/
theorem C33_pa1_is_pa (c : Cfg α) (s s1 s2 : St α Unit) (e : Ex α) (r : α) (ev1 ev2 : Event) (hB : Binary c s e) (C : α)
    (hh1 : Happens (pa1 C 1) c s e r ev1 s1) (hf1 : ev1.fired = true) (hh2 : Happens (pa 1) c s e r ev2 s2)
    (hf2 : ev2.fired = true) (hle : s2.eta ≤ C) (i : Nat) : cell s1.w 0 i = cell s2.w 0 i := by
  obtain ⟨l, h1, -, h3, h2, -⟩ := binary_step hB (safe_pa1 c C 1) (.pa1 C 1) (fun x l => fmin C (l / (1 * norm2 x)))
    (fun _ _ _ _ => rfl) (fun _ _ _ => rfl) hh1 hf1
  obtain ⟨l', h1', -, h3', h2', -⟩ := binary_step hB (safe_pa c 1) (.pa 1) (fun x l => l / (1 * norm2 x))
    (fun _ _ _ _ => rfl) (fun _ _ _ => rfl) hh2 hf2
  obtain rfl : l = l' := by rw [h1, h1']
  rw [h3'] at hle
  have : fmin C (l / (1 * norm2 e.x)) = l / (1 * norm2 e.x) := by
    unfold fmin
    split
    · rfl
    · rename_i h
      simp only [flt_iff, not_lt] at h
      exact le_antisymm h hle
  rw [h2 i, h2' i, this]

/-- C33: PA-II moves every weight strictly less than PA does. -/
theorem C33_pa2_moves_less (c : Cfg α) (s s1 s2 : St α Unit) (e : Ex α) (r : α) (ev1 ev2 : Event) (hB : Binary c s e) (C : α)
    (hC : 0 < C) (hx : 0 < sqnorm e.x) (hh1 : Happens (pa2 C 1) c s e r ev1 s1) (hf1 : ev1.fired = true)
    (hh2 : Happens (pa 1) c s e r ev2 s2) (hf2 : ev2.fired = true)
    (hlazy : c.lazyUpdate = false) (i : Nat) (hi : dir c.biasEta0 e.x i ≠ 0) :
    |cell s1.w 0 i - cell s.w 0 i| < |cell s2.w 0 i - cell s.w 0 i| := by
  obtain ⟨l, h1, h4, -, h2, -⟩ := binary_step hB (safe_pa2 c C 1) (.pa2 C 1) (fun x l => l / (1 * norm2 x + 1 / (1 + 1) / C))
    (fun _ _ _ _ => rfl) (fun _ _ _ => rfl) hh1 hf1
  obtain ⟨l', h1', -, -, h2', -⟩ := binary_step hB (safe_pa c 1) (.pa 1) (fun x l => l / (1 * norm2 x))
    (fun _ _ _ _ => rfl) (fun _ _ _ => rfl) hh2 hf2
  obtain rfl : l = l' := by rw [h1, h1']
  have hl := h4 hlazy
  rw [h2 i, h2' i, if_pos hl, if_pos hl, add_sub_cancel_left, add_sub_cancel_left, abs_mul, abs_mul, abs_mul, abs_mul,
    norm2_eq, one_mul]
  have hlab : |(e.label : α)| = 1 := by rcases hB.label with h | h <;> rw [h] <;> simp
  rw [hlab, mul_one, mul_one]
  refine mul_lt_mul_of_pos_right ?_ (abs_pos.2 hi)
  have hpos : (0 : α) < 1 / (1 + 1) / C := by positivity
  rw [abs_of_pos (by positivity), abs_of_pos (by positivity)]
  exact div_lt_div_of_pos_left hl hx (by linarith)

/-- C33, several classes: PA with the max-score hinge loss reaches the margin against the class that was the strongest
    rival before the update.  Missing: the other classes (false, see `C33_is_violated`). -/
theorem C33_pa_multi_partial (c : Cfg α) (s s' : St α Unit) (e : Ex α) (r : α) (ev : Event) (hkind : c.kind = .maxHinge)
    (hclf : 2 ≤ c.clf) (hbias : 0 ≤ c.biasEta0) (hs : Fit c (none' Unit) s) (hx : Good e.x) (hx1 : ∀ p ∈ e.x, 1 ≤ p.1)
    (y : Nat) (hy : e.label = y) (hyc : y < c.clf) (hpos : 0 < sqnorm e.x)
    (hab : ∀ k < c.clf, FFun.lowest < scoreOf s k e.x) (hlazy : c.lazyUpdate = false)
    (hh : Happens (pa 2) c s e r ev s') (hf : ev.fired = true) :
    ∃ q < c.clf, q ≠ y ∧ (∀ k < c.clf, k ≠ y → scoreOf s k e.x ≤ scoreOf s q e.x) ∧
      costMargin c e.label s.margin ≤ scoreOf s' y e.x - scoreOf s' q e.x ∧
      ∀ k < c.clf, k ≠ y → k ≠ q → scoreOf s' k e.x = scoreOf s k e.x := by
  have hk : Matches c.kind c.clf := by rw [hkind]; exact hclf
  obtain ⟨p, l, g, st, -, hM⟩ := moved (safe_pa c 2) (.pa 2) hk (fun _ x l => l / (2 * norm2 x)) (fun _ _ _ _ => rfl)
    (fun _ _ _ => rfl) e.x hs hx (.inr ⟨by omega, by omega⟩) hh hf
  obtain ⟨g0, vi, m', v', hg0, hgr⟩ := hM.grad
  rw [hkind, hy] at hgr
  have hsc : ∀ k < c.clf, p.getD k 0 = scoreOf s k e.x := hM.score
  obtain ⟨q, hq, hqy, hbest, hl, hg⟩ := maxHinge_grad hclf hM.plen hg0 hyc hM.label
    (fun k hk => by rw [hsc k hk]; exact hab k hk) hgr
  have hl0 : 0 < l := by have := hM.rule; rw [hlazy] at this; simpa using this
  have hg := hg hl0
  have hmove : ∀ k < c.clf, scoreOf s' k e.x = scoreOf s k e.x - l / (2 * sqnorm e.x) * g.getD k 0 * (sqnorm e.x + c.biasEta0) := by
    intro k hk'
    have := score_after hx.1 hx1 c.biasEta0 (l / (2 * sqnorm e.x) * g.getD k 0) (cell s.w k) (cell s'.w k) (fun i => by
      rw [hM.move k hk' i, norm2_eq])
    exact this
  refine ⟨q, hq, hqy, fun k hk' hne => ?_, ?_, fun k hk' h1 h2 => ?_⟩
  · rw [← hsc k hk', ← hsc q hq]; exact hbest k hk' hne
  · rw [hmove y hyc, hmove q hq, hg y, hg q, if_pos rfl, if_neg hqy, if_pos rfl]
    rw [hsc y hyc, hsc q hq] at hl
    have hlv : l = costMargin c (y : Int) s.margin - scoreOf s y e.x + scoreOf s q e.x := by
      rcases max_choice 0 (costMargin c (y : Int) s.margin - scoreOf s y e.x + scoreOf s q e.x) with h | h
      · rw [h] at hl; linarith
      · rw [h] at hl; exact hl
    rw [hy]
    have h3 : l / (2 * sqnorm e.x) * (sqnorm e.x + c.biasEta0) = l / 2 + l / (2 * sqnorm e.x) * c.biasEta0 := by
      field_simp
    have h4 : 0 ≤ l / (2 * sqnorm e.x) * c.biasEta0 := mul_nonneg (div_nonneg hl0.le (by linarith)) hbias
    linarith
  · rw [hmove k hk', hg k, if_neg h1, if_neg h2]
    ring

end

/-- The functions are not called below; only `lowest` is, as a number below all scores. -/
@[instance_reducible] def lowFun : FFun Rat := ⟨fun a => a, fun a => a, -1000, 0⟩

/-- C33 fails for three classes: after the update of PA the example still has loss 1/2. -/
theorem C33_is_violated :
    letI : FFun Rat := lowFun
    letI : FSqrt Rat := ⟨fun a => a⟩
    let c : Cfg Rat := { cfg3 with lazyUpdate := false }
    Yields (iterate (pa (α := Rat) 2) c (model3 ()) ⟨0, [(1, 1)]⟩ 0) fun r =>
      r.1.upd = 1 ∧ Yields (predict c r.1 [(1, 1)]) fun p => p.1 = [1 / 2, -1 / 2, 0] ∧
        Yields (loss .maxHinge 1 0 p.1 p.2) fun l => l = 1 / 2 := by
  decide +kernel

/-- The binary hypotheses are met: an example on the wrong side, with margin exactly 1 after the update. -/
theorem C33_instance :
    letI : FFun Rat := lowFun
    letI : FSqrt Rat := ⟨fun a => a⟩
    Binary (cfg1 : Cfg Rat) (model1 ()) ⟨-1, [(1, 2), (3, 1)]⟩ ∧
    Yields (iterate (pa (α := Rat) 1) cfg1 (model1 ()) ⟨-1, [(1, 2), (3, 1)]⟩ 0) fun r =>
      r.1.upd = 1 ∧ Yields (predict cfg1 r.1 [(1, 2), (3, 1)]) fun p => p.1 = [-1] := by
  refine ⟨⟨rfl, rfl, le_refl _, ⟨by decide, ⟨rfl, by simp [model1]⟩, rfl, trivial⟩, ⟨by simp [Ascending], by simp⟩,
    by simp, .inr rfl⟩, ?_⟩
  decide +kernel

/-- The same example with PA-I (the cap 1/10 is below PA's step 1/5) and PA-II (step 1/(5 + 1/2)). -/
theorem C33_instance_variants :
    letI : FFun Rat := lowFun
    letI : FSqrt Rat := ⟨fun a => a⟩
    (Yields (iterate (pa1 (α := Rat) (1 / 10) 1) cfg1 (model1 ()) ⟨-1, [(1, 2), (3, 1)]⟩ 0) fun r =>
      r.1.eta = 1 / 10 ∧ r.1.w = [[0, -1 / 5, 0, -1 / 10]]) ∧
    Yields (iterate (pa2 (α := Rat) 1 1) cfg1 (model1 ()) ⟨-1, [(1, 2), (3, 1)]⟩ 0) fun r =>
      r.1.eta = 2 / 11 ∧ r.1.w = [[0, -4 / 11, 0, -2 / 11]] := by
  decide +kernel

/-- C34 fails: an example without features makes the step size of PA infinite, and the bias NaN (0 * inf), although the bias
    is not even learnt (`bias_eta` is 0).  All later scores are NaN. -/
theorem C34_is_violated :
    letI : FFun F32 := unusedFun
    letI : FSqrt F32 := ⟨fun a => a⟩
    Yields (iterate (pa (α := F32) 1) cfg1 (model1 ()) ⟨1, []⟩ 0) fun r =>
      r.1.w = [[F32.nan]] ∧ Yields (predict cfg1 r.1 [(1, 1)]) fun p => p.1 = [F32.nan] := by
  decide +kernel

section
open Sol.F32
variable [FFun F32] [FSqrt F32]

/-- C34, the part that holds: if the step size is a finite number, an example without features or with zero features only
    leaves every weight bit by bit as it was (binary32, bias not learnt). -/
theorem C34_finite_step_partial (c : Cfg F32) (s : St F32 Unit) (x : SVec F32) (hs : Fit c (none' Unit) s)
    (hx : Ascending x) (h0 : ∀ p ∈ x, p.2 = 0) (hb : c.biasEta0 = 0) (he : Fl s.eta)
    (hg : ∀ v ∈ s.g, v = 0 ∨ v = 1 ∨ v = -1) (hw : ∀ w ∈ s.w, ∀ v ∈ w, Fl v) : etaStep c s x = .ok s := by
  rw [etaStep_closed hs hx, zipWith_keep _ _ _ (by rw [hs.g, hs.w.1])]
  intro g hgm v hv
  split
  · rfl
  · rename_i hne
    have h1 : g = 1 ∨ g = -1 := by
      rcases hg g hgm with rfl | h
      · exact absurd rfl hne
      · exact h
    refine step_keep hx h0 ?_ ?_ (hw v hv)
    · rcases h1 with rfl | rfl
      · rw [he.mul_one]; exact he
      · rw [he.mul_neg_one]; exact he.neg
    · unfold biasEta
      rw [hb, he.zero_mul]
      rcases h1 with rfl | rfl
      · exact Fl.one.zero_mul
      · exact Fl.one.neg.zero_mul

/-- C34 for PA-I: the cap makes the infinite step size finite again. -/
theorem C34_pa1_partial (C coeff l : F32) (c : Cfg F32) (s : St F32 Unit) (x : SVec F32) (hs : Fit c (none' Unit) s)
    (hx : Ascending x) (h0 : ∀ p ∈ x, p.2 = 0) (hb : c.biasEta0 = 0) (hC : Fl C) (hco : Fl coeff)
    (hl : FCmp.lt l 0 = false) (hg : ∀ v ∈ s.g, v = 0 ∨ v = 1 ∨ v = -1) (hw : ∀ w ∈ s.w, ∀ v ∈ w, Fl v) :
    (pa1 C coeff).update c s x l = .ok { s with eta := C } := by
  have he : fmin C (l / (coeff * norm2 x)) = C := by
    rw [norm2_zero h0, hco.mul_zero]
    unfold fmin
    obtain ⟨q, rfl, -⟩ := hC
    have : (l / 0 <? fin q) = false := by
      rw [zero_def] at hl ⊢
      cases l with
      | fin a =>
        have ha : ¬ a < 0 := by
          intro h
          have : FCmp.lt (fin a) (fin 0) = true := decide_eq_true h
          rw [hl] at this
          exact Bool.noConfusion this
        have hd : (fin a / fin 0 : F32) = infOf (sgn (fin a)) := rfl
        have hs : sgn (fin a) = if 0 < a then 1 else if a < 0 then -1 else 0 := rfl
        rw [hd, hs]
        rcases lt_trichotomy a 0 with h | h | h
        · exact absurd h ha
        · subst h; rfl
        · rw [if_pos h]; rfl
      | pinf => rfl
      | ninf => exact absurd hl (by decide)
      | nan => rfl
    rw [this]
    rfl
  show etaStep c { s with eta := fmin C (l / (coeff * norm2 x)) } x = _
  rw [he]
  exact C34_finite_step_partial c { s with eta := C } x ⟨hs.dim, hs.w, hs.g, trivial⟩ hx h0 hb hC hg hw

/-- C34 for online gradient descent: the step size does not depend on the example. -/
theorem C34_ogd_partial (eta0 l : F32) (pow : Int → F32) (c : Cfg F32) (s : St F32 Unit) (x : SVec F32)
    (hs : Fit c (none' Unit) s) (hx : Ascending x) (h0 : ∀ p ∈ x, p.2 = 0) (hb : c.biasEta0 = 0)
    (he : Fl (eta0 / pow s.t)) (hg : ∀ v ∈ s.g, v = 0 ∨ v = 1 ∨ v = -1) (hw : ∀ w ∈ s.w, ∀ v ∈ w, Fl v) :
    (ogd eta0 pow).update c s x l = .ok { s with eta := eta0 / pow s.t } :=
  C34_finite_step_partial c { s with eta := eta0 / pow s.t } x ⟨hs.dim, hs.w, hs.g, trivial⟩ hx h0 hb he hg hw

end

/-- C34 for PA itself, any number type: the damage is confined to the bias, all other weights are kept. -/
theorem C34_only_bias_partial {α : Type} [Zero α] [One α] [Add α] [Sub α] [Mul α] [Div α] [Neg α] [FCmp α] [IntCast α]
    [FFun α] [FSqrt α] (coeff l : α) (c : Cfg α) (s : St α Unit) (hs : Fit c (none' Unit) s) :
    ∃ s', (pa coeff).update c s [] l = .ok s' ∧ s'.w.length = s.w.length ∧
      ∀ (k i : Nat), 1 ≤ i → (s'.w[k]?.bind fun (w : List α) => w[i]?) = s.w[k]?.bind fun (w : List α) => w[i]? := by
  refine ⟨_, etaStep_closed (inv := none' Unit) (s := { s with eta := l / (coeff * norm2 []) }) ⟨hs.dim, hs.w, hs.g, trivial⟩ List.Pairwise.nil,
    ?_, fun k i hi => ?_⟩
  · simp [hs.g, hs.w.1]
  · simp only [List.getElem?_zipWith]
    cases hw : s.w[k]? with
    | none => cases s.g[k]? <;> rfl
    | some w =>
      have hk : k < s.g.length := by
        rw [hs.g, ← hs.w.1]
        exact (List.getElem?_eq_some_iff.1 hw).1
      rw [List.getElem?_eq_getElem hk]
      simp only [Option.bind_some]
      split
      · rfl
      · rw [List.getElem?_mapIdx, List.getElem?_mapIdx]
        cases w[i]? with
        | none => rfl
        | some a => simp [touch, featureAt, atZero, show i ≠ 0 by omega]

/-- The hypotheses are met: PA-I keeps the weights 1/2 and 3 on an example whose only feature is zero. -/
theorem C34_instance :
    letI : FFun F32 := unusedFun
    letI : FSqrt F32 := ⟨fun a => a⟩
    let s : St F32 Unit := { model1 () with dim := 3, w := [[.fin (1 / 2), .fin 3, .fin 0]], g := [-1] }
    Fit (cfg1 : Cfg F32) (none' Unit) s ∧ Yields ((pa1 (α := F32) 1 1).update cfg1 s [(1, 0)] 1) fun r =>
      r.w = s.w ∧ r.eta = 1 := by
  refine ⟨⟨by decide, ⟨rfl, by simp⟩, rfl, trivial⟩, ?_⟩
  decide +kernel

end Sol.Props
