import Verif.Proofs.Confidence
import Verif.Props.Variance
import Mathlib.Algebra.Order.BigOperators.Ring.Finset
import Mathlib.Tactic.FieldSimp
/-! C98: the updates of AROW, CW and ECCW solve the problems of their theories. -/

set_option linter.unusedSectionVars false

namespace Sol.Props

open Sol.Online Sol.Olm Sol.Sparse Sol.Loss Sol.Spec

section
variable {α : Type} [Field α] [LinearOrder α] [IsStrictOrderedRing α] [FFun α] [FSqrt α]

/-- The least value of `r * q + h^2`, if `t^2 ≤ q * v` and `l ≤ t + h`. -/
theorem arow_least {r q h t v l : α} (hr : 0 < r) (hq : 0 ≤ q) (hh : 0 ≤ h) (hv : 0 ≤ v) (hl : 0 ≤ l) (ht : t ^ 2 ≤ q * v) (hlt : 0 < l → l ≤ t + h) :
    r * l ^ 2 / (v + r) ≤ r * q + h ^ 2 := by
  have hvr : 0 < v + r := by linarith
  rcases hl.eq_or_lt with h0 | h0
  · rw [← h0]
    simp only [ne_eq, OfNat.ofNat_ne_zero, not_false_eq_true, zero_pow, mul_zero, zero_div]
    positivity
  rw [div_le_iff₀ hvr]
  have h1 : l ^ 2 ≤ (t + h) ^ 2 := pow_le_pow_left₀ hl (hlt h0) 2
  have h2 : 2 * (r * t * h) ≤ r ^ 2 * q + v * h ^ 2 := by
    refine le_of_sq_le_sq ?_ (by positivity)
    have : (r * h) ^ 2 * t ^ 2 ≤ (r * h) ^ 2 * (q * v) := mul_le_mul_of_nonneg_left ht (sq_nonneg _)
    nlinarith [sq_nonneg (r ^ 2 * q - v * h ^ 2)]
  have h3 := mul_le_mul_of_nonneg_left h1 hr.le
  have h4 := mul_le_mul_of_nonneg_left ht hr.le
  nlinarith

/-- An update of AROW minimises the squared hinge loss on the example plus `r` times the squared distance from the old weights, measured
    in the variances (the problem of AROW's theory), over all weights, or over those with the same bias if none is learnt.
    The loss falls by the factor `r / (V + r)`, where `V` is the variance of the score. -/
theorem C98_arow_partial {c : Cfg α} {r : α} (hr : 0 < r) {s s' : St α (List (List α))} {e : Ex α} {rr : α} {ev : Event} (hB : TwoClass c s e)
    (hb : c.biasEta0 = 0 ∨ c.biasEta0 = 1) (hσ : ∀ i, 0 < varianceOf 1 s.alg i)
    (hh : Happens (arow r) c s e rr ev s') (hf : ev.fired = true) :
    (spread (!(c.biasEta0 =? 0)) (varianceOf 1 s.alg) e.x + r) *
        max 0 (costMargin c e.label s.margin - (e.label : α) * (linear (cell s'.w 0) e.x + cell s'.w 0 0))
      = r * max 0 (costMargin c e.label s.margin - (e.label : α) * (linear (cell s.w 0) e.x + cell s.w 0 0)) ∧
    ∀ (D : Nat) (z : Nat → α), 1 ≤ D → (∀ p ∈ e.x, p.1 < D) → (c.biasEta0 = 0 → z 0 = cell s.w 0 0) →
      r * ∑ i ∈ Finset.range D, (cell s'.w 0 i - cell s.w 0 i) ^ 2 / varianceOf 1 s.alg i
          + max 0 (costMargin c e.label s.margin - (e.label : α) * (linear (cell s'.w 0) e.x + cell s'.w 0 0)) ^ 2
        ≤ r * ∑ i ∈ Finset.range D, (z i - cell s.w 0 i) ^ 2 / varianceOf 1 s.alg i
          + max 0 (costMargin c e.label s.margin - (e.label : α) * (linear z e.x + z 0)) ^ 2 := by
  obtain ⟨l, hl, hw⟩ := arow_happens hB hh hf
  have hx := hB.good.1
  have hyy := sign_sq (α := α) hB.label
  have hbb : ((!(c.biasEta0 =? 0)) = false ∧ c.biasEta0 = 0) ∨ ((!(c.biasEta0 =? 0)) = true ∧ c.biasEta0 = 1) := by
    rcases hb with h | h
    · exact .inl ⟨by simp [h], h⟩
    · exact .inr ⟨by simp [h], h⟩
  have hw0 : c.biasEta0 = 0 → cell s'.w 0 0 = cell s.w 0 0 := fun h => by
    have h0 : feat e.x 0 = 0 := feat_eq_zero fun p hp => by have := hB.feats p hp; omega
    rw [hw 0]
    simp [dir, h, h0]
  generalize hm : costMargin c e.label s.margin = m at *
  generalize hy : (e.label : α) = y at *
  have hl0 : 0 ≤ l := by rw [hl]; exact le_max_left _ _
  have key : ∀ D, 1 ≤ D → (∀ p ∈ e.x, p.1 < D) → 0 ≤ spread (!(c.biasEta0 =? 0)) (varianceOf 1 s.alg) e.x ∧
      max 0 (m - y * (linear (cell s'.w 0) e.x + cell s'.w 0 0)) = r * l / (spread (!(c.biasEta0 =? 0)) (varianceOf 1 s.alg) e.x + r) ∧
      ∑ i ∈ Finset.range D, (cell s'.w 0 i - cell s.w 0 i) ^ 2 / varianceOf 1 s.alg i
        = spread (!(c.biasEta0 =? 0)) (varianceOf 1 s.alg) e.x * (l / (spread (!(c.biasEta0 =? 0)) (varianceOf 1 s.alg) e.x + r)) ^ 2 := by
    intro D h1 hD
    have hD' : ∀ p ∈ e.x, 1 ≤ p.1 ∧ p.1 < D := fun p hp => ⟨hB.feats p hp, hD p hp⟩
    have hV := spread_sum hx hD' h1 c.biasEta0 _ hbb (varianceOf 1 s.alg)
    have hsc := score_change hx hD' h1 hb (cell s'.w 0) (cell s.w 0) hw0
    generalize spread (!(c.biasEta0 =? 0)) (varianceOf 1 s.alg) e.x = V at *
    have hV0 : 0 ≤ V := by rw [hV]; exact Finset.sum_nonneg fun i _ => mul_nonneg (hσ i).le (sq_nonneg _)
    have hvr : V + r ≠ 0 := by have : 0 < V + r := by linarith
                               exact this.ne'
    have hd : ∀ i, cell s'.w 0 i - cell s.w 0 i = y * (l / (V + r)) * (varianceOf 1 s.alg i * dir c.biasEta0 e.x i) := fun i => by
      rw [hw i]
      split
      · ring
      · have : l = 0 := le_antisymm (not_lt.1 ‹_›) hl0
        rw [this]; ring
    have hS : ∑ i ∈ Finset.range D, (cell s'.w 0 i - cell s.w 0 i) * dir c.biasEta0 e.x i = y * (l / (V + r)) * V := by
      rw [hV, Finset.mul_sum]
      rw [← hV]
      exact Finset.sum_congr rfl fun i _ => by rw [hd i]; ring
    refine ⟨hV0, ?_, ?_⟩
    · rw [hsc, hS]
      have e1 : m - y * (linear (cell s.w 0) e.x + cell s.w 0 0 + y * (l / (V + r)) * V)
          = (m - y * (linear (cell s.w 0) e.x + cell s.w 0 0)) - l / (V + r) * V := by linear_combination (-(l / (V + r)) * V) * hyy
      rw [e1]
      rcases hl0.eq_or_lt with h | h
      · rw [← h] at hl ⊢
        rw [zero_div, zero_mul, sub_zero, ← hl]; simp
      · have h2 : m - y * (linear (cell s.w 0) e.x + cell s.w 0 0) = l := by
          rw [hl]; rw [hl] at h
          exact (max_eq_right (by by_contra hn; rw [max_eq_left (not_le.1 hn).le] at h; exact lt_irrefl _ h)).symm
        rw [h2]
        have e2 : l - l / (V + r) * V = r * l / (V + r) := by field_simp; ring
        rw [e2]
        exact max_eq_right (by positivity)
    · rw [hV, Finset.sum_mul, ← hV]
      refine Finset.sum_congr rfl fun i _ => ?_
      rw [hd i]
      have := (hσ i).ne'
      field_simp
      linear_combination (l ^ 2 * dir c.biasEta0 e.x i ^ 2) * hyy
  obtain ⟨hV0, hH, -⟩ := key (Sparse.dim e.x + 1) (by omega) fun p hp => Nat.lt_succ_of_lt (hB.good.lt_dim p hp)
  have hvr : spread (!(c.biasEta0 =? 0)) (varianceOf 1 s.alg) e.x + r ≠ 0 := by
    have : 0 < spread (!(c.biasEta0 =? 0)) (varianceOf 1 s.alg) e.x + r := by linarith
    exact this.ne'
  refine ⟨by rw [hH, ← hl]; field_simp, fun D z h1 hD hz => ?_⟩
  have hD' : ∀ p ∈ e.x, 1 ≤ p.1 ∧ p.1 < D := fun p hp => ⟨hB.feats p hp, hD p hp⟩
  have hV := spread_sum hx hD' h1 c.biasEta0 _ hbb (varianceOf 1 s.alg)
  have hsc := score_change hx hD' h1 hb z (cell s.w 0) hz
  rw [(key D h1 hD).2.2, hH]
  have hcs : (y * ∑ i ∈ Finset.range D, (z i - cell s.w 0 i) * dir c.biasEta0 e.x i) ^ 2 ≤
      (∑ i ∈ Finset.range D, (z i - cell s.w 0 i) ^ 2 / varianceOf 1 s.alg i) * spread (!(c.biasEta0 =? 0)) (varianceOf 1 s.alg) e.x := by
    rw [hV, mul_pow, pow_two y, hyy, one_mul]
    refine Finset.sum_sq_le_sum_mul_sum_of_sq_eq_mul _ (fun i _ => div_nonneg (sq_nonneg _) (hσ i).le)
      (fun i _ => mul_nonneg (hσ i).le (sq_nonneg _)) fun i _ => ?_
    have := (hσ i).ne'
    field_simp
  refine le_trans (le_of_eq ?_) (arow_least (l := l) hr (Finset.sum_nonneg fun i _ => div_nonneg (sq_nonneg _) (hσ i).le) (le_max_left _ _)
    hV0 hl0 hcs ?_)
  · field_simp
  · intro hpos
    have h2 : m - y * (linear (cell s.w 0) e.x + cell s.w 0 0) = l := by
      rw [hl]; rw [hl] at hpos
      exact (max_eq_right (by by_contra hn; rw [max_eq_left (not_le.1 hn).le] at hpos; exact lt_irrefl _ hpos)).symm
    rw [hsc, ← h2]
    have := le_max_right 0 (m - y * (linear (cell s.w 0) e.x + cell s.w 0 0 + ∑ i ∈ Finset.range D, (z i - cell s.w 0 i) * dir c.biasEta0 e.x i))
    linarith

end

section
variable [FFun ℝ]

/-- The variance after a step, whatever step size `A` and factor `T` are used. -/
theorem confident_step {c : Cfg ℝ} {a : ℝ} {bias : Bool} {s s' : St ℝ (List (List ℝ))} {e : Ex ℝ} {A T : ℝ} (hB : TwoClass c s e)
    (hb : (bias = false ∧ c.biasEta0 = 0) ∨ (bias = true ∧ c.biasEta0 = 1)) (hσ : ∀ i, 0 < varianceOf a s.alg i)
    (hw : ∀ i, cell s'.w 0 i = cell s.w 0 i + (e.label : ℝ) * A * (varianceOf a s.alg i * dir c.biasEta0 e.x i))
    (hs : ∀ i, (i = 0 ∨ ∃ q ∈ e.x, q.1 = i) →
      varianceOf a s'.alg i = varianceOf a s.alg i / (1 + T * varianceOf a s.alg i * dir 1 e.x i ^ 2)) :
    (e.label : ℝ) * (linear (cell s'.w 0) e.x + cell s'.w 0 0)
      = (e.label : ℝ) * (linear (cell s.w 0) e.x + cell s.w 0 0) + A * spread bias (varianceOf a s.alg) e.x ∧
    (0 ≤ T → spread bias (varianceOf a s.alg) e.x / (1 + T * spread bias (varianceOf a s.alg) e.x) ≤ spread bias (varianceOf a s'.alg) e.x) ∧
    (∀ j, (∀ i, i ≠ j → dir c.biasEta0 e.x i = 0) →
      spread bias (varianceOf a s'.alg) e.x = spread bias (varianceOf a s.alg) e.x / (1 + T * spread bias (varianceOf a s.alg) e.x)) ∧
    (0 < T → ∀ i j, i ≠ j → dir c.biasEta0 e.x i ≠ 0 → dir c.biasEta0 e.x j ≠ 0 →
      spread bias (varianceOf a s.alg) e.x / (1 + T * spread bias (varianceOf a s.alg) e.x) < spread bias (varianceOf a s'.alg) e.x) := by
  have hx := hB.good.1
  have hyy := sign_sq (α := ℝ) hB.label
  set D := Sparse.dim e.x + 1 with hDD
  have hD' : ∀ p ∈ e.x, 1 ≤ p.1 ∧ p.1 < D := fun p hp => ⟨hB.feats p hp, Nat.lt_succ_of_lt (hB.good.lt_dim p hp)⟩
  have h1 : 1 ≤ D := by omega
  have h0 : feat e.x 0 = 0 := feat_eq_zero fun p hp => by have := hB.feats p hp; omega
  have hb' : c.biasEta0 = 0 ∨ c.biasEta0 = 1 := by rcases hb with h | h <;> simp [h.2]
  have hw0 : c.biasEta0 = 0 → cell s'.w 0 0 = cell s.w 0 0 := fun h => by rw [hw 0]; simp [dir, h, h0]
  have hsc := score_change hx hD' h1 hb' (cell s'.w 0) (cell s.w 0) hw0
  have hV := spread_sum hx hD' h1 c.biasEta0 _ hb (varianceOf a s.alg)
  have hV' : spread bias (varianceOf a s'.alg) e.x = ∑ i ∈ Finset.range D,
      varianceOf a s.alg i * dir c.biasEta0 e.x i ^ 2 / (1 + T * (varianceOf a s.alg i * dir c.biasEta0 e.x i ^ 2)) := by
    rw [spread_congr (τ := fun i => varianceOf a s.alg i / (1 + T * varianceOf a s.alg i * dir 1 e.x i ^ 2))
      (fun p hp => hs _ (.inr ⟨p, hp, rfl⟩)) (hs 0 (.inl rfl)), spread_sum hx hD' h1 c.biasEta0 _ hb]
    refine Finset.sum_congr rfl fun i _ => ?_
    by_cases hi : i = 0
    · subst hi
      rcases hb' with h | h
      · simp [dir, h, h0]
      · rw [h]; ring
    · have : dir c.biasEta0 e.x i = dir 1 e.x i := by simp [dir, hi]
      rw [this]; ring
  generalize hSS : spread bias (varianceOf a s.alg) e.x = V at *
  have hn : ∀ i, 0 ≤ varianceOf a s.alg i * dir c.biasEta0 e.x i ^ 2 := fun i => mul_nonneg (hσ i).le (sq_nonneg _)
  have hle : ∀ i ∈ Finset.range D, varianceOf a s.alg i * dir c.biasEta0 e.x i ^ 2 ≤ V := fun i hi => by
    rw [hV]
    exact Finset.single_le_sum (f := fun i => varianceOf a s.alg i * dir c.biasEta0 e.x i ^ 2) (fun i _ => hn i) hi
  have hV0 : 0 ≤ V := by rw [hV]; exact Finset.sum_nonneg fun i _ => hn i
  have hterm : 0 ≤ T → ∀ i ∈ Finset.range D, varianceOf a s.alg i * dir c.biasEta0 e.x i ^ 2 / (1 + T * V) ≤
      varianceOf a s.alg i * dir c.biasEta0 e.x i ^ 2 / (1 + T * (varianceOf a s.alg i * dir c.biasEta0 e.x i ^ 2)) := fun hT i hi => by
    refine div_le_div_of_nonneg_left (hn i) ?_ ?_
    · have := mul_nonneg hT (hn i); linarith
    · have := mul_le_mul_of_nonneg_left (hle i hi) hT; linarith
  have hVd : V / (1 + T * V) = ∑ i ∈ Finset.range D, varianceOf a s.alg i * dir c.biasEta0 e.x i ^ 2 / (1 + T * V) := by
    rw [div_eq_mul_inv, hV, Finset.sum_mul, ← hV]
    exact Finset.sum_congr rfl fun i _ => (div_eq_mul_inv _ _).symm
  have inD : ∀ i, dir c.biasEta0 e.x i ≠ 0 → i ∈ Finset.range D := fun i hi => by
    rw [Finset.mem_range]
    by_contra hn'
    refine hi ?_
    have : feat e.x i = 0 := feat_eq_zero fun p hp h => hn' (h ▸ (hD' p hp).2)
    simp [dir, this, show i ≠ 0 by omega]
  refine ⟨?_, fun hT => ?_, fun j hj => ?_, fun hT0 i j hij hi hj => ?_⟩
  · have hS : ∑ i ∈ Finset.range D, (cell s'.w 0 i - cell s.w 0 i) * dir c.biasEta0 e.x i = (e.label : ℝ) * A * V := by
      rw [hV, Finset.mul_sum]
      exact Finset.sum_congr rfl fun i _ => by rw [hw i]; ring
    rw [hsc, hS]
    linear_combination (A * V) * hyy
  · rw [hV', hVd]
    exact Finset.sum_le_sum (hterm hT)
  · rw [hV', hVd]
    refine Finset.sum_congr rfl fun i hi => ?_
    by_cases hij : i = j
    · subst hij
      have : V = varianceOf a s.alg i * dir c.biasEta0 e.x i ^ 2 := by
        rw [hV]
        exact Finset.sum_eq_single i (fun k _ hk => by rw [hj k hk]; ring) fun h => absurd hi h
      rw [← this]
    · rw [hj i hij]; simp
  · rw [hV', hVd]
    refine Finset.sum_lt_sum (hterm hT0.le) ⟨i, inD i hi, ?_⟩
    have pi : 0 < varianceOf a s.alg i * dir c.biasEta0 e.x i ^ 2 := mul_pos (hσ i) (by positivity)
    have pj : 0 < varianceOf a s.alg j * dir c.biasEta0 e.x j ^ 2 := mul_pos (hσ j) (by positivity)
    have hlt : varianceOf a s.alg i * dir c.biasEta0 e.x i ^ 2 < V := by
      have h2 := Finset.add_le_sum (f := fun i => varianceOf a s.alg i * dir c.biasEta0 e.x i ^ 2) (s := Finset.range D) (fun i _ => hn i)
        (inD i hi) (inD j hj) hij
      rw [← hV] at h2
      linarith
    refine div_lt_div_of_pos_left pi ?_ ?_
    · have := mul_pos hT0 pi; linarith
    · have := mul_lt_mul_of_pos_left hlt hT0; linarith

/-- The step size of CW is a root of its quadratic equation. -/
theorem cwAlpha_root {phi V l : ℝ} (hp : 0 < phi) (hV : 0 < V) (hl : 0 ≤ l) :
    (phi * V - l + cwAlpha phi V l * V) * (1 + 2 * cwAlpha phi V l * phi * V) = phi * V := by
  set m := phi * V - l with hm
  have hpos : 0 ≤ (1 + 2 * phi * m) * (1 + 2 * phi * m) - 8 * phi * (m - phi * V) := by
    have : 0 ≤ phi * l := by positivity
    nlinarith [mul_self_nonneg (1 + 2 * phi * m)]
  have hsq := Real.mul_self_sqrt hpos
  have ha : cwAlpha phi V l = (-(1 + 2 * phi * m) + Real.sqrt ((1 + 2 * phi * m) * (1 + 2 * phi * m) - 8 * phi * (m - phi * V))) / (4 * phi * V) := by
    unfold cwAlpha
    simp only [num_real, ← hm]
    push_cast
    rfl
  have hq : Real.sqrt ((1 + 2 * phi * m) * (1 + 2 * phi * m) - 8 * phi * (m - phi * V)) = 4 * phi * V * cwAlpha phi V l + (1 + 2 * phi * m) := by
    rw [ha]; field_simp; ring
  rw [hq] at hsq
  have h8 : (8 * phi) * ((m + cwAlpha phi V l * V) * (1 + 2 * cwAlpha phi V l * phi * V)) = (8 * phi) * (phi * V) := by linear_combination hsq
  exact mul_left_cancel₀ (by positivity) h8

theorem cw_leaves {c : Cfg ℝ} {a phi : ℝ} (hp : 0 < phi) {bias : Bool} {s s' : St ℝ (List (List ℝ))} {e : Ex ℝ} {rr : ℝ} {ev : Event}
    (hB : TwoClass c s e) (hb : (bias = false ∧ c.biasEta0 = 0) ∨ (bias = true ∧ c.biasEta0 = 1)) (hσ : ∀ i, 0 < varianceOf a s.alg i)
    (hV : 0 < spread bias (varianceOf a s.alg) e.x)
    (hm : (e.label : ℝ) * (linear (cell s.w 0) e.x + cell s.w 0 0) < phi * spread bias (varianceOf a s.alg) e.x)
    (hh : Happens (cw a phi bias) c s e rr ev s') (hf : ev.fired = true) :
    (e.label : ℝ) * (linear (cell s.w 0) e.x + cell s.w 0 0) < (e.label : ℝ) * (linear (cell s'.w 0) e.x + cell s'.w 0 0) ∧
    0 < (e.label : ℝ) * (linear (cell s'.w 0) e.x + cell s'.w 0 0) ∧
    (e.label : ℝ) * (linear (cell s'.w 0) e.x + cell s'.w 0 0) ≤ phi * spread bias (varianceOf a s'.alg) e.x ∧
    (∀ j, (∀ i, i ≠ j → feat e.x i + (if i = 0 then c.biasEta0 else 0) = 0) →
      (e.label : ℝ) * (linear (cell s'.w 0) e.x + cell s'.w 0 0) = phi * spread bias (varianceOf a s'.alg) e.x) ∧
    ∀ i j, i ≠ j → feat e.x i + (if i = 0 then c.biasEta0 else 0) ≠ 0 → feat e.x j + (if j = 0 then c.biasEta0 else 0) ≠ 0 →
      (e.label : ℝ) * (linear (cell s'.w 0) e.x + cell s'.w 0 0) < phi * spread bias (varianceOf a s'.alg) e.x := by
  obtain ⟨l, V, hVV, hl, -, -, -, -, hnew⟩ := cw_happens (A := cwAlpha phi) (T := fun v l => num 2 * cwAlpha phi v l * phi) (a := a) rfl
    (fun _ _ _ => rfl) (.cw a phi bias) (fun _ _ _ _ => rfl) hB hh hf
  rw [← hVV] at hV hm
  have hl' : l = phi * V - (e.label : ℝ) * (linear (cell s.w 0) e.x + cell s.w 0 0) := by rw [hl]; exact max_eq_right (by linarith)
  have hl0 : 0 < l := by rw [hl']; linarith
  obtain ⟨hw, hs⟩ := hnew hl0
  have hroot := cwAlpha_root hp hV hl0.le
  have hA0 := cwAlpha_nonneg hp hV.le hl0.le
  simp only [num_real] at hs
  push_cast at hs
  generalize cwAlpha phi V l = A at *
  have hA : 0 < A := hA0.lt_of_ne fun h => by rw [← h] at hroot; simp at hroot; linarith
  have hT : 0 < 2 * A * phi := by positivity
  obtain ⟨k1, k2, k3, k4⟩ := confident_step (A := A) (T := 2 * A * phi) hB hb hσ hw hs
  rw [← hVV] at k1 k2 k3 k4
  have hden : 0 < 1 + 2 * A * phi * V := by positivity
  have hval : (e.label : ℝ) * (linear (cell s'.w 0) e.x + cell s'.w 0 0) = phi * (V / (1 + 2 * A * phi * V)) := by
    rw [k1, mul_div_assoc', eq_div_iff hden.ne', ← hroot, hl']
    ring
  refine ⟨?_, ?_, ?_, fun j hj => ?_, fun i j hij hi hj => ?_⟩
  · rw [k1]; have := mul_pos hA hV; linarith
  · rw [hval]; positivity
  · rw [hval]; exact mul_le_mul_of_nonneg_left (k2 hT.le) hp.le
  · rw [hval, k3 j hj]
  · rw [hval]; exact mul_lt_mul_of_pos_left (k4 hT i j hij hi hj) hp

/-- What an update of CW leaves: the margin has grown, the example is predicted correctly, with at most the confidence asked for (`phi` times
    the variance of the score), and with exactly this confidence if only one coordinate of the example differs from 0. -/
theorem C98_cw_partial {c : Cfg ℝ} {a phi : ℝ} (hp : 0 < phi) {bias : Bool} {s s' : St ℝ (List (List ℝ))} {e : Ex ℝ} {rr : ℝ} {ev : Event}
    (hB : TwoClass c s e) (hb : (bias = false ∧ c.biasEta0 = 0) ∨ (bias = true ∧ c.biasEta0 = 1)) (hσ : ∀ i, 0 < varianceOf a s.alg i)
    (hV : 0 < spread bias (varianceOf a s.alg) e.x)
    (hm : (e.label : ℝ) * (linear (cell s.w 0) e.x + cell s.w 0 0) < phi * spread bias (varianceOf a s.alg) e.x)
    (hh : Happens (cw a phi bias) c s e rr ev s') (hf : ev.fired = true) :
    (e.label : ℝ) * (linear (cell s.w 0) e.x + cell s.w 0 0) < (e.label : ℝ) * (linear (cell s'.w 0) e.x + cell s'.w 0 0) ∧
    0 < (e.label : ℝ) * (linear (cell s'.w 0) e.x + cell s'.w 0 0) ∧
    (e.label : ℝ) * (linear (cell s'.w 0) e.x + cell s'.w 0 0) ≤ phi * spread bias (varianceOf a s'.alg) e.x ∧
    ∀ j, (∀ i, i ≠ j → feat e.x i + (if i = 0 then c.biasEta0 else 0) = 0) →
      (e.label : ℝ) * (linear (cell s'.w 0) e.x + cell s'.w 0 0) = phi * spread bias (varianceOf a s'.alg) e.x :=
  have h := cw_leaves hp hB hb hσ hV hm hh hf
  ⟨h.1, h.2.1, h.2.2.1, h.2.2.2.1⟩

/-- C98 fails for CW: when two coordinates of an example differ from 0, no update reaches the confidence asked for, because only the diagonal
    of the variances is kept. -/
theorem C98_cw_is_violated {c : Cfg ℝ} {a phi : ℝ} (hp : 0 < phi) {bias : Bool} {s s' : St ℝ (List (List ℝ))} {e : Ex ℝ} {rr : ℝ} {ev : Event}
    (hB : TwoClass c s e) (hb : (bias = false ∧ c.biasEta0 = 0) ∨ (bias = true ∧ c.biasEta0 = 1)) (hσ : ∀ i, 0 < varianceOf a s.alg i)
    (hV : 0 < spread bias (varianceOf a s.alg) e.x)
    (hm : (e.label : ℝ) * (linear (cell s.w 0) e.x + cell s.w 0 0) < phi * spread bias (varianceOf a s.alg) e.x)
    (hh : Happens (cw a phi bias) c s e rr ev s') (hf : ev.fired = true) :
    ∀ i j, i ≠ j → feat e.x i + (if i = 0 then c.biasEta0 else 0) ≠ 0 → feat e.x j + (if j = 0 then c.biasEta0 else 0) ≠ 0 →
      (e.label : ℝ) * (linear (cell s'.w 0) e.x + cell s'.w 0 0) < phi * spread bias (varianceOf a s'.alg) e.x :=
  (cw_leaves hp hB hb hσ hV hm hh hf).2.2.2.2

/-- The step size of ECCW: the new margin is `phi * u`, where `u` is the code's `sqrtf(ui)`. -/
theorem eccwAlpha_root {phi V l : ℝ} (hp : 0 < phi) (hV : 0 < V) :
    0 < eccwSqrtU phi V (eccwAlpha phi V l) ∧
    phi * V - l + eccwAlpha phi V l * V = phi * eccwSqrtU phi V (eccwAlpha phi V l) ∧
    eccwSqrtU phi V (eccwAlpha phi V l) ^ 2 + eccwAlpha phi V l * phi * V * eccwSqrtU phi V (eccwAlpha phi V l) = V := by
  set m := phi * V - l with hm
  set R := Real.sqrt (m * phi * phi * (m * phi * phi) * (1 / 4) + V * phi * phi * (1 + phi * phi)) with hR
  have hpos : 0 < V * phi * phi * (1 + phi * phi) := by positivity
  have hR2 : R * R = m * phi * phi * (m * phi * phi) * (1 / 4) + V * phi * phi * (1 + phi * phi) :=
    Real.mul_self_sqrt (by nlinarith [mul_self_nonneg (m * phi * phi)])
  have hRm : |m * phi * phi / 2| < R := by
    rw [hR]
    refine Real.lt_sqrt_of_sq_lt ?_
    rw [sq_abs]
    nlinarith
  have ha : eccwAlpha phi V l = (-m * (1 + phi * phi / 2) + R) / (V * (1 + phi * phi)) := by
    unfold eccwAlpha
    simp only [num_real, ← hm]
    push_cast
    rfl
  generalize eccwAlpha phi V l = A at *
  have hxi : 0 < 1 + phi * phi := by positivity
  have hA : A * (V * (1 + phi * phi)) = -m * (1 + phi * phi / 2) + R := by rw [ha]; field_simp
  have hp' : (m + A * V) * (1 + phi * phi) = m * phi * phi / 2 + R := by linear_combination hA
  have hP : 0 < m + A * V := by
    have h1 := (abs_lt.1 hRm).1
    refine pos_of_mul_pos_left (b := 1 + phi * phi) ?_ hxi.le
    rw [hp']; linarith
  have hquad : (m + A * V) ^ 2 + phi ^ 2 * A * V * (m + A * V) = phi ^ 2 * V := by
    have h2 : R = A * (V * (1 + phi * phi)) + m * (1 + phi * phi / 2) := by linarith
    rw [h2] at hR2
    have h3 : (1 + phi * phi) * ((m + A * V) ^ 2 + phi ^ 2 * A * V * (m + A * V)) = (1 + phi * phi) * (phi ^ 2 * V) := by linear_combination hR2
    exact mul_left_cancel₀ hxi.ne' h3
  have hs : Real.sqrt (A * A * V * V * phi * phi + 4 * V) = 2 * ((m + A * V) / phi) + A * V * phi := by
    have e1 : A * A * V * V * phi * phi + 4 * V = (2 * ((m + A * V) / phi) + A * V * phi) ^ 2 := by
      have e2 : V = ((m + A * V) / phi) ^ 2 + A * V * (m + A * V) := by
        field_simp
        linear_combination -hquad
      have e3 : (2 * ((m + A * V) / phi) + A * V * phi) ^ 2 = 4 * (((m + A * V) / phi) ^ 2 + A * V * (m + A * V)) + A * A * V * V * phi * phi := by
        field_simp
        ring
      rw [e3, ← e2]; ring
    rw [e1]
    refine Real.sqrt_sq ?_
    by_cases hA0 : 0 ≤ A
    · positivity
    · have e4 : phi * (2 * ((m + A * V) / phi) + A * V * phi) = 2 * (m + A * V) + phi ^ 2 * A * V := by field_simp
      have e5 : 0 ≤ (m + A * V) * (2 * (m + A * V) + phi ^ 2 * A * V) := by
        have : (m + A * V) * (2 * (m + A * V) + phi ^ 2 * A * V) = (m + A * V) ^ 2 + phi ^ 2 * V := by linear_combination hquad
        rw [this]; positivity
      have e6 := nonneg_of_mul_nonneg_right e5 hP
      rw [← e4] at e6
      exact nonneg_of_mul_nonneg_right e6 hp
  have hu : eccwSqrtU phi V A = (m + A * V) / phi := by
    unfold eccwSqrtU
    simp only [num_real]
    push_cast
    show Real.sqrt (1 / 2 * (-A * V * phi + Real.sqrt (A * A * V * V * phi * phi + 4 * V)) *
      (1 / 2 * (-A * V * phi + Real.sqrt (A * A * V * V * phi * phi + 4 * V)))) = _
    rw [hs, Real.sqrt_mul_self_eq_abs]
    have : 1 / 2 * (-A * V * phi + (2 * ((m + A * V) / phi) + A * V * phi)) = (m + A * V) / phi := by ring
    rw [this, abs_of_nonneg (by positivity)]
  rw [hu]
  refine ⟨by positivity, by field_simp, ?_⟩
  field_simp
  linear_combination hquad

theorem eccw_leaves {c : Cfg ℝ} {a phi : ℝ} (hp : 0 < phi) {bias : Bool} {s s' : St ℝ (List (List ℝ))} {e : Ex ℝ} {rr : ℝ} {ev : Event}
    (hB : TwoClass c s e) (hb : (bias = false ∧ c.biasEta0 = 0) ∨ (bias = true ∧ c.biasEta0 = 1)) (hσ : ∀ i, 0 < varianceOf a s.alg i)
    (hV : 0 < spread bias (varianceOf a s.alg) e.x)
    (hm : (e.label : ℝ) * (linear (cell s.w 0) e.x + cell s.w 0 0) < phi * spread bias (varianceOf a s.alg) e.x)
    (hh : Happens (eccw a phi bias) c s e rr ev s') (hf : ev.fired = true) :
    ∃ A u, 0 < u ∧ (e.label : ℝ) * (linear (cell s'.w 0) e.x + cell s'.w 0 0) = phi * u ∧
      u ^ 2 + A * phi * spread bias (varianceOf a s.alg) e.x * u = spread bias (varianceOf a s.alg) e.x ∧
      (e.label : ℝ) * (linear (cell s'.w 0) e.x + cell s'.w 0 0) = (e.label : ℝ) * (linear (cell s.w 0) e.x + cell s.w 0 0) + A * spread bias (varianceOf a s.alg) e.x ∧
      (0 ≤ A → spread bias (varianceOf a s.alg) e.x / (1 + A * phi * u * spread bias (varianceOf a s.alg) e.x)
        ≤ spread bias (varianceOf a s'.alg) e.x) := by
  obtain ⟨l, V, hVV, hl, -, -, -, -, hnew⟩ := cw_happens (A := eccwAlpha phi)
    (T := fun v l => eccwAlpha phi v l * phi * eccwSqrtU phi v (eccwAlpha phi v l)) (a := a) rfl
    (fun _ _ _ => rfl) (.eccw a phi bias) (fun _ _ _ _ => rfl) hB hh hf
  rw [← hVV] at hV hm
  have hl' : l = phi * V - (e.label : ℝ) * (linear (cell s.w 0) e.x + cell s.w 0 0) := by rw [hl]; exact max_eq_right (by linarith)
  have hl0 : 0 < l := by rw [hl']; linarith
  obtain ⟨hw, hs⟩ := hnew hl0
  obtain ⟨u0, u1, u2⟩ := eccwAlpha_root (l := l) hp hV
  obtain ⟨k1, k2, -, -⟩ := confident_step (A := eccwAlpha phi V l) (T := eccwAlpha phi V l * phi * eccwSqrtU phi V (eccwAlpha phi V l)) hB hb hσ hw hs
  rw [← hVV] at k1 k2 ⊢
  refine ⟨eccwAlpha phi V l, _, u0, ?_, u2, k1, fun hA => k2 (by positivity)⟩
  rw [← u1, k1, hl']
  ring

/-- What an update of ECCW leaves: the example is predicted correctly.  If its confidence was less than asked for (`phi` times the standard
    deviation of the score), its margin has not shrunk. -/
theorem C98_eccw_partial {c : Cfg ℝ} {a phi : ℝ} (hp : 0 < phi) {bias : Bool} {s s' : St ℝ (List (List ℝ))} {e : Ex ℝ} {rr : ℝ} {ev : Event}
    (hB : TwoClass c s e) (hb : (bias = false ∧ c.biasEta0 = 0) ∨ (bias = true ∧ c.biasEta0 = 1)) (hσ : ∀ i, 0 < varianceOf a s.alg i)
    (hV : 0 < spread bias (varianceOf a s.alg) e.x)
    (hm : (e.label : ℝ) * (linear (cell s.w 0) e.x + cell s.w 0 0) < phi * spread bias (varianceOf a s.alg) e.x)
    (hh : Happens (eccw a phi bias) c s e rr ev s') (hf : ev.fired = true) :
    0 < (e.label : ℝ) * (linear (cell s'.w 0) e.x + cell s'.w 0 0) ∧
    ((e.label : ℝ) * (linear (cell s.w 0) e.x + cell s.w 0 0) ≤ phi * Real.sqrt (spread bias (varianceOf a s.alg) e.x) →
      (e.label : ℝ) * (linear (cell s.w 0) e.x + cell s.w 0 0) ≤ (e.label : ℝ) * (linear (cell s'.w 0) e.x + cell s'.w 0 0)) := by
  obtain ⟨A, u, u0, u1, u2, k1, -⟩ := eccw_leaves hp hB hb hσ hV hm hh hf
  refine ⟨by rw [u1]; positivity, fun h => ?_⟩
  generalize spread bias (varianceOf a s.alg) e.x = V at *
  by_contra hn
  have hA : A < 0 := by
    by_contra hA
    have := mul_nonneg (not_lt.1 hA) hV.le
    linarith
  have h2 : V < u ^ 2 := by
    have : A * phi * V * u < 0 := by
      have : 0 < phi * V * u := by positivity
      nlinarith
    linarith
  have h3 : Real.sqrt V < u := (Real.sqrt_lt' u0).2 h2
  have := mul_lt_mul_of_pos_left h3 hp
  linarith

/-- C98 fails for ECCW: when the variance of the score is at most 1, as it is for a new model with the default parameters and an example of norm
    at most 1, no update reaches the confidence asked for (`phi` times the standard deviation of the score).  The code multiplies by the square
    root of the new variance where the theory divides by it (eccw.cc:99). -/
theorem C98_eccw_is_violated {c : Cfg ℝ} {a phi : ℝ} (hp : 0 < phi) {bias : Bool} {s s' : St ℝ (List (List ℝ))} {e : Ex ℝ} {rr : ℝ} {ev : Event}
    (hB : TwoClass c s e) (hb : (bias = false ∧ c.biasEta0 = 0) ∨ (bias = true ∧ c.biasEta0 = 1)) (hσ : ∀ i, 0 < varianceOf a s.alg i)
    (hV : 0 < spread bias (varianceOf a s.alg) e.x)
    (hV1 : spread bias (varianceOf a s.alg) e.x ≤ 1)
    (hm : (e.label : ℝ) * (linear (cell s.w 0) e.x + cell s.w 0 0) < phi * spread bias (varianceOf a s.alg) e.x)
    (hh : Happens (eccw a phi bias) c s e rr ev s') (hf : ev.fired = true) :
    (e.label : ℝ) * (linear (cell s'.w 0) e.x + cell s'.w 0 0) < phi * Real.sqrt (spread bias (varianceOf a s'.alg) e.x) := by
  obtain ⟨A, u, u0, u1, u2, k1, k2⟩ := eccw_leaves hp hB hb hσ hV hm hh hf
  generalize spread bias (varianceOf a s.alg) e.x = V at *
  have hA : 0 < A := by
    by_contra hA
    have h1 : V ≤ u ^ 2 := by
      have : A * phi * V * u ≤ 0 := by
        have : 0 < phi * V * u := by positivity
        nlinarith
      linarith
    have h2 : V ≤ u := by
      by_contra hn
      nlinarith
    have h4 := mul_le_mul_of_nonneg_left h2 hp.le
    have h5 : A * V ≤ 0 := mul_nonpos_of_nonpos_of_nonneg (not_lt.1 hA) hV.le
    linarith
  rw [u1]
  refine mul_lt_mul_of_pos_left (Real.lt_sqrt_of_sq_lt (lt_of_lt_of_le ?_ (k2 hA.le))) hp
  have hpos : 0 < A * phi * V * u := by positivity
  have hu1 : u ^ 2 < 1 := by linarith
  rw [lt_div_iff₀ (by positivity)]
  nlinarith

/-- C98 fails for ECCW in a second way: the margin asked for is `phi` times the variance where it should be `phi` times the standard deviation
    (eccw.cc:81), so that when the confidence was already higher than asked for, an update lowers the margin. -/
theorem C98_eccw_away_is_violated {c : Cfg ℝ} {a phi : ℝ} (hp : 0 < phi) {bias : Bool} {s s' : St ℝ (List (List ℝ))} {e : Ex ℝ} {rr : ℝ} {ev : Event}
    (hB : TwoClass c s e) (hb : (bias = false ∧ c.biasEta0 = 0) ∨ (bias = true ∧ c.biasEta0 = 1)) (hσ : ∀ i, 0 < varianceOf a s.alg i)
    (hV : 0 < spread bias (varianceOf a s.alg) e.x)
    (hs : phi * Real.sqrt (spread bias (varianceOf a s.alg) e.x) < (e.label : ℝ) * (linear (cell s.w 0) e.x + cell s.w 0 0))
    (hm : (e.label : ℝ) * (linear (cell s.w 0) e.x + cell s.w 0 0) < phi * spread bias (varianceOf a s.alg) e.x)
    (hh : Happens (eccw a phi bias) c s e rr ev s') (hf : ev.fired = true) :
    (e.label : ℝ) * (linear (cell s'.w 0) e.x + cell s'.w 0 0) < (e.label : ℝ) * (linear (cell s.w 0) e.x + cell s.w 0 0) := by
  obtain ⟨A, u, u0, u1, u2, k1, -⟩ := eccw_leaves hp hB hb hσ hV hm hh hf
  generalize spread bias (varianceOf a s.alg) e.x = V at *
  by_contra hn
  have hA : 0 ≤ A := by
    by_contra hA
    have := mul_neg_of_neg_of_pos (not_le.1 hA) hV
    linarith
  have h2 : u ^ 2 ≤ V := by
    have : 0 ≤ A * phi * V * u := by positivity
    linarith
  have h3 : u ≤ Real.sqrt V := Real.le_sqrt_of_sq_le h2
  have := mul_le_mul_of_nonneg_left h3 hp.le
  linarith

/-! ### Instances -/

/-- Without active learning and lazy updates, CW and ECCW learn from every example whose margin is less than asked for. -/
theorem cw_fires {c : Cfg ℝ} {a phi : ℝ} {bias : Bool} {G : Alg ℝ (List (List ℝ))} (hG : Known c G (vecs c.clf)) (hgrow : G.grow = growSig a)
    (hhand : ∀ c s x, G.handler c s x = some (cwHandler phi bias s.alg x)) (hbeg : ∀ s x, G.beginIter s x = .ok s)
    (hprep : ∀ c s x, G.prep c s x = .ok s) {s : St ℝ (List (List ℝ))} {e : Ex ℝ} (rr : ℝ) (hB : TwoClass c s e)
    (hlazy : c.lazyUpdate = false) (hact : c.smooth = 0)
    (hm : (e.label : ℝ) * (linear (cell s.w 0) e.x + cell s.w 0 0) < phi * spread bias (varianceOf a s.alg) e.x) :
    ∃ ev s', Happens G c s e rr ev s' ∧ ev.fired = true := by
  have hx := hB.good.1
  obtain ⟨ev, s', hh, -, -⟩ := happens (known_safe hG) (by rw [hB.kind, hB.clf]; rfl) s hB.fit e rr hB.good
    (by rw [hB.clf]; rcases hB.label with h | h <;> simp [LabelOk, h])
  refine ⟨ev, s', hh, ?_⟩
  obtain ⟨s0, s1, p, h1, h2, h3, h4, h5, -⟩ := hh
  rw [hbeg] at h1
  obtain rfl := Res.ok.inj h1
  rw [hprep] at h2
  obtain rfl := Res.ok.inj h2
  obtain ⟨w, sig, ew, esig, eg, lw, lsig, ld, hd, cw, cs⟩ := sig_enter (G := G) (a := a) hgrow hB.clf hB.fit e.x
  have hfit : Fit c (vecs c.clf) (enter G s e.x) := fit_enter e.x hB.fit fun d n v h hv => by
    rw [hgrow]; exact (Vecs.grow (m := n) hv a (Nat.le_of_lt h) : _)
  obtain ⟨hp, hlab⟩ := predict_eq hfit hx h3
  rw [ew] at hp
  obtain ⟨g0, hg0⟩ := List.length_eq_one_iff.1 eg
  have hp' : p = [linear (cell s.w 0) e.x + cell s.w 0 0] := by
    rw [hp]
    simp only [List.map_cons, List.map_nil]
    rw [funext cw]
  have hspread : spread bias (coord sig) e.x = spread bias (varianceOf a s.alg) e.x :=
    spread_congr (fun q hq => cs _ (lt_of_lt_of_le (hB.good.lt_dim q hq) hd)) (cs _ ld)
  refine h5.2 ⟨by rw [skipped, hact, if_neg (by simp)] at h4; exact (Res.ok.inj h4).symm, ?_⟩
  rw [hB.kind, hhand, hg0, hp', esig]
  simp only [gradient, cwHandler, lget_ok (w := [linear (cell s.w 0) e.x + cell s.w 0 0]) (i := 0) (by simp), Res.bind_ok,
    lset_ok (w := [g0]) (i := 0) _ (by simp : 0 < [g0].length), List.set_cons_zero, conf_one hx (one_mul (1 : ℝ)) (show 1 ≤ sig.length by omega),
    hspread, List.getElem_cons_zero, hlazy]
  refine ⟨_, _, _, _, rfl, ?_⟩
  simp only [Bool.false_eq_true, if_false, flt_iff]
  unfold Loss.fmax
  rw [if_pos (by rw [flt_iff, mul_comm]; linarith)]
  rw [mul_comm]
  linarith

theorem arow_fires {c : Cfg ℝ} {r : ℝ} {s : St ℝ (List (List ℝ))} {e : Ex ℝ} (rr : ℝ) (hB : TwoClass c s e)
    (hlazy : c.lazyUpdate = false) (hact : c.smooth = 0)
    (hm : (e.label : ℝ) * (linear (cell s.w 0) e.x + cell s.w 0 0) < costMargin c e.label s.margin) :
    ∃ ev s', Happens (arow r) c s e rr ev s' ∧ ev.fired = true := by
  have hx := hB.good.1
  obtain ⟨ev, s', hh, -, -⟩ := happens (known_safe (.arow r)) (by rw [hB.kind, hB.clf]; rfl) s hB.fit e rr hB.good
    (by rw [hB.clf]; rcases hB.label with h | h <;> simp [LabelOk, h])
  refine ⟨ev, s', hh, ?_⟩
  obtain ⟨s0, s1, p, h1, h2, h3, h4, h5, -⟩ := hh
  obtain rfl := Res.ok.inj h1
  obtain rfl := Res.ok.inj h2
  obtain ⟨w, sig, ew, esig, eg, lw, lsig, ld, hd, cw, cs⟩ := sig_enter (G := arow r) (a := 1) rfl hB.clf hB.fit e.x
  have hfit : Fit c (vecs c.clf) (enter (arow r) s e.x) := fit_enter e.x hB.fit fun d n v h hv => (Vecs.grow (m := n) hv 1 (Nat.le_of_lt h) : _)
  obtain ⟨hp, hlab⟩ := predict_eq hfit hx h3
  rw [ew] at hp
  obtain ⟨g0, hg0⟩ := List.length_eq_one_iff.1 eg
  have hmar : (enter (arow r) s e.x).margin = s.margin := by simp only [enter, updateDim]; split <;> rfl
  have hp' : p = [linear (cell s.w 0) e.x + cell s.w 0 0] := by
    rw [hp]
    simp only [List.map_cons, List.map_nil]
    rw [funext cw]
  refine h5.2 ⟨by rw [skipped, hact, if_neg (by simp)] at h4; exact (Res.ok.inj h4).symm, ?_⟩
  rw [hB.kind, hg0, hp', hmar]
  simp only [gradient, arow, lget_ok (w := [linear (cell s.w 0) e.x + cell s.w 0 0]) (i := 0) (by simp), Res.bind_ok,
    lset_ok (w := [g0]) (i := 0) _ (by simp : 0 < [g0].length), List.set_cons_zero, List.getElem_cons_zero, hlazy]
  refine ⟨_, _, _, _, rfl, ?_⟩
  simp only [Bool.false_eq_true, if_false, flt_iff]
  unfold Loss.fmax
  rw [if_pos (by rw [flt_iff, mul_comm]; linarith)]
  rw [mul_comm]
  linarith

/-- A model that has seen one feature. -/
def oneSeen (b w v : ℝ) : St ℝ (List (List ℝ)) := ⟨2, [[b, w]], [0], 1, 1, 0, 1, 1, 1, 0, false, [[v, v]]⟩

theorem oneSeen_two {b w v : ℝ} {e : Ex ℝ} (hx : Good e.x) (h1 : ∀ p ∈ e.x, 1 ≤ p.1) (hl : e.label = 1 ∨ e.label = -1) (β : ℝ) :
    TwoClass { cfg1 with biasEta0 := β } (oneSeen b w v) e :=
  ⟨rfl, rfl, ⟨by simp [oneSeen], ⟨rfl, by simp [oneSeen]⟩, rfl, ⟨rfl, by simp [oneSeen]⟩⟩, hx, h1, hl⟩

theorem oneSeen_variance {a b w v : ℝ} (ha : 0 < a) (hv : 0 < v) (i : Nat) : 0 < varianceOf a (oneSeen b w v).alg i := by
  rcases i with _ | _ | i <;> simp [varianceOf, oneSeen, hv, ha]

/-- The hypotheses of the theorem on AROW are met, with a bias and a feature that was not seen before. -/
theorem C98_instance_arow :
    let c : Cfg ℝ := { cfg1 with biasEta0 := 1 }
    let e : Ex ℝ := ⟨-1, [(1, 2), (3, 1)]⟩
    TwoClass c (oneSeen 0 1 (1 / 2)) e ∧ (∀ i, 0 < varianceOf 1 (oneSeen 0 1 (1 / 2)).alg i) ∧
      spread (!(c.biasEta0 =? 0)) (varianceOf 1 (oneSeen 0 1 (1 / 2)).alg) e.x = 7 / 2 ∧
      ∃ ev s', Happens (arow 1) c (oneSeen 0 1 (1 / 2)) e 0 ev s' ∧ ev.fired = true := by
  have hB : TwoClass (α := ℝ) { cfg1 with biasEta0 := 1 } (oneSeen 0 1 (1 / 2)) ⟨-1, [(1, 2), (3, 1)]⟩ :=
    oneSeen_two ⟨by simp [Ascending], by simp⟩ (by simp) (by simp) 1
  refine ⟨hB, oneSeen_variance (by norm_num) (by norm_num), ?_, arow_fires 0 hB rfl rfl ?_⟩
  · simp [spread, varianceOf, oneSeen]; norm_num
  · simp [linear, cell, coord, oneSeen, costMargin, cfg1]; norm_num

/-- Those of the theorems on CW, with two features. -/
theorem C98_instance_cw :
    let e : Ex ℝ := ⟨-1, [(1, 2), (3, 1)]⟩
    TwoClass cfg1 (oneSeen 0 1 (1 / 2)) e ∧ (∀ i, 0 < varianceOf 1 (oneSeen 0 1 (1 / 2)).alg i) ∧
      spread false (varianceOf 1 (oneSeen 0 1 (1 / 2)).alg) e.x = 3 ∧
      (e.label : ℝ) * (linear (cell (oneSeen 0 1 (1 / 2)).w 0) e.x + cell (oneSeen 0 1 (1 / 2)).w 0 0) = -2 ∧ feat e.x 1 ≠ 0 ∧ feat e.x 3 ≠ 0 ∧
      ∃ ev s', Happens (cw 1 (1 / 2) false) cfg1 (oneSeen 0 1 (1 / 2)) e 0 ev s' ∧ ev.fired = true := by
  have hB : TwoClass (α := ℝ) { cfg1 with biasEta0 := 0 } (oneSeen 0 1 (1 / 2)) ⟨-1, [(1, 2), (3, 1)]⟩ :=
    oneSeen_two ⟨by simp [Ascending], by simp⟩ (by simp) (by simp) 0
  have hV : spread false (varianceOf 1 (oneSeen 0 1 (1 / 2)).alg) ([(1, 2), (3, 1)] : SVec ℝ) = 3 := by
    simp [spread, varianceOf, oneSeen]; norm_num
  have hm : (((-1 : Int) : ℝ)) * (linear (cell (oneSeen 0 1 (1 / 2)).w 0) ([(1, 2), (3, 1)] : SVec ℝ) + cell (oneSeen 0 1 (1 / 2)).w 0 0) = -2 := by
    simp [linear, cell, coord, oneSeen]
  refine ⟨hB, oneSeen_variance (by norm_num) (by norm_num), hV, hm, by simp [feat, featureAt], by simp [feat, featureAt],
    cw_fires (.cw 1 (1 / 2) false) rfl (fun _ _ _ => rfl) (fun _ _ => rfl) (fun _ _ _ => rfl) 0 hB rfl rfl ?_⟩
  rw [hm, hV]; norm_num

/-- Those of the first two theorems on ECCW: the variance of the score is at most 1. -/
theorem C98_instance_eccw :
    let e : Ex ℝ := ⟨1, [(1, 1), (3, 1 / 2)]⟩
    TwoClass cfg1 (oneSeen 0 0 (1 / 2)) e ∧ (∀ i, 0 < varianceOf 1 (oneSeen 0 0 (1 / 2)).alg i) ∧
      spread false (varianceOf 1 (oneSeen 0 0 (1 / 2)).alg) e.x = 3 / 4 ∧
      (e.label : ℝ) * (linear (cell (oneSeen 0 0 (1 / 2)).w 0) e.x + cell (oneSeen 0 0 (1 / 2)).w 0 0) = 0 ∧
      ∃ ev s', Happens (eccw 1 (1 / 2) false) cfg1 (oneSeen 0 0 (1 / 2)) e 0 ev s' ∧ ev.fired = true := by
  have hB : TwoClass (α := ℝ) { cfg1 with biasEta0 := 0 } (oneSeen 0 0 (1 / 2)) ⟨1, [(1, 1), (3, 1 / 2)]⟩ :=
    oneSeen_two ⟨by simp [Ascending], by simp⟩ (by simp) (by simp) 0
  have hV : spread false (varianceOf 1 (oneSeen 0 0 (1 / 2)).alg) ([(1, 1), (3, 1 / 2)] : SVec ℝ) = 3 / 4 := by
    simp [spread, varianceOf, oneSeen]; norm_num
  have hm : (((1 : Int) : ℝ)) * (linear (cell (oneSeen 0 0 (1 / 2)).w 0) ([(1, 1), (3, 1 / 2)] : SVec ℝ) + cell (oneSeen 0 0 (1 / 2)).w 0 0) = 0 := by
    simp [linear, cell, coord, oneSeen]
  refine ⟨hB, oneSeen_variance (by norm_num) (by norm_num), hV, hm,
    cw_fires (.eccw 1 (1 / 2) false) rfl (fun _ _ _ => rfl) (fun _ _ => rfl) (fun _ _ _ => rfl) 0 hB rfl rfl ?_⟩
  rw [hm, hV]; norm_num

/-- Those of the third: `phi * sqrt v = 1 < 3/2 < 2 = phi * v`. -/
theorem C98_instance_away :
    let e : Ex ℝ := ⟨1, [(1, 1)]⟩
    TwoClass cfg1 (oneSeen 0 (3 / 2) 4) e ∧ (∀ i, 0 < varianceOf 4 (oneSeen 0 (3 / 2) 4).alg i) ∧
      spread false (varianceOf 4 (oneSeen 0 (3 / 2) 4).alg) e.x = 4 ∧
      (e.label : ℝ) * (linear (cell (oneSeen 0 (3 / 2) 4).w 0) e.x + cell (oneSeen 0 (3 / 2) 4).w 0 0) = 3 / 2 ∧ 1 / 2 * Real.sqrt 4 < 3 / 2 ∧
      ∃ ev s', Happens (eccw 4 (1 / 2) false) cfg1 (oneSeen 0 (3 / 2) 4) e 0 ev s' ∧ ev.fired = true := by
  have hB : TwoClass (α := ℝ) { cfg1 with biasEta0 := 0 } (oneSeen 0 (3 / 2) 4) ⟨1, [(1, 1)]⟩ :=
    oneSeen_two ⟨by simp [Ascending], by simp⟩ (by simp) (by simp) 0
  have hV : spread false (varianceOf 4 (oneSeen 0 (3 / 2) 4).alg) ([(1, 1)] : SVec ℝ) = 4 := by
    simp [spread, varianceOf, oneSeen]
  have hm : (((1 : Int) : ℝ)) * (linear (cell (oneSeen 0 (3 / 2) 4).w 0) ([(1, 1)] : SVec ℝ) + cell (oneSeen 0 (3 / 2) 4).w 0 0) = 3 / 2 := by
    simp [linear, cell, coord, oneSeen]
  refine ⟨hB, oneSeen_variance (by norm_num) (by norm_num), hV, hm, ?_,
    cw_fires (.eccw 4 (1 / 2) false) rfl (fun _ _ _ => rfl) (fun _ _ => rfl) (fun _ _ _ => rfl) 0 hB rfl rfl ?_⟩
  · rw [show (4 : ℝ) = 2 ^ 2 by norm_num, Real.sqrt_sq (by norm_num)]; norm_num
  · rw [hm, hV]; norm_num

end

end Sol.Props
