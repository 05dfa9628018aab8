import Verif.Model.FloatValue
import Verif.Proofs.SixAgain
import Verif.Spec.FloatValue
/-! Errors of `ParseFloat`. -/

namespace Sol.FloatValue
open Sol.NumericParser Sol.Spec Sol.FloatText Sol.TextWriters

/-- Rounding moves a number by at most half a unit. -/
theorem round_near {d : ℚ} (h : |d| ≤ 340282 * 10 ^ 33) : ∃ r, F32.round d = .fin r ∧ |r - d| ≤ |d| / 2 ^ 24 + 2 ^ (-150 : ℤ) := by
  have pos : ∀ d : ℚ, 0 < d → d ≤ 340282 * 10 ^ 33 → ∃ r, F32.round d = .fin r ∧ |r - d| ≤ |d| / 2 ^ 24 + 2 ^ (-150 : ℤ) := by
    intro d h0 h1
    obtain ⟨r, n, u, hr, er, b1, b2, _, _, hu⟩ := round_bounds h0 h1
    refine ⟨r, hr, ?_⟩
    have hp : (0 : ℚ) < 2 ^ u := by positivity
    have f1 : d - 2 ^ u / 2 ≤ r := by
      have := mul_le_mul_of_nonneg_right b1 hp.le
      have e4 : (d / 2 ^ u - 1 / 2) * (2 : ℚ) ^ u = d - 2 ^ u / 2 := by field_simp
      rwa [e4, ← er] at this
    have f2 : r ≤ d + 2 ^ u / 2 := by
      have := mul_le_mul_of_nonneg_right b2 hp.le
      have e4 : (d / 2 ^ u + 1 / 2) * (2 : ℚ) ^ u = d + 2 ^ u / 2 := by field_simp
      rwa [e4, ← er] at this
    have hq : (2 : ℚ) ^ u / 2 ≤ d / 2 ^ 24 + 2 ^ (-150 : ℤ) := by
      rcases hu with rfl | hu
      · have : (2 : ℚ) ^ (-149 : ℤ) / 2 = 2 ^ (-150 : ℤ) := by norm_num
        rw [this]
        have : 0 ≤ d / 2 ^ 24 := by positivity
        linarith
      · have e : (2 : ℚ) ^ (u + 23) = 2 ^ u * 2 ^ 23 := by
          rw [zpow_add₀ (by norm_num)]
          norm_num
        rw [e] at hu
        have f3 : (2 : ℚ) ^ u / 2 ≤ d / 2 ^ 24 := by
          rw [div_le_div_iff₀ (by norm_num) (by norm_num)]
          linarith
        have : (0 : ℚ) < 2 ^ (-150 : ℤ) := by positivity
        linarith
    rw [abs_of_pos h0]
    exact abs_le.2 ⟨by linarith, by linarith⟩
  rcases lt_trichotomy d 0 with h0 | rfl | h0
  · obtain ⟨r, h1, h2⟩ := pos (-d) (by linarith) (by rwa [abs_of_neg h0] at h)
    refine ⟨-r, ?_, ?_⟩
    · rw [F32.round_neg] at h1
      cases hx : F32.round d with
      | fin y =>
        rw [hx] at h1
        simp only [F32.neg, F32.fin.injEq] at h1
        rw [← h1, neg_neg]
      | _ =>
        rw [hx] at h1
        simp [F32.neg] at h1
    · rw [abs_neg] at h2
      rwa [show -r - d = -(r - -d) by ring, abs_neg]
  · exact ⟨0, rfl, by rw [sub_self, abs_zero]; positivity⟩
  · exact pos d h0 (by rwa [abs_of_pos h0] at h)

/-- The power of ten, for exponents that do not overflow. -/
theorem powf_near {pw : Int → F32} (hpw : Powf pw) {k : Int} (hk : k ≤ 38) :
    ∃ p, pw k = .fin p ∧ |p - (10 : ℚ) ^ k| ≤ (10 : ℚ) ^ k * (1 / 2 ^ 24 + 1 / 2 ^ 39) + 2 ^ (-150 : ℤ) := by
  obtain ⟨q, hq, he⟩ := hpw k
  have ht : (0 : ℚ) < 10 ^ k := by positivity
  have hle : (10 : ℚ) ^ k ≤ 10 ^ (38 : ℤ) := zpow_le_zpow_right₀ (by norm_num) hk
  generalize (10 : ℚ) ^ k = t at *
  have hq' := abs_le.1 hq
  have hq1 : |q| ≤ t * (1 + 1 / 2 ^ 40) := by
    rw [abs_le]
    constructor
    · have : t / 2 ^ 40 ≤ t := div_le_self ht.le (by norm_num)
      nlinarith [hq'.1]
    · linarith [hq'.2]
  have h38 : (10 : ℚ) ^ (38 : ℤ) = 10 ^ 38 := by norm_cast
  rw [h38] at hle
  obtain ⟨p, hp, hp'⟩ := round_near (d := q) (hq1.trans (by
    have : t * (1 + 1 / 2 ^ 40) ≤ 10 ^ 38 * (1 + 1 / 2 ^ 40) := mul_le_mul_of_nonneg_right hle (by norm_num)
    refine this.trans (by norm_num)))
  refine ⟨p, he.trans hp, ?_⟩
  have : |p - t| ≤ |p - q| + |q - t| := abs_sub_le _ _ _
  have h2 : |q| / 2 ^ 24 ≤ t * (1 + 1 / 2 ^ 40) / 2 ^ 24 := div_le_div_of_nonneg_right hq1 (by norm_num)
  have h3 : t * (1 + 1 / 2 ^ 40) / 2 ^ 24 + t / 2 ^ 40 ≤ t * (1 / 2 ^ 24 + 1 / 2 ^ 39) := by
    have : t * (1 / 2 ^ 24 + 1 / 2 ^ 39) - (t * (1 + 1 / 2 ^ 40) / 2 ^ 24 + t / 2 ^ 40) = t * (1 / 2 ^ 39 - 1 / 2 ^ 64 - 1 / 2 ^ 40) := by
      ring
    have h4 : 0 ≤ t * (1 / 2 ^ 39 - 1 / 2 ^ 64 - 1 / 2 ^ 40) := mul_nonneg ht.le (by norm_num)
    linarith
  linarith

/-- The `float` made of a mantissa and an exponent. -/
theorem value_near {pw : Int → F32} (hpw : Powf pw) {d : Dec} (hm : |d.mant| ≤ 2 ^ 31) (hk : d.exp ≤ 38)
    (hd : |(d.mant : ℚ) * 10 ^ d.exp| ≤ 340281 * 10 ^ 33) : ∃ v, floatOf pw d = .fin v ∧
    |v - (d.mant : ℚ) * 10 ^ d.exp| ≤ |(d.mant : ℚ) * 10 ^ d.exp| / 2 ^ 22 + 2 ^ (-118 : ℤ) := by
  obtain ⟨m, k⟩ := d
  simp only at hm hk hd ⊢
  have hm' : |(m : ℚ)| ≤ 2 ^ 31 := by exact_mod_cast hm
  obtain ⟨a, ha, ha'⟩ := round_near (d := (m : ℚ)) (hm'.trans (by norm_num))
  have e0 : (2 : ℚ) ^ (-118 : ℤ) = 1 / 2 ^ 118 := by norm_num
  have e1 : (2 : ℚ) ^ (-150 : ℤ) = 1 / 2 ^ 150 := by norm_num
  rw [e1] at ha'
  rw [e0]
  unfold floatOf
  simp only
  have hcast : ((m : Int) : F32) = F32.round (m : ℚ) := rfl
  split
  · rename_i h0
    subst h0
    rw [hcast]
    refine ⟨a, ha, ?_⟩
    rw [zpow_zero, mul_one]
    have : |(m : ℚ)| / 2 ^ 24 ≤ |(m : ℚ)| / 2 ^ 22 := div_le_div_of_nonneg_left (abs_nonneg _) (by norm_num) (by norm_num)
    have h2 : (1 : ℚ) / 2 ^ 150 ≤ 1 / 2 ^ 118 := by norm_num
    linarith
  · obtain ⟨p, hp, hp'⟩ := powf_near hpw hk
    rw [hcast, ha, hp, F32.fin_mul]
    rw [e1] at hp'
    have ht : (0 : ℚ) < 10 ^ k := by positivity
    have hamt : |(m : ℚ) * 10 ^ k| = |(m : ℚ)| * 10 ^ k := by rw [abs_mul, abs_of_pos ht]
    rw [hamt] at hd ⊢
    -- the conversion of the mantissa is exact up to a relative error
    have ham : |a - m| ≤ |(m : ℚ)| * (1 / 2 ^ 24 + 1 / 2 ^ 150) := by
      rcases eq_or_ne m 0 with rfl | hm0
      · have : F32.round ((0 : Int) : ℚ) = .fin 0 := rfl
        rw [this] at ha
        obtain rfl := F32.fin.inj ha
        simp
      · have h1 : (1 : ℚ) ≤ |(m : ℚ)| := by exact_mod_cast Int.one_le_abs hm0
        nlinarith [ha']
    generalize (10 : ℚ) ^ k = t at *
    generalize (m : ℚ) = M at *
    have hMt : 0 ≤ |M| * t := mul_nonneg (abs_nonneg _) ht.le
    have hprod : |a * p - M * t| ≤ |M| * t * (1 / 2 ^ 23 + 1 / 2 ^ 36) + |M| * (1 / 2 ^ 150 + 1 / 2 ^ 160) := by
      have e : a * p - M * t = (a - M) * (p - t) + (a - M) * t + M * (p - t) := by ring
      rw [e]
      have h1 := abs_add_le ((a - M) * (p - t) + (a - M) * t) (M * (p - t))
      have h2 := abs_add_le ((a - M) * (p - t)) ((a - M) * t)
      rw [abs_mul M] at h1
      rw [abs_mul] at h2
      rw [abs_mul, abs_of_pos ht] at h2
      have hM := abs_nonneg M
      have g1 : |a - M| * t ≤ |M| * (1 / 2 ^ 24 + 1 / 2 ^ 150) * t := mul_le_mul_of_nonneg_right ham ht.le
      have g2 : |M| * |p - t| ≤ |M| * (t * (1 / 2 ^ 24 + 1 / 2 ^ 39) + 1 / 2 ^ 150) := mul_le_mul_of_nonneg_left hp' hM
      have g3 : |a - M| * |p - t| ≤ |M| * (1 / 2 ^ 24 + 1 / 2 ^ 150) * (t * (1 / 2 ^ 24 + 1 / 2 ^ 39) + 1 / 2 ^ 150) :=
        mul_le_mul ham hp' (abs_nonneg _) (by positivity)
      have key : |M| * (1 / 2 ^ 24 + 1 / 2 ^ 150) * (t * (1 / 2 ^ 24 + 1 / 2 ^ 39) + 1 / 2 ^ 150) +
          |M| * (1 / 2 ^ 24 + 1 / 2 ^ 150) * t + |M| * (t * (1 / 2 ^ 24 + 1 / 2 ^ 39) + 1 / 2 ^ 150) ≤
          |M| * t * (1 / 2 ^ 23 + 1 / 2 ^ 36) + |M| * (1 / 2 ^ 150 + 1 / 2 ^ 160) := by
        generalize |M| = N at *
        nlinarith
      linarith
    have hM31 : |M| * (1 / 2 ^ 150 + 1 / 2 ^ 160) ≤ 1 / 2 ^ 119 + 1 / 2 ^ 129 := by
      have := mul_le_mul_of_nonneg_right hm' (show (0 : ℚ) ≤ 1 / 2 ^ 150 + 1 / 2 ^ 160 by norm_num)
      refine this.trans (by norm_num)
    generalize |M| * t = X at *
    have hap : |a * p| ≤ X * (1 + (1 / 2 ^ 23 + 1 / 2 ^ 36)) + (1 / 2 ^ 119 + 1 / 2 ^ 129) := by
      have h1 : |a * p| ≤ |a * p - M * t| + |M * t| := by
        have := abs_add_le (a * p - M * t) (M * t)
        rwa [sub_add_cancel] at this
      rw [hamt] at h1
      linarith
    obtain ⟨v, hv, hv'⟩ := round_near (d := a * p) (by
      refine hap.trans ?_
      have : X * (1 + (1 / 2 ^ 23 + 1 / 2 ^ 36)) ≤ 340281 * 10 ^ 33 * (1 + (1 / 2 ^ 23 + 1 / 2 ^ 36)) :=
        mul_le_mul_of_nonneg_right hd (by norm_num)
      have h2 : (340281 * 10 ^ 33 * (1 + (1 / 2 ^ 23 + 1 / 2 ^ 36)) + (1 / 2 ^ 119 + 1 / 2 ^ 129) : ℚ) ≤ 340282 * 10 ^ 33 := by norm_num
      linarith)
    refine ⟨v, hv, ?_⟩
    rw [e1] at hv'
    have h1 : |v - M * t| ≤ |v - a * p| + |a * p - M * t| := abs_sub_le _ _ _
    have h2 := div_le_div_of_nonneg_right hap (show (0 : ℚ) ≤ 2 ^ 24 by norm_num)
    have h3 : X * (1 / 2 ^ 23 + 1 / 2 ^ 36) + X * (1 + (1 / 2 ^ 23 + 1 / 2 ^ 36)) / 2 ^ 24 ≤ X / 2 ^ 22 := by
      have e : X / 2 ^ 22 - (X * (1 / 2 ^ 23 + 1 / 2 ^ 36) + X * (1 + (1 / 2 ^ 23 + 1 / 2 ^ 36)) / 2 ^ 24) =
          X * (1 / 2 ^ 22 - (1 / 2 ^ 23 + 1 / 2 ^ 36) - (1 + (1 / 2 ^ 23 + 1 / 2 ^ 36)) / 2 ^ 24) := by ring
      have : 0 ≤ X * (1 / 2 ^ 22 - (1 / 2 ^ 23 + 1 / 2 ^ 36) - (1 + (1 / 2 ^ 23 + 1 / 2 ^ 36)) / 2 ^ 24) := mul_nonneg hMt (by norm_num)
      linarith
    have h4 : (1 / 2 ^ 119 + 1 / 2 ^ 129 + (1 / 2 ^ 119 + 1 / 2 ^ 129) / 2 ^ 24 + 1 / 2 ^ 150 : ℚ) ≤ 1 / 2 ^ 118 := by norm_num
    rw [add_div] at h2
    linarith

/-- Exponents from 39 on give infinity, so a mantissa 0 gives NaN. -/
theorem powf_large {pw : Int → F32} (hpw : Powf pw) {k : Int} (hk : 39 ≤ k) : pw k = .pinf := by
  obtain ⟨q, hq, he⟩ := hpw k
  rw [he]
  have hle : (10 : ℚ) ^ (39 : ℤ) ≤ 10 ^ k := zpow_le_zpow_right₀ (by norm_num) hk
  have h38 : (10 : ℚ) ^ (39 : ℤ) = 10 ^ 39 := by norm_cast
  rw [h38] at hle
  generalize (10 : ℚ) ^ k = t at *
  have hq' := (abs_le.1 hq).1
  have hq0 : 2 ^ 128 ≤ q := by
    have h1 : t / 2 ^ 40 ≤ t / 2 := div_le_div_of_nonneg_left (by linarith) (by norm_num) (by norm_num)
    have h2 : (2 : ℚ) ^ 128 ≤ 10 ^ 39 / 2 := by norm_num
    linarith
  have hq1 : 0 < q := lt_of_lt_of_le (by norm_num) hq0
  have ha : 0 < q.num.natAbs := by
    have := Rat.num_pos.2 hq1
    omega
  obtain ⟨n, e1, e2, e3⟩ := F32.roundMag_spec q.num.natAbs q.den q.den_pos
  have hu := F32.ulpExp_spec q.num.natAbs q.den ha q.den_pos
  rw [natAbs_div hq1] at e2 e3 hu
  generalize F32.ulpExp q.num.natAbs q.den = u at *
  have hu1 : 105 ≤ u := by
    have h1 : (2 : ℚ) ^ (128 : ℤ) < 2 ^ (u + 24) := lt_of_le_of_lt (by exact_mod_cast hq0) hu.2.1
    have := (zpow_lt_zpow_iff_right₀ (by norm_num : (1 : ℚ) < 2)).1 h1
    omega
  have hu2 : (2 : ℚ) ^ (u + 23) ≤ q := by
    rcases hu.2.2 with h | h
    · omega
    · exact h
  have hm : (2 : ℚ) ^ 128 ≤ F32.roundMag q.num.natAbs q.den := by
    rw [e1]
    have hn : (2 : ℚ) ^ 23 - 1 / 2 ≤ n := by
      have : (2 : ℚ) ^ 23 ≤ q / 2 ^ u := by
        rw [le_div_iff₀ (by positivity)]
        rw [zpow_add₀ (by norm_num), mul_comm] at hu2
        exact_mod_cast hu2
      linarith
    have hn' : 2 ^ 23 ≤ n := by
      have : ((2 ^ 23 : Nat) : ℚ) < ((n + 1 : Nat) : ℚ) := by push_cast; linarith
      have : 2 ^ 23 < n + 1 := by exact_mod_cast this
      omega
    have h1 : (2 : ℚ) ^ (105 : ℤ) ≤ 2 ^ u := zpow_le_zpow_right₀ (by norm_num) hu1
    calc (2 : ℚ) ^ 128 = 2 ^ 23 * 2 ^ (105 : ℤ) := by norm_num
      _ ≤ (n : ℚ) * 2 ^ u := mul_le_mul (by exact_mod_cast hn') h1 (by positivity) (by positivity)
  unfold F32.round
  rw [if_neg hq1.ne']
  dsimp only
  rw [if_pos (by rw [F32.pow2_eq]; exact_mod_cast hm), if_pos hq1]

/-- Numbers of which `%g` prints no more than seven decimals. -/
theorem short_of {q : ℚ} (h : |q| < 1 / 10 ^ 4 ∨ 1 / 100 ≤ |q|) : TextWriters.Short (six q) := by
  by_cases hq : q = 0
  · subst hq
    simp [six, TextWriters.Short]
  obtain ⟨x, N, e, hN, h1, h2, h3, h4, hp⟩ := six_spec hq
  have hlog : Int.log 10 |q| = x := log10_eq h1 h2
  unfold six
  rw [if_neg hq]
  simp only [hlog]
  have hx : x < -4 ∨ -2 ≤ x := by
    rcases h with h | h
    · left
      have : (10 : ℚ) ^ x < 10 ^ (-4 : ℤ) := lt_of_le_of_lt h1 (by norm_num at h ⊢; exact h)
      exact (zpow_lt_zpow_iff_right₀ (by norm_num : (1 : ℚ) < 10)).1 this
    · right
      have : (10 : ℚ) ^ (-2 : ℤ) < 10 ^ (x + 1) := lt_of_le_of_lt (by norm_num at h ⊢; exact h) h2
      have := (zpow_lt_zpow_iff_right₀ (by norm_num : (1 : ℚ) < 10)).1 this
      omega
  split_ifs with hc
  · exact ⟨fun _ => by norm_num, fun _ => by norm_num⟩
  · exact ⟨fun h => by omega, fun h => by omega⟩

open Sol.Props (decRat) in
/-- A printed value that was read: the `float` is within 6/10^6 of it, and outside 0.0001 … 0.01 prints the same. -/
theorem floatOf_close {pw : Int → F32} (hpw : Powf pw) {q : ℚ} (hs : Single q) (hq : q = 0 ∨ 1 / 10 ^ 27 ≤ |q|) (hb : |q| ≤ 34 * 10 ^ 37)
    {d : Dec} (hd : Close (six q) d) :
    ∃ v, floatOf pw d = .fin v ∧ (q = 0 → v = 0) ∧ (q ≠ 0 → v ≠ 0) ∧
      |v - q| ≤ |q| * (6 / 10 ^ 6) + (if |q| < 1 / 10 ^ 4 ∨ 1 / 100 ≤ |q| then 0 else 1 / 10 ^ 7) ∧
      (|q| < 1 / 10 ^ 4 ∨ 1 / 100 ≤ |q| → put (.fin v) = put (.fin q)) := by
  obtain ⟨d1, d2, d3, d4, _⟩ := hd
  have hpr := six_printable hs
  have hmz := mant_core hpr ⟨d1, d2⟩
  rcases hq with rfl | hq
  · have hm : d.mant = 0 := hmz.2 ⟨false, by simp [six]⟩
    have he := d4 hm
    refine ⟨0, ?_, fun _ => rfl, fun h => absurd rfl h, by simp, fun _ => rfl⟩
    unfold floatOf
    rw [if_pos he, hm]
    rfl
  have hq1 : 0 < |q| := lt_of_lt_of_le (by norm_num) hq
  have hq0 : q ≠ 0 := abs_pos.1 hq1
  have hm : d.mant ≠ 0 := by
    intro h
    obtain ⟨neg, h⟩ := hmz.1 h
    unfold six at h
    rw [if_neg hq0] at h
    dsimp only at h
    split at h <;> cases h
  have hc := six_close q
  have hg1 : |gRat (six q)| ≤ |q| * (1 + 5 / 1000000) := by
    have := abs_add_le (gRat (six q) - q) q
    rw [sub_add_cancel] at this
    linarith
  have hdb : |decRat d| ≤ |q| * (1 + 6 / 1000000) + (if |q| < 1 / 10 ^ 4 ∨ 1 / 100 ≤ |q| then 0 else 1 / 10 ^ 7) := by
    split
    · rename_i h
      rw [d1 (short_of h)]
      linarith
    · have := abs_sub_abs_le_abs_sub (decRat d) (gRat (six q))
      rw [abs_sub_comm (decRat d)] at this
      linarith
  have hdd : |decRat d| ≤ 340281 * 10 ^ 33 := by
    refine hdb.trans ?_
    have h1 := mul_le_mul_of_nonneg_right hb (show (0 : ℚ) ≤ 1 + 6 / 1000000 by norm_num)
    split <;> norm_num at h1 ⊢ <;> linarith
  have hdz : (1 : ℚ) ≤ |(d.mant : ℚ)| := by
    have : 1 ≤ |d.mant| := Int.one_le_abs hm
    exact_mod_cast this
  obtain ⟨v, h1, h2⟩ := value_near hpw (d := d) (by omega)
    (by
      by_contra hcx
      unfold decRat at hdd
      rw [abs_mul, abs_of_pos (show (0 : ℚ) < 10 ^ d.exp by positivity)] at hdd
      have h39 : (10 : ℚ) ^ (39 : ℤ) ≤ 10 ^ d.exp := zpow_le_zpow_right₀ (by norm_num) (by omega)
      have h40 : (10 : ℚ) ^ (39 : ℤ) ≤ 340281 * 10 ^ 33 := by nlinarith
      norm_num at h40)
    hdd
  change |v - decRat d| ≤ |decRat d| / 2 ^ 22 + 2 ^ (-118 : ℤ) at h2
  have ht118 : (2 : ℚ) ^ (-118 : ℤ) ≤ |q| * (1 / 10 ^ 8) := by
    have e : (2 : ℚ) ^ (-118 : ℤ) ≤ 1 / 10 ^ 27 * (1 / 10 ^ 8) := by norm_num
    exact e.trans (mul_le_mul_of_nonneg_right hq (by norm_num))
  have hmid : |v - q| ≤ |q| * (6 / 10 ^ 6) + (if |q| < 1 / 10 ^ 4 ∨ 1 / 100 ≤ |q| then 0 else 1 / 10 ^ 7) := by
    have h3 := abs_sub_le v (decRat d) q
    by_cases h : |q| < 1 / 10 ^ 4 ∨ 1 / 100 ≤ |q|
    · rw [if_pos h] at hdb ⊢
      rw [d1 (short_of h)] at h3 h2 hdb
      norm_num at h2 ht118 hdb hc ⊢
      linarith
    · rw [if_neg h] at hdb ⊢
      have h4 := abs_sub_le (decRat d) (gRat (six q)) q
      push Not at h
      have h5 : |decRat d - gRat (six q)| < 1 / 10 ^ 7 := by rw [abs_sub_comm]; exact d2
      obtain ⟨ha, hb'⟩ := h
      norm_num at h2 ht118 hdb hc h5 ha ⊢
      linarith
  refine ⟨v, h1, fun h => absurd h hq0, ?_, hmid, ?_⟩
  · rintro _ rfl
    rw [zero_sub, abs_neg] at hmid
    split at hmid
    · norm_num at hmid
      linarith
    · rename_i h
      push Not at h
      have := h.1
      norm_num at hmid this
      linarith
  · intro hsr
    rw [d1 (short_of hsr)] at h2 hdb
    have key : ∀ (q v : ℚ), 0 < q → |v - gRat (six q)| ≤ q * (26 / 10 ^ 8) → |gRat (six q) - q| ≤ q * (5 / 1000000) → six v = six q ∧ six (-v) = six (-q) := by
      intro q v hq hv hcl
      obtain ⟨N, x, e1, e2, e3, e4, e5⟩ := six_pos hq
      have hcl := abs_le.1 hcl
      have hv' : |v - gRat (six q)| ≤ gRat (six q) * (4 / 10 ^ 7) := by linarith
      obtain ⟨g1, g2⟩ := six_near e5 e3 e4 hv'
      refine ⟨g2.trans e1.symm, ?_⟩
      rw [e2]
      obtain ⟨N', x', f1, f2, _⟩ := six_pos g1
      rw [f2]
      rw [g2] at f1
      cases f1
      rfl
    have hfin : |v - gRat (six q)| ≤ |q| * (26 / 10 ^ 8) := by
      norm_num at h2 ht118 hg1 ⊢
      linarith
    unfold put fmtG
    congr 1
    rcases lt_or_gt_of_ne hq0 with hn | hp
    · rw [abs_of_neg hn] at hfin hc
      have := (key (-q) (-v) (by linarith) (by
        rw [six_neg, show -v - -gRat (six q) = -(v - gRat (six q)) by ring, abs_neg]; exact hfin) (by
        rw [six_neg, show -gRat (six q) - -q = -(gRat (six q) - q) by ring, abs_neg]; exact hc)).2
      simpa using this
    · rw [abs_of_pos hp] at hfin hc
      exact (key q v hp hfin hc).1

end Sol.FloatValue
