import Verif.Base.F64
import Verif.Proofs.Round
/-! Rounding to binary64. -/

namespace Sol.F64

/-- The unit fits the size of the number. -/
theorem ulpExp_spec (a b : Nat) (ha : 0 < a) (hb : 0 < b) :
    -1074 ≤ ulpExp a b ∧ (a : Rat) / b < 2 ^ (ulpExp a b + 53) ∧
      (ulpExp a b = -1074 ∨ (2 : Rat) ^ (ulpExp a b + 52) ≤ (a : Rat) / b) := by
  have hb' : (0 : Rat) < b := by exact_mod_cast hb
  have a1 : (2 : Rat) ^ (a.log2 : Int) ≤ a := by
    rw [zpow_natCast]; exact_mod_cast Nat.log2_self_le ha.ne'
  have a2 : (a : Rat) < 2 ^ ((a.log2 : Int) + 1) := by
    have h : a < 2 ^ (a.log2 + 1) := Nat.lt_log2_self
    have : ((a.log2 : Int) + 1) = ((a.log2 + 1 : Nat) : Int) := by push_cast; ring
    rw [this, zpow_natCast]; exact_mod_cast h
  have b1 : (2 : Rat) ^ (b.log2 : Int) ≤ b := by
    rw [zpow_natCast]; exact_mod_cast Nat.log2_self_le hb.ne'
  have b2 : (b : Rat) < 2 ^ ((b.log2 : Int) + 1) := by
    have h : b < 2 ^ (b.log2 + 1) := Nat.lt_log2_self
    have : ((b.log2 : Int) + 1) = ((b.log2 + 1 : Nat) : Int) := by push_cast; ring
    rw [this, zpow_natCast]; exact_mod_cast h
  have two : (2 : Rat) ≠ 0 := by norm_num
  generalize hla : ((a.log2 : Nat) : Int) = la at *
  generalize hlb : ((b.log2 : Nat) : Int) = lb at *
  have up : (a : Rat) / b < 2 ^ (la - lb + 1) := by
    rw [div_lt_iff₀ hb']
    calc (a : Rat) < 2 ^ (la + 1) := a2
      _ = 2 ^ (la - lb + 1) * 2 ^ lb := by rw [← zpow_add₀ two]; congr 1; ring
      _ ≤ 2 ^ (la - lb + 1) * b := by gcongr
  have low : (2 : Rat) ^ (la - lb - 1) ≤ (a : Rat) / b := by
    rw [le_div_iff₀ hb']
    calc (2 : Rat) ^ (la - lb - 1) * b ≤ 2 ^ (la - lb - 1) * 2 ^ (lb + 1) := by gcongr
      _ = 2 ^ la := by rw [← zpow_add₀ two]; congr 1; ring
      _ ≤ a := a1
  have hsub : ∀ e : Int, (a : Rat) / b < 2 ^ (e + 53) → (2 : Rat) ^ (e + 52) ≤ (a : Rat) / b →
      -1074 ≤ max e (-1074) ∧ (a : Rat) / b < 2 ^ (max e (-1074) + 53) ∧
      (max e (-1074) = -1074 ∨ (2 : Rat) ^ (max e (-1074) + 52) ≤ (a : Rat) / b) := by
    intro e h1 h2
    refine ⟨le_max_right _ _, lt_of_lt_of_le h1 (zpow_le_zpow_right₀ (by norm_num) (by omega)), ?_⟩
    rcases le_total e (-1074) with h | h
    · exact .inl (max_eq_right h)
    · exact .inr (by rwa [max_eq_left h])
  unfold ulpExp
  dsimp only
  rw [F32.pow2_eq, hla, hlb]
  split
  · rename_i h
    apply hsub
    · rw [div_lt_iff₀ hb', mul_comm]
      rw [show la - lb - 52 - 1 + 53 = la - lb - 52 + 52 by ring]
      exact h
    · rw [show la - lb - 52 - 1 + 52 = la - lb - 1 by ring]
      exact low
  · rename_i h
    apply hsub
    · rw [show la - lb - 52 + 53 = la - lb + 1 by ring]
      exact up
    · rw [le_div_iff₀ hb', mul_comm]
      exact not_lt.1 h

/-- The magnitude is a multiple of the unit, at most half a unit away. -/
theorem roundMag_spec (a b : Nat) (hb : 0 < b) : ∃ n : Nat, roundMag a b = n * (2 : Rat) ^ ulpExp a b ∧
    (a : Rat) / b / 2 ^ ulpExp a b - 1 / 2 ≤ n ∧ (n : Rat) ≤ (a : Rat) / b / 2 ^ ulpExp a b + 1 / 2 := by
  have hb' : (b : Rat) ≠ 0 := by exact_mod_cast hb.ne'
  unfold roundMag
  dsimp only
  rw [F32.pow2_eq]
  set e := ulpExp a b
  refine ⟨_, rfl, ?_⟩
  split
  · rename_i h
    obtain ⟨n, hn⟩ := Int.eq_ofNat_of_zero_le h
    have e1 : (a : Rat) / b / 2 ^ e = (a : Rat) / ((b * 2 ^ e.toNat : Nat) : Rat) := by
      rw [hn]; simp only [Int.toNat_natCast, zpow_natCast]; push_cast; rw [div_div]
    rw [e1]
    exact F32.divRound_near _ _ (by positivity)
  · rename_i h
    obtain ⟨n, hn⟩ := Int.eq_ofNat_of_zero_le (show 0 ≤ -e by omega)
    have he : e = -(n : Int) := by omega
    have e1 : (a : Rat) / b / 2 ^ e = ((a * 2 ^ (-e).toNat : Nat) : Rat) / b := by
      rw [he]; simp only [neg_neg, Int.toNat_natCast, zpow_neg, zpow_natCast]; push_cast; field_simp
    rw [e1]
    exact F32.divRound_near _ _ hb

theorem natAbs_div {q : ℚ} (hq : 0 < q) : ((q.num.natAbs : Nat) : ℚ) / q.den = q := by
  have h : 0 < q.num := Rat.num_pos.2 hq
  have : ((q.num.natAbs : Nat) : ℚ) = (q.num : ℚ) := by
    have : ((q.num.natAbs : Nat) : Int) = q.num := by omega
    rw [← Int.cast_natCast, this]
  rw [this, Rat.num_div_den]

theorem round_neg (q : ℚ) : round (-q) = (round q).map (- ·) := by
  unfold round
  by_cases h : q = 0
  · subst h; simp
  · simp only [neg_eq_zero, h, if_false, Rat.num_neg_eq_neg_num, Int.natAbs_neg, Rat.den_neg_eq_den, Left.neg_pos_iff]
    rcases lt_or_gt_of_ne h with h1 | h1
    · simp only [h1, if_true, not_lt.2 h1.le, if_false]
      split <;> simp
    · simp only [h1, if_true, not_lt.2 h1.le, if_false]
      split <;> simp

/-- A positive number that is neither tiny nor huge keeps 53 bits. -/
theorem round_pos {d : ℚ} (h0 : (2 : ℚ) ^ (-1022 : ℤ) ≤ d) (h1 : d ≤ 10 ^ 300) :
    ∃ r, round d = some r ∧ |r - d| ≤ d / 2 ^ 53 := by
  have hd : 0 < d := lt_of_lt_of_le (by positivity) h0
  have ha : 0 < d.num.natAbs := by
    have := Rat.num_pos.2 hd
    omega
  obtain ⟨n, e1, e2, e3⟩ := roundMag_spec d.num.natAbs d.den d.den_pos
  have hu := ulpExp_spec d.num.natAbs d.den ha d.den_pos
  rw [natAbs_div hd] at e2 e3 hu
  set u := ulpExp d.num.natAbs d.den
  have hp : (0 : ℚ) < 2 ^ u := by positivity
  have hlow : (2 : ℚ) ^ (u + 52) ≤ d := by
    rcases hu.2.2 with h | h
    · rw [h]
      exact h0
    · exact h
  have hunit : (2 : ℚ) ^ u / 2 ≤ d / 2 ^ 53 := by
    have : (2 : ℚ) ^ (u + 52) = 2 ^ u * 2 ^ 52 := by
      rw [zpow_add₀ (by norm_num)]
      norm_cast
    rw [this] at hlow
    rw [div_le_div_iff₀ (by norm_num) (by norm_num)]
    linarith
  have hr : |roundMag d.num.natAbs d.den - d| ≤ d / 2 ^ 53 := by
    refine le_trans ?_ hunit
    rw [e1, abs_le]
    have e4 : d = d / 2 ^ u * 2 ^ u := by field_simp
    constructor
    · have := mul_le_mul_of_nonneg_right e2 hp.le
      rw [sub_mul, ← e4] at this
      linarith
    · have := mul_le_mul_of_nonneg_right e3 hp.le
      rw [add_mul, ← e4] at this
      linarith
  refine ⟨_, ?_, hr⟩
  unfold round
  rw [if_neg hd.ne']
  dsimp only
  rw [if_neg, if_pos hd]
  rw [F32.pow2_eq, not_le]
  have h2 := (abs_le.1 hr).2
  have h3 : d / 2 ^ 53 ≤ d := div_le_self hd.le (by norm_num)
  refine lt_of_le_of_lt (by linarith : _ ≤ (2 : ℚ) * d) ?_
  refine lt_of_le_of_lt (mul_le_mul_of_nonneg_left h1 (by norm_num)) ?_
  have h4 : ((10 : ℚ) ^ 3) ^ 100 < (2 ^ 10) ^ 100 := pow_lt_pow_left₀ (by norm_num) (by norm_num) (by norm_num)
  have h5 : (2 : ℚ) ^ (1024 : ℤ) = (2 ^ 10) ^ 100 * 2 ^ 24 := by
    rw [show (1024 : ℤ) = ((10 * 100 + 24 : ℕ) : ℤ) by norm_num, zpow_natCast, pow_add, pow_mul]
  rw [← pow_mul] at h4
  rw [h5]
  have h6 : (0 : ℚ) < (2 ^ 10) ^ 100 := by positivity
  generalize ((2 : ℚ) ^ 10) ^ 100 = z at *
  rw [show 3 * 100 = 300 by norm_num] at h4
  generalize (10 : ℚ) ^ 300 = y at *
  linarith

end Sol.F64
