import Verif.Base.F32
import Mathlib.Tactic.Linarith
import Mathlib.Tactic.Positivity
import Mathlib.Tactic.FieldSimp
import Mathlib.Tactic.Ring
import Mathlib.Algebra.Order.Field.Power
/-! Rounding to binary32: the result is nearest, and integers up to 2^24 are exact. -/

namespace Sol.F32

theorem pow2_eq (e : Int) : pow2 e = (2 : Rat) ^ e := by
  unfold pow2
  split
  · rename_i h
    obtain ⟨n, rfl⟩ := Int.eq_ofNat_of_zero_le h
    simp
  · rename_i h
    obtain ⟨n, hn⟩ := Int.eq_ofNat_of_zero_le (show 0 ≤ -e by omega)
    obtain rfl : e = -(n : Int) := by omega
    simp [zpow_neg]

theorem divRound_near (a b : Nat) (hb : 0 < b) :
    (a : Rat) / b - 1 / 2 ≤ divRound a b ∧ (divRound a b : Rat) ≤ (a : Rat) / b + 1 / 2 := by
  have hb' : (0 : Rat) < b := by exact_mod_cast hb
  have key : ∀ n : Nat, 2 * a ≤ 2 * (n * b) + b → 2 * (n * b) ≤ 2 * a + b →
      (a : Rat) / b - 1 / 2 ≤ n ∧ (n : Rat) ≤ (a : Rat) / b + 1 / 2 := by
    intro n h1 h2
    have h1' : (2 : Rat) * a ≤ 2 * (n * b) + b := by exact_mod_cast h1
    have h2' : (2 : Rat) * (n * b) ≤ 2 * a + b := by exact_mod_cast h2
    constructor
    · rw [sub_le_iff_le_add, div_le_iff₀ hb']
      linarith
    · rw [← sub_le_iff_le_add, le_div_iff₀ hb']
      linarith
  have hd := Nat.div_add_mod a b
  have hm := Nat.mod_lt a hb
  have hq : a / b * b = b * (a / b) := Nat.mul_comm _ _
  have hq1 : (a / b + 1) * b = b * (a / b) + b := by rw [Nat.add_mul, hq, Nat.one_mul]
  unfold divRound
  dsimp only
  split
  · apply key <;> omega
  · split
    · apply key <;> omega
    · split <;> apply key <;> omega

theorem divRound_exact (n b : Nat) (hb : 0 < b) : divRound (n * b) b = n := by
  unfold divRound
  simp [Nat.mul_div_cancel _ hb, hb]

/-- The unit fits the size of the number. -/
theorem ulpExp_spec (a b : Nat) (ha : 0 < a) (hb : 0 < b) :
    -149 ≤ ulpExp a b ∧ (a : Rat) / b < 2 ^ (ulpExp a b + 24) ∧
      (ulpExp a b = -149 ∨ (2 : Rat) ^ (ulpExp a b + 23) ≤ (a : Rat) / b) := by
  have hb' : (0 : Rat) < b := by exact_mod_cast hb
  have a1 : (2 : Rat) ^ (a.log2 : Int) ≤ a := by
    rw [zpow_natCast]; exact_mod_cast Nat.log2_self_le ha.ne'
  have a2 : (a : Rat) < 2 ^ ((a.log2 : Int) + 1) := by
    have h : a < 2 ^ (a.log2 + 1) := Nat.lt_log2_self
    have : ((a.log2 : Int) + 1) = ((a.log2 + 1 : Nat) : Int) := by push_cast; ring
    rw [this, zpow_natCast]; exact_mod_cast h
  have b1 : (2 : Rat) ^ (b.log2 : Int) ≤ b := by
    rw [zpow_natCast]; exact_mod_cast Nat.log2_self_le hb.ne'
  have b2 : (b : Rat) < 2 ^ ((b.log2 : Int) + 1) := by
    have h : b < 2 ^ (b.log2 + 1) := Nat.lt_log2_self
    have : ((b.log2 : Int) + 1) = ((b.log2 + 1 : Nat) : Int) := by push_cast; ring
    rw [this, zpow_natCast]; exact_mod_cast h
  have two : (2 : Rat) ≠ 0 := by norm_num
  generalize hla : ((a.log2 : Nat) : Int) = la at *
  generalize hlb : ((b.log2 : Nat) : Int) = lb at *
  have up : (a : Rat) / b < 2 ^ (la - lb + 1) := by
    rw [div_lt_iff₀ hb']
    calc (a : Rat) < 2 ^ (la + 1) := a2
      _ = 2 ^ (la - lb + 1) * 2 ^ lb := by rw [← zpow_add₀ two]; congr 1; ring
      _ ≤ 2 ^ (la - lb + 1) * b := by gcongr
  have low : (2 : Rat) ^ (la - lb - 1) ≤ (a : Rat) / b := by
    rw [le_div_iff₀ hb']
    calc (2 : Rat) ^ (la - lb - 1) * b ≤ 2 ^ (la - lb - 1) * 2 ^ (lb + 1) := by gcongr
      _ = 2 ^ la := by rw [← zpow_add₀ two]; congr 1; ring
      _ ≤ a := a1
  have hsub : ∀ e : Int, (a : Rat) / b < 2 ^ (e + 24) → (2 : Rat) ^ (e + 23) ≤ (a : Rat) / b →
      -149 ≤ max e (-149) ∧ (a : Rat) / b < 2 ^ (max e (-149) + 24) ∧
      (max e (-149) = -149 ∨ (2 : Rat) ^ (max e (-149) + 23) ≤ (a : Rat) / b) := by
    intro e h1 h2
    refine ⟨le_max_right _ _, lt_of_lt_of_le h1 (zpow_le_zpow_right₀ (by norm_num) (by omega)), ?_⟩
    rcases le_total e (-149) with h | h
    · exact .inl (max_eq_right h)
    · exact .inr (by rwa [max_eq_left h])
  unfold ulpExp
  dsimp only
  rw [pow2_eq, hla, hlb]
  split
  · rename_i h
    apply hsub
    · rw [div_lt_iff₀ hb', mul_comm]
      rw [show la - lb - 23 - 1 + 24 = la - lb - 23 + 23 by ring]
      exact h
    · rw [show la - lb - 23 - 1 + 23 = la - lb - 1 by ring]
      exact low
  · rename_i h
    apply hsub
    · rw [show la - lb - 23 + 24 = la - lb + 1 by ring]
      exact up
    · rw [le_div_iff₀ hb', mul_comm]
      exact not_lt.1 h

/-- The magnitude is a multiple of the unit, at most half a unit away. -/
theorem roundMag_spec (a b : Nat) (hb : 0 < b) : ∃ n : Nat, roundMag a b = n * (2 : Rat) ^ ulpExp a b ∧
    (a : Rat) / b / 2 ^ ulpExp a b - 1 / 2 ≤ n ∧ (n : Rat) ≤ (a : Rat) / b / 2 ^ ulpExp a b + 1 / 2 := by
  have hb' : (b : Rat) ≠ 0 := by exact_mod_cast hb.ne'
  unfold roundMag
  dsimp only
  rw [pow2_eq]
  set e := ulpExp a b
  refine ⟨_, rfl, ?_⟩
  split
  · rename_i h
    obtain ⟨n, hn⟩ := Int.eq_ofNat_of_zero_le h
    have e1 : (a : Rat) / b / 2 ^ e = (a : Rat) / ((b * 2 ^ e.toNat : Nat) : Rat) := by
      rw [hn]; simp only [Int.toNat_natCast, zpow_natCast]; push_cast; rw [div_div]
    rw [e1]
    exact divRound_near _ _ (by positivity)
  · rename_i h
    obtain ⟨n, hn⟩ := Int.eq_ofNat_of_zero_le (show 0 ≤ -e by omega)
    have he : e = -(n : Int) := by omega
    have e1 : (a : Rat) / b / 2 ^ e = ((a * 2 ^ (-e).toNat : Nat) : Rat) / b := by
      rw [he]; simp only [neg_neg, Int.toNat_natCast, zpow_neg, zpow_natCast]; push_cast; field_simp
    rw [e1]
    exact divRound_near _ _ hb

/-- A natural number below a number smaller than 2^24 stays below, and one above stays above. -/
theorem roundMag_between (a b : Nat) (hb : 0 < b) (hlt : ulpExp a b ≤ 0) (m : Nat) :
    ((m : Rat) ≤ (a : Rat) / b → (m : Rat) ≤ roundMag a b) ∧ ((a : Rat) / b ≤ m → roundMag a b ≤ m) := by
  obtain ⟨n, h1, h2, h3⟩ := roundMag_spec a b hb
  obtain ⟨k, hk⟩ := Int.eq_ofNat_of_zero_le (show 0 ≤ -ulpExp a b by omega)
  have he : ulpExp a b = -(k : Int) := by omega
  have hu : (0 : Rat) < 2 ^ k := by positivity
  rw [he, zpow_neg, zpow_natCast] at h1 h2 h3
  rw [div_inv_eq_mul] at h2 h3
  rw [h1]
  constructor
  · intro h
    rw [← div_eq_mul_inv, le_div_iff₀ hu]
    have : ((m * 2 ^ k : Nat) : Rat) ≤ (a : Rat) / b * 2 ^ k := by push_cast; gcongr
    have h4 : ((m * 2 ^ k : Nat) : Rat) < ((n + 1 : Nat) : Rat) := by push_cast at *; linarith
    have h5 : m * 2 ^ k < n + 1 := by exact_mod_cast h4
    exact_mod_cast (by omega : m * 2 ^ k ≤ n)
  · intro h
    rw [← div_eq_mul_inv, div_le_iff₀ hu]
    have : (a : Rat) / b * 2 ^ k ≤ ((m * 2 ^ k : Nat) : Rat) := by push_cast; gcongr
    have h4 : (n : Rat) < ((m * 2 ^ k + 1 : Nat) : Rat) := by push_cast at *; linarith
    have h5 : n < m * 2 ^ k + 1 := by exact_mod_cast h4
    exact_mod_cast (by omega : n ≤ m * 2 ^ k)

theorem ulpExp_le (a b : Nat) (ha : 0 < a) (hb : 0 < b) (h : (a : Rat) / b < 2 ^ 24) : ulpExp a b ≤ 0 := by
  obtain ⟨h1, h2, h3⟩ := ulpExp_spec a b ha hb
  rcases h3 with h3 | h3
  · omega
  · by_contra hlt
    have : (2 : Rat) ^ ((1 : Int) + 23) ≤ 2 ^ (ulpExp a b + 23) := zpow_le_zpow_right₀ (by norm_num) (by omega)
    have h4 : (2 : Rat) ^ ((1 : Int) + 23) = 2 ^ 24 := by norm_num
    rw [h4] at this
    linarith

theorem roundMag_nat (m b : Nat) (hm : 0 < m) (hb : 0 < b) (h : m < 2 ^ 24) : roundMag (m * b) b = m := by
  have hb' : (b : Rat) ≠ 0 := by exact_mod_cast hb.ne'
  have e : ((m * b : Nat) : Rat) / b = m := by push_cast; field_simp
  have hlt := ulpExp_le (m * b) b (Nat.mul_pos hm hb) hb (by rw [e]; exact_mod_cast h)
  obtain ⟨h1, h2⟩ := roundMag_between (m * b) b hb hlt m
  exact le_antisymm (h2 e.le) (h1 e.ge)

/-- The smallest number with a given unit is not undercut. -/
theorem roundMag_ge (a b : Nat) (ha : 0 < a) (hb : 0 < b) (h : (2 : Rat) ^ 24 ≤ (a : Rat) / b) :
    ∃ N : Nat, roundMag a b = N ∧ 2 ^ 24 ≤ N := by
  obtain ⟨n, h1, h2, h3⟩ := roundMag_spec a b hb
  obtain ⟨g1, g2, g3⟩ := ulpExp_spec a b ha hb
  have hpos : 1 ≤ ulpExp a b := by
    by_contra hlt
    have : (2 : Rat) ^ (ulpExp a b + 24) ≤ 2 ^ (24 : Int) := zpow_le_zpow_right₀ (by norm_num) (by omega)
    have h4 : (2 : Rat) ^ (24 : Int) = 2 ^ 24 := by norm_num
    rw [h4] at this
    linarith
  rcases g3 with g3 | g3
  · omega
  obtain ⟨k, hk⟩ := Int.eq_ofNat_of_zero_le (show 0 ≤ ulpExp a b - 1 by omega)
  have he : ulpExp a b = ((k + 1 : Nat) : Int) := by push_cast; omega
  have hn : 2 ^ 23 ≤ n := by
    have hu : (0 : Rat) < 2 ^ ulpExp a b := by positivity
    have : (2 : Rat) ^ 23 ≤ (a : Rat) / b / 2 ^ ulpExp a b := by
      rw [le_div_iff₀ hu]
      refine le_trans (le_of_eq ?_) g3
      rw [zpow_add₀ (by norm_num), mul_comm]
      norm_num
    have h5 : ((2 ^ 23 : Nat) : Rat) < ((n + 1 : Nat) : Rat) := by push_cast; linarith
    have h6 : 2 ^ 23 < n + 1 := by exact_mod_cast h5
    omega
  refine ⟨n * 2 ^ (k + 1), ?_, ?_⟩
  · rw [h1, he, zpow_natCast]; push_cast; ring
  · calc 2 ^ 24 = 2 ^ 23 * 2 := by norm_num
      _ ≤ n * 2 ^ (k + 1) := Nat.mul_le_mul hn (by rw [Nat.pow_succ]; exact Nat.le_mul_of_pos_left _ (by positivity))

/-- Quotients of numbers up to 2^24 are not rounded down to a whole number. -/
theorem roundMag_floor (a b : Nat) (ha : 0 < a) (hb : 0 < b) (h : a ≤ 2 ^ 24) (hb2 : b ≤ 2 ^ 100) (hr : a % b ≠ 0) :
    ((a / b : Nat) : Rat) < roundMag a b := by
  have hb' : (0 : Rat) < b := by exact_mod_cast hb
  have hb1 : 2 ≤ b := by
    rcases Nat.lt_or_ge b 2 with h | h
    · obtain rfl : b = 1 := by omega
      simp [Nat.mod_one] at hr
    · exact h
  have hq : (a : Rat) / b < 2 ^ 24 := by
    rw [div_lt_iff₀ hb']
    have h1 : a < 2 ^ 24 * b := by omega
    exact_mod_cast h1
  have hlt := ulpExp_le a b ha hb hq
  obtain ⟨g1, g2, g3⟩ := ulpExp_spec a b ha hb
  have hlo : (2 : Rat) ^ (ulpExp a b + 23) ≤ (a : Rat) / b := by
    rcases g3 with g3 | g3
    · exfalso
      rw [g3, div_lt_iff₀ hb'] at g2
      have h1 : (b : Rat) ≤ 2 ^ 100 := by exact_mod_cast hb2
      have h2 : (1 : Rat) ≤ a := by exact_mod_cast ha
      have h3 : (2 : Rat) ^ ((-149 : Int) + 24) * b ≤ 2 ^ ((-149 : Int) + 24) * 2 ^ 100 := by gcongr
      have h4 : (2 : Rat) ^ ((-149 : Int) + 24) * 2 ^ 100 < 1 := by norm_num
      linarith
    · exact g3
  have hle : ((a / b : Nat) : Rat) ≤ (a : Rat) / b := by
    rw [le_div_iff₀ hb']
    exact_mod_cast Nat.div_mul_le_self a b
  refine lt_of_le_of_ne ((roundMag_between a b hb hlt _).1 hle) fun heq => ?_
  obtain ⟨n, h1, h2, h3⟩ := roundMag_spec a b hb
  obtain ⟨k, hk⟩ := Int.eq_ofNat_of_zero_le (show 0 ≤ -ulpExp a b by omega)
  have he : ulpExp a b = -(k : Int) := by omega
  have hu : (0 : Rat) < 2 ^ k := by positivity
  rw [he, zpow_neg, zpow_natCast] at h1 h2
  rw [div_inv_eq_mul] at h2
  -- the result is the whole part
  have e1 : n = a / b * 2 ^ k := by
    rw [h1, ← div_eq_mul_inv, eq_div_iff hu.ne'] at heq
    exact_mod_cast heq.symm
  -- the rest is at most half a unit
  have e2 : 2 * (a % b) * 2 ^ k ≤ b := by
    have h4 : (a : Rat) / b * 2 ^ k ≤ n + 1 / 2 := by linarith
    rw [div_mul_eq_mul_div, div_le_iff₀ hb', e1] at h4
    have h5 : ((2 * (a * 2 ^ k) : Nat) : Rat) ≤ ((2 * (a / b * 2 ^ k) * b + b : Nat) : Rat) := by push_cast at *; linarith
    have h6 : 2 * (a * 2 ^ k) ≤ 2 * (a / b * 2 ^ k) * b + b := by exact_mod_cast h5
    have h7 : a * 2 ^ k = (a / b * 2 ^ k) * b + a % b * 2 ^ k := by
      conv_lhs => rw [← Nat.div_add_mod a b]
      ring
    have h8 : 2 * (a % b) * 2 ^ k = 2 * (a % b * 2 ^ k) := by ring
    have h9 : 2 * (a / b * 2 ^ k) * b = 2 * ((a / b * 2 ^ k) * b) := by ring
    omega
  -- and the unit is at most 2 / b
  have e3 : b ≤ 2 * 2 ^ k := by
    rw [he, le_div_iff₀ hb', zpow_add₀ (by norm_num), zpow_neg, zpow_natCast, mul_assoc, inv_mul_le_iff₀ hu] at hlo
    have h5 : ((2 ^ 23 * b : Nat) : Rat) ≤ ((2 ^ k * a : Nat) : Rat) := by push_cast; exact_mod_cast hlo
    have h6 : 2 ^ 23 * b ≤ 2 ^ k * a := by exact_mod_cast h5
    have h7 : 2 ^ k * a ≤ 2 ^ k * 2 ^ 24 := Nat.mul_le_mul_left _ h
    have h8 : 2 ^ k * 2 ^ 24 = 2 ^ 23 * (2 * 2 ^ k) := by ring
    exact Nat.le_of_mul_le_mul_left (by omega : 2 ^ 23 * b ≤ 2 ^ 23 * (2 * 2 ^ k)) (by norm_num)
  have e4 : a % b = 1 := by
    have : 1 ≤ a % b := Nat.pos_of_ne_zero hr
    have h5 : a % b * (2 * 2 ^ k) = 2 * (a % b) * 2 ^ k := by ring
    have h6 : a % b * (2 * 2 ^ k) ≤ 1 * (2 * 2 ^ k) := by omega
    have := Nat.le_of_mul_le_mul_right h6 (by positivity)
    omega
  have e5 : b = 2 * 2 ^ k := by rw [e4] at e2; omega
  have e6 : a = 2 ^ 24 := by
    rw [he, le_div_iff₀ hb', zpow_add₀ (by norm_num), zpow_neg, zpow_natCast, mul_assoc, inv_mul_le_iff₀ hu, e5] at hlo
    have h5 : ((2 ^ 23 * (2 * 2 ^ k) : Nat) : Rat) ≤ ((2 ^ k * a : Nat) : Rat) := by push_cast at *; exact_mod_cast hlo
    have h6 : 2 ^ 23 * (2 * 2 ^ k) ≤ 2 ^ k * a := by exact_mod_cast h5
    have h7 : 2 ^ 23 * (2 * 2 ^ k) = 2 ^ k * 2 ^ 24 := by ring
    have := Nat.le_of_mul_le_mul_left (by omega : 2 ^ k * 2 ^ 24 ≤ 2 ^ k * a) (by positivity)
    omega
  have h7 := Nat.div_add_mod a b
  have h8 : a % 2 = 1 := by
    rw [← h7, e4, e5, Nat.mul_assoc]
    omega
  omega

/-- Rounding a positive number. -/
theorem round_pos (q : Rat) (hq : 0 < q) (h : roundMag q.num.natAbs q.den < 2 ^ 128) :
    round q = fin (roundMag q.num.natAbs q.den) := by
  unfold round
  rw [if_neg hq.ne']
  dsimp only
  rw [if_neg (by rw [pow2_eq, not_le]; exact_mod_cast h), if_pos hq]

/-- Whole numbers up to 2^24 are exact. -/
theorem round_nat (n : Nat) (h : n ≤ 2 ^ 24) : round n = fin n := by
  rcases Nat.eq_zero_or_pos n with rfl | hn
  · rfl
  have e : roundMag n 1 = n := by
    rcases Nat.lt_or_ge n (2 ^ 24) with h | h'
    · simpa using roundMag_nat n 1 hn (by norm_num) h
    · obtain rfl : n = 2 ^ 24 := le_antisymm h h'
      decide +kernel
  have hl : (n : Rat) < 2 ^ 128 := by
    have : n < 2 ^ 128 := lt_of_le_of_lt h (by norm_num)
    exact_mod_cast this
  rw [round_pos _ (by exact_mod_cast hn) (by simpa [e] using hl)]
  simp [e]

end Sol.F32
