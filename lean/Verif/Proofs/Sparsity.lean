import Verif.Model.Sparsity
import Verif.Spec.Sparsity
import Verif.Proofs.F64
/-! Rounding of numbers between 0 and 1, and counting zeros. -/

namespace Sol.Sparsity

open Sol.F32 Sol.Spec

/-- A number between 0 and 1 is rounded to one, by at most `2^-25`. -/
theorem unit_round {y : ℚ} (h0 : 0 ≤ y) (h1 : y ≤ 1) : ∃ f, F32.round y = fin f ∧ 0 ≤ f ∧ f ≤ 1 ∧ |f - y| ≤ 1 / 2 ^ 25 := by
  rcases h0.eq_or_lt with h | h
  · exact ⟨0, by rw [← h]; rfl, le_refl _, zero_le_one, by rw [← h]; norm_num⟩
  rcases h1.eq_or_lt with h' | h'
  · exact ⟨1, by rw [h']; decide +kernel, zero_le_one, le_refl _, by rw [h']; norm_num⟩
  have ha : 0 < y.num.natAbs := by have := Rat.num_pos.2 h; omega
  have hle := ulpExp_le y.num.natAbs y.den ha y.den_pos (by rw [F64.natAbs_div h]; linarith)
  have hb := (roundMag_between y.num.natAbs y.den y.den_pos hle 1).2 (by rw [F64.natAbs_div h]; simpa using h1)
  obtain ⟨n, e1, e2, e3⟩ := roundMag_spec y.num.natAbs y.den y.den_pos
  obtain ⟨u1, u2, u3⟩ := ulpExp_spec y.num.natAbs y.den ha y.den_pos
  rw [F64.natAbs_div h] at e2 e3 u2 u3
  have hu : ulpExp y.num.natAbs y.den ≤ -24 := by
    rcases u3 with h3 | h3
    · omega
    · by_contra hlt
      have : (2 : ℚ) ^ (0 : ℤ) ≤ 2 ^ (ulpExp y.num.natAbs y.den + 23) := zpow_le_zpow_right₀ (by norm_num) (by omega)
      rw [zpow_zero] at this
      linarith
  set u := ulpExp y.num.natAbs y.den
  have hp : (0 : ℚ) < 2 ^ u := by positivity
  have hunit : (2 : ℚ) ^ u / 2 ≤ 1 / 2 ^ 25 := by
    have : (2 : ℚ) ^ u ≤ 2 ^ (-24 : ℤ) := zpow_le_zpow_right₀ (by norm_num) hu
    have e : (2 : ℚ) ^ (-24 : ℤ) = 1 / 2 ^ 24 := by norm_num
    rw [e] at this
    linarith
  refine ⟨_, round_pos y h (lt_of_le_of_lt hb (by norm_num)), by rw [e1]; positivity, by simpa using hb, ?_⟩
  refine le_trans ?_ hunit
  rw [e1, abs_le]
  have e4 : y = y / 2 ^ u * 2 ^ u := by field_simp
  constructor
  · have := mul_le_mul_of_nonneg_right e2 hp.le
    rw [sub_mul, ← e4] at this
    linarith
  · have := mul_le_mul_of_nonneg_right e3 hp.le
    rw [add_mul, ← e4] at this
    linarith

/-- The share of `n` things among `d`. -/
theorem share_value {n d : Nat} (hd : 0 < d) (hn : n ≤ d) (hb : d < 4294967296) :
    ∃ f, share n d = fin f ∧ 0 ≤ f ∧ f ≤ 1 ∧ |f - n / d| ≤ 1 / 2 ^ 24 := by
  have hd' : (0 : ℚ) < d := by exact_mod_cast hd
  unfold share
  rw [if_neg hd.ne']
  rcases Nat.eq_zero_or_pos n with rfl | hn0
  · exact ⟨0, by simp only [Nat.cast_zero, zero_div]; rfl, le_refl _, zero_le_one, by simp⟩
  rcases hn.eq_or_lt with rfl | hlt
  · refine ⟨1, ?_, zero_le_one, le_refl _, by rw [div_self hd'.ne']; norm_num⟩
    rw [div_self hd'.ne']
    decide +kernel
  have hn' : (1 : ℚ) ≤ n := by exact_mod_cast hn0
  have hb' : (d : ℚ) ≤ 2 ^ 32 := by
    have : d ≤ 2 ^ 32 := by omega
    exact_mod_cast this
  have q0 : (1 : ℚ) / 2 ^ 32 ≤ n / d := by
    rw [div_le_div_iff₀ (by norm_num) hd']
    nlinarith
  have q1 : (n : ℚ) / d ≤ 1 - 1 / 2 ^ 32 := by
    have : (n : ℚ) + 1 ≤ d := by exact_mod_cast hlt
    have h2 : (1 : ℚ) / 2 ^ 32 ≤ 1 / d := one_div_le_one_div_of_le hd' hb'
    have h3 : (n : ℚ) / d ≤ (d - 1) / d := div_le_div_of_nonneg_right (by linarith) hd'.le
    have h4 : ((d : ℚ) - 1) / d = 1 - 1 / d := by field_simp
    linarith
  have hlow : (2 : ℚ) ^ (-1022 : ℤ) ≤ n / d := by
    refine le_trans ?_ q0
    have : (2 : ℚ) ^ (-1022 : ℤ) ≤ 2 ^ (-32 : ℤ) := zpow_le_zpow_right₀ (by norm_num) (by norm_num)
    have e : (2 : ℚ) ^ (-32 : ℤ) = 1 / 2 ^ 32 := by norm_num
    rwa [e] at this
  have hhigh : (n : ℚ) / d ≤ 10 ^ 300 := by
    refine le_trans ?_ (one_le_pow₀ (by norm_num : (1 : ℚ) ≤ 10))
    have : (0 : ℚ) ≤ 1 / 2 ^ 32 := by positivity
    linarith
  obtain ⟨r, hr, hr2⟩ := F64.round_pos hlow hhigh
  rw [hr]
  have hr3 := abs_le.1 hr2
  have hq : (n : ℚ) / d / 2 ^ 53 ≤ 1 / 2 ^ 53 := div_le_div_of_nonneg_right (by linarith) (by norm_num)
  obtain ⟨f, f1, f2, f3, f4⟩ := unit_round (y := r) (by norm_num at *; linarith) (by norm_num at *; linarith)
  refine ⟨f, f1, f2, f3, ?_⟩
  have h5 := abs_sub_le f r (n / d)
  norm_num at *
  linarith

/-- One minus a share. -/
theorem rest_value {f q : ℚ} (h0 : 0 ≤ f) (h1 : f ≤ 1) (h : |f - q| ≤ 1 / 2 ^ 24) :
    ∃ v, (1 - fin f : F32) = fin v ∧ 0 ≤ v ∧ v ≤ 1 ∧ |v - (1 - q)| ≤ 1 / 2 ^ 23 := by
  have e : (1 - fin f : F32) = F32.round (1 + -f) := rfl
  obtain ⟨v, v1, v2, v3, v4⟩ := unit_round (y := 1 + -f) (by linarith) (by linarith)
  refine ⟨v, by rw [e, v1], v2, v3, ?_⟩
  have h2 := abs_le.1 h
  have h3 := abs_le.1 v4
  rw [abs_le]
  norm_num at *
  constructor <;> linarith

theorem zero_test (a : F32) : (a =? 0) = decide (a = 0) := by cases a <;> rfl

theorem nonZero_eq (w : List (List F32)) : nonZero w = (allWeights w).countP fun a => !decide (a = 0) := by
  unfold nonZero allWeights
  induction w with
  | nil => rfl
  | cons v w ih =>
    simp only [List.map_cons, List.sum_cons, List.flatten_cons, List.countP_append, List.drop_one, zero_test, List.countP_eq_length_filter] at ih ⊢
    rw [ih, List.filter_append, List.length_append]

theorem nonZero_add (w : List (List F32)) : nonZero w + (allWeights w).count 0 = (allWeights w).length := by
  rw [nonZero_eq]
  generalize allWeights w = l
  induction l with
  | nil => rfl
  | cons a l ih =>
    rw [List.countP_cons, List.count_cons, List.length_cons]
    by_cases h : a = 0
    · simp only [h, decide_true, Bool.not_true, Bool.false_eq_true, if_false, beq_self_eq_true, if_true]
      omega
    · simp only [h, decide_false, Bool.not_false, if_true, beq_iff_eq, if_false]
      omega

theorem allWeights_length {w : List (List F32)} {clf dim : Nat} (h : w.length = clf) (hd : ∀ v ∈ w, v.length = dim) :
    (allWeights w).length = clf * (dim - 1) := by
  unfold allWeights
  subst h
  induction w with
  | nil => simp
  | cons v w ih =>
    rw [List.map_cons, List.flatten_cons, List.length_append, ih fun v hv => hd v (List.mem_cons_of_mem _ hv), List.length_tail,
      hd v List.mem_cons_self, List.length_cons]
    ring

end Sol.Sparsity
