import Verif.Proofs.Save
/-! Printing a number that was printed and read: the text is the same again. -/

namespace Sol.FloatText
open Sol.Text Sol.TextWriters Sol.Spec Sol.Props Sol.Params

theorem log10_eq {r : ℚ} {x : Int} (h1 : (10 : ℚ) ^ x ≤ r) (h2 : r < (10 : ℚ) ^ (x + 1)) : Int.log 10 r = x := by
  have h0 : 0 < r := lt_of_lt_of_le (by positivity) h1
  have a := (Int.zpow_le_iff_le_log (b := 10) (by norm_num) h0).1 (by exact_mod_cast h1)
  have b := (Int.lt_zpow_iff_log_lt (b := 10) (by norm_num) h0).1 (by exact_mod_cast h2)
  omega

theorem nearest_eq {q : ℚ} {n : Nat} (hq : 0 ≤ q) (h1 : (n : ℚ) - 1 / 2 < q) (h2 : q < n + 1 / 2) : nearest q = n := by
  refine le_antisymm (nearest_le hq h2) ?_
  obtain ⟨h, _⟩ := nearest_spec hq
  have : (n : ℚ) < ((nearest q + 1 : Nat) : ℚ) := by
    push_cast
    linarith
  have : n < nearest q + 1 := by exact_mod_cast this
  omega

/-- The six digits of a positive number. -/
theorem six_pos {q : ℚ} (hq : 0 < q) : ∃ N x, six q = .num false N x ∧ six (-q) = .num true N x ∧ 10 ^ 5 ≤ N ∧ N < 10 ^ 6 ∧
    gRat (six q) = (N : ℚ) * 10 ^ (x - 5) := by
  obtain ⟨x', N', e, hN, h1, h2, h3, h4, _⟩ := six_spec hq.ne'
  rw [abs_of_pos hq] at h1 h2 hN
  have hx : Int.log 10 q = x' := log10_eq h1 h2
  rw [if_neg (by linarith), one_mul] at e
  have s1 : six q = if N' = 1000000 then .num false 100000 (x' + 1) else .num false N' x' := by
    unfold six
    rw [if_neg hq.ne']
    dsimp only
    rw [abs_of_pos hq, hx, ← hN, decide_eq_false (not_lt.2 hq.le)]
  have s2 : six (-q) = if N' = 1000000 then .num true 100000 (x' + 1) else .num true N' x' := by
    unfold six
    rw [if_neg (by linarith)]
    dsimp only
    rw [abs_neg, abs_of_pos hq, hx, ← hN]
    simp [hq]
  by_cases hm : N' = 1000000
  · rw [if_pos hm] at s1 s2
    refine ⟨_, _, s1, s2, by norm_num, by norm_num, ?_⟩
    rw [e, hm, show x' + 1 - 5 = 1 + (x' - 5) by ring, zpow_add₀ (by norm_num), zpow_one]
    push_cast
    ring
  · rw [if_neg hm] at s1 s2
    exact ⟨_, _, s1, s2, h3, by norm_num at h4 ⊢; omega, e⟩

/-- Numbers very near to a number of six digits have these digits. -/
theorem six_near {r d : ℚ} {N : Nat} {x : Int} (hd : d = (N : ℚ) * 10 ^ (x - 5)) (h1 : 10 ^ 5 ≤ N) (h2 : N < 10 ^ 6)
    (hr : |r - d| ≤ d * (4 / 10 ^ 7)) : 0 < r ∧ six r = .num false N x := by
  have hp : (0 : ℚ) < 10 ^ (x - 5) := by positivity
  have n1 : (100000 : ℚ) ≤ N := by exact_mod_cast h1
  have n2 : (N : ℚ) ≤ 999999 := by
    have : N ≤ 999999 := by omega
    exact_mod_cast this
  set u : ℚ := 10 ^ (x - 5) with hu
  have ex : (10 : ℚ) ^ x = 100000 * u := by
    rw [hu, show x = 5 + (x - 5) by ring, zpow_add₀ (by norm_num)]
    norm_num
  have ex1 : (10 : ℚ) ^ (x + 1) = 1000000 * u := by
    rw [hu, show x + 1 = 6 + (x - 5) by ring, zpow_add₀ (by norm_num)]
    norm_num
  have ei : (10 : ℚ) ^ (5 - x) = 1 / u := by
    rw [hu, show 5 - x = -(x - 5) by ring, zpow_neg, one_div]
  rw [abs_le] at hr
  have hN : (0 : ℚ) < N := by linarith
  have hdp : d ≤ 1000000 * u := by
    rw [hd]
    exact mul_le_mul_of_nonneg_right (by linarith) hp.le
  have b1 : d * (4 / 10 ^ 7) ≤ 4 / 10 * u := by
    linarith
  have hr1 : (N - 4 / 10) * u ≤ r := by linarith [hr.1]
  have hr2 : r ≤ (N + 4 / 10) * u := by linarith [hr.2]
  have h0 : 0 < r := lt_of_lt_of_le (by
    apply mul_pos _ hp
    linarith) hr1
  refine ⟨h0, ?_⟩
  by_cases hlow : (10 : ℚ) ^ x ≤ r
  · have hlt : r < (10 : ℚ) ^ (x + 1) := by
      rw [ex1]
      refine lt_of_le_of_lt hr2 (mul_lt_mul_of_pos_right (by linarith) hp)
    have hnear : nearest (r * 10 ^ (5 - x)) = N := by
      rw [ei, mul_one_div]
      refine nearest_eq (by positivity) ?_ ?_
      · rw [lt_div_iff₀ hp]
        refine lt_of_lt_of_le ?_ hr1
        exact mul_lt_mul_of_pos_right (by linarith) hp
      · rw [div_lt_iff₀ hp]
        refine lt_of_le_of_lt hr2 ?_
        exact mul_lt_mul_of_pos_right (by linarith) hp
    unfold six
    rw [if_neg h0.ne']
    dsimp only
    rw [abs_of_pos h0, log10_eq hlow hlt, hnear, if_neg (by omega)]
    simp [h0.le]
  · push Not at hlow
    have hN5 : N = 100000 := by
      have : (N : ℚ) < 100001 := by
        by_contra hc
        push Not at hc
        have : (100000 : ℚ) * u < (N - 4 / 10) * u := mul_lt_mul_of_pos_right (by linarith) hp
        rw [ex] at hlow
        linarith
      have : N < 100001 := by exact_mod_cast this
      omega
    subst hN5
    have hd' : d = 100000 * u := by rw [hd]; norm_num
    have b2 : d * (4 / 10 ^ 7) ≤ 4 / 100 * u := by
      rw [hd']
      linarith
    have ex' : (10 : ℚ) ^ (x - 1) = 10000 * u := by
      rw [hu, show x - 1 = 4 + (x - 5) by ring, zpow_add₀ (by norm_num)]
      norm_num
    have ei' : (10 : ℚ) ^ (5 - (x - 1)) = 10 / u := by
      rw [hu, show 5 - (x - 1) = 1 + -(x - 5) by ring, zpow_add₀ (by norm_num), zpow_neg]
      norm_num
      rfl
    have hge : (10 : ℚ) ^ (x - 1) ≤ r := by
      rw [ex']
      linarith [hr.1]
    have hnear : nearest (r * 10 ^ (5 - (x - 1))) = 1000000 := by
      rw [ei']
      have e : r * (10 / u) = r * 10 / u := by ring
      rw [e]
      refine nearest_eq (by positivity) ?_ ?_
      · rw [lt_div_iff₀ hp]
        push_cast
        linarith [hr.1]
      · rw [div_lt_iff₀ hp]
        push_cast
        linarith [hr.2]
    unfold six
    rw [if_neg h0.ne']
    dsimp only
    rw [abs_of_pos h0, log10_eq hge (by rwa [sub_add_cancel]), hnear, if_pos rfl]
    simp [h0.le]

/-- A value that is not tiny, printed and read, is printed as the same text again. -/
theorem put_back {x : F32} (h : Ordinary x) : put (back x) = put x := by
  obtain ⟨q, rfl, hs, hq⟩ := h
  have pos : ∀ q : ℚ, 0 < q → |q| ≤ (2 ^ 24 - 1) * 2 ^ 104 → (2 : ℚ) ^ (-125 : ℤ) ≤ |q| →
      ∃ r, F32.round (gRat (six q)) = .fin r ∧ 0 < r ∧ six r = six q := by
    intro q hq hle hge
    have hb := six_bounds hq
    rw [abs_of_pos hq] at hle hge
    obtain ⟨N, x, e1, _, e3, e4, e5⟩ := six_pos hq
    obtain ⟨r, n, u, hr, er, b1, b2, _, _, hu⟩ := round_bounds hb.1 (hb.2.2.2.1 hle)
    refine ⟨r, hr, ?_⟩
    set d := gRat (six q) with hd
    have hp : (0 : ℚ) < 2 ^ u := by positivity
    have f1 : d - 2 ^ u / 2 ≤ r := by
      have := mul_le_mul_of_nonneg_right b1 hp.le
      have e4 : (d / 2 ^ u - 1 / 2) * (2 : ℚ) ^ u = d - 2 ^ u / 2 := by field_simp
      rwa [e4, ← er] at this
    have f2 : r ≤ d + 2 ^ u / 2 := by
      have := mul_le_mul_of_nonneg_right b2 hp.le
      have e4 : (d / 2 ^ u + 1 / 2) * (2 : ℚ) ^ u = d + 2 ^ u / 2 := by field_simp
      rwa [e4, ← er] at this
    have hu' : (2 : ℚ) ^ (u + 23) ≤ d := by
      rcases hu with rfl | hu
      · have h5 := hb.2.2.2.2
        have : (2 : ℚ) ^ (-125 : ℤ) = 2 * 2 ^ (-149 + 23 : ℤ) := by norm_num
        rw [this] at hge
        linarith
      · exact hu
    have e : (2 : ℚ) ^ (u + 23) = 2 ^ u * 2 ^ 23 := by
      rw [zpow_add₀ (by norm_num)]
      norm_num
    rw [e] at hu'
    have f3 : (2 : ℚ) ^ u / 2 ≤ d / 2 ^ 24 := by
      rw [div_le_div_iff₀ (by norm_num) (by norm_num)]
      linarith
    have hdp : 0 < d := hb.1
    have f4 : d / 2 ^ 24 ≤ d * (4 / 10 ^ 7) := by
      rw [div_eq_mul_one_div]
      exact mul_le_mul_of_nonneg_left (by norm_num) hdp.le
    have := six_near (r := r) e5 e3 e4 (abs_le.2 ⟨by linarith, by linarith⟩)
    exact ⟨this.1, this.2.trans e1.symm⟩
  have hle := single_le hs
  rcases lt_trichotomy q 0 with h0 | rfl | h0
  · obtain ⟨r, h1, h2, h3⟩ := pos (-q) (by linarith) (by rwa [abs_neg])
      (by rw [abs_neg]; exact hq.resolve_left h0.ne)
    have hneg : F32.round (gRat (six q)) = .fin (-r) := by
      rw [six_neg, F32.round_neg] at h1
      cases hx : F32.round (gRat (six q)) with
      | fin y =>
        rw [hx] at h1
        simp only [F32.neg, F32.fin.injEq] at h1
        rw [← h1, neg_neg]
      | _ =>
        rw [hx] at h1
        simp [F32.neg] at h1
    obtain ⟨N, x, e1, e2, _⟩ := six_pos h2
    obtain ⟨N', x', e1', e2', _⟩ := six_pos (q := -q) (by linarith)
    rw [neg_neg] at e2'
    rw [e1, e1'] at h3
    cases h3
    rw [back, hneg, put, put, fmtG, fmtG, e2, e2']
  · rw [back]
    have : F32.round (gRat (six 0)) = .fin 0 := by simp [six, gRat, F32.round_zero]
    rw [this]
  · obtain ⟨r, h1, h2, h3⟩ := pos q h0 hle (hq.resolve_left h0.ne')
    rw [back, h1, put, put, fmtG, fmtG, h3]

end Sol.FloatText
