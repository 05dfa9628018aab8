import Verif.Model.FloatText
import Verif.Proofs.GText
import Verif.Proofs.PreProcess
import Verif.Proofs.Round
import Verif.Proofs.F32
import Verif.Spec.FloatText
/-!
# Writing and reading `float` values as text
-/

namespace Sol.FloatText
open Sol.Text Sol.TextWriters Sol.Spec Sol.Props

/-! ### Rounding to six digits -/

theorem nearest_spec {q : ℚ} (hq : 0 ≤ q) :
    q - 1 / 2 ≤ (nearest q : ℚ) ∧ (nearest q : ℚ) ≤ q + 1 / 2 ∧ q.floor.toNat ≤ nearest q ∧ nearest q ≤ q.floor.toNat + 1 := by
  have hf : (0 : Int) ≤ q.floor := Int.floor_nonneg.2 hq
  have h1 : ((q.floor.toNat : Nat) : ℚ) = (q.floor : ℚ) := by
    have : ((q.floor.toNat : Nat) : Int) = q.floor := Int.toNat_of_nonneg hf
    exact_mod_cast this
  have h2 : (q.floor : ℚ) ≤ q := Int.floor_le q
  have h3 : q < (q.floor : ℚ) + 1 := Int.lt_floor_add_one q
  unfold nearest
  dsimp only
  rw [h1]
  split_ifs with a b c
  · rw [h1]
    exact ⟨by linarith, by linarith, le_refl _, by omega⟩
  · push_cast
    rw [h1]
    exact ⟨by linarith, by linarith, by omega, le_refl _⟩
  · rw [h1]
    exact ⟨by linarith, by linarith, le_refl _, by omega⟩
  · push_cast
    rw [h1]
    exact ⟨by linarith, by linarith, by omega, le_refl _⟩

theorem le_nearest {q : ℚ} (hq : 0 ≤ q) {n : Nat} (h : (n : ℚ) ≤ q) : n ≤ nearest q := by
  obtain ⟨_, _, h3, _⟩ := nearest_spec hq
  refine Nat.le_trans ?_ h3
  have : (n : Int) ≤ q.floor := Int.le_floor.2 (by exact_mod_cast h)
  omega

theorem nearest_le {q : ℚ} (hq : 0 ≤ q) {n : Nat} (h : q < n + 1 / 2) : nearest q ≤ n := by
  obtain ⟨h1, h2, h3, h4⟩ := nearest_spec hq
  by_contra hc
  have hn : n + 1 ≤ nearest q := by omega
  have hn' : ((n : ℚ) + 1) ≤ nearest q := by exact_mod_cast hn
  linarith

/-- The six digits of a number. -/
theorem six_spec {q : ℚ} (hq : q ≠ 0) : ∃ (x : Int) (N : Nat),
    gRat (six q) = (if q < 0 then -1 else 1) * N * (10 : ℚ) ^ (x - 5) ∧ N = nearest (|q| * 10 ^ (5 - x)) ∧
    (10 : ℚ) ^ x ≤ |q| ∧ |q| < (10 : ℚ) ^ (x + 1) ∧ 10 ^ 5 ≤ N ∧ N ≤ 10 ^ 6 ∧
    (Printable (six q) ↔ -400 ≤ (if N = 10 ^ 6 then x + 1 else x) ∧ (if N = 10 ^ 6 then x + 1 else x) ≤ 400) := by
  have ha : 0 < |q| := abs_pos.2 hq
  have h1 : ((10 : Nat) : ℚ) ^ Int.log 10 |q| ≤ |q| := Int.zpow_log_le_self (by norm_num) ha
  have h2 : |q| < ((10 : Nat) : ℚ) ^ (Int.log 10 |q| + 1) := Int.lt_zpow_succ_log_self (by norm_num) _
  push_cast at h1 h2
  set x := Int.log 10 |q| with hx
  have hp : (0 : ℚ) < 10 ^ (5 - x) := by positivity
  have e1 : (10 : ℚ) ^ x * 10 ^ (5 - x) = 10 ^ 5 := by
    rw [← zpow_add₀ (by norm_num)]
    norm_num
  have e2 : (10 : ℚ) ^ (x + 1) * 10 ^ (5 - x) = 10 ^ 6 := by
    rw [← zpow_add₀ (by norm_num), show x + 1 + (5 - x) = 6 by ring]
    norm_num
  have l1 : (10 : ℚ) ^ 5 ≤ |q| * 10 ^ (5 - x) := by
    rw [← e1]
    exact mul_le_mul_of_nonneg_right h1 hp.le
  have l2 : |q| * 10 ^ (5 - x) < (10 : ℚ) ^ 6 := by
    rw [← e2]
    exact mul_lt_mul_of_pos_right h2 hp
  have h0 : 0 ≤ |q| * (10 : ℚ) ^ (5 - x) := by positivity
  have n1 : 10 ^ 5 ≤ nearest (|q| * 10 ^ (5 - x)) := le_nearest h0 (by exact_mod_cast l1)
  have n2 : nearest (|q| * 10 ^ (5 - x)) ≤ 10 ^ 6 := nearest_le h0 (by push_cast; linarith)
  refine ⟨x, nearest (|q| * 10 ^ (5 - x)), ?_, rfl, h1, h2, n1, n2, ?_⟩
  · unfold six
    rw [if_neg hq]
    dsimp only
    rw [← hx]
    by_cases hm : nearest (|q| * 10 ^ (5 - x)) = 1000000
    · rw [if_pos hm, gRat_num, hm]
      have : (10 : ℚ) ^ (x + 1 - 5) = 10 * 10 ^ (x - 5) := by
        rw [show x + 1 - 5 = 1 + (x - 5) by ring, zpow_add₀ (by norm_num), zpow_one]
      rw [this]
      simp only [decide_eq_true_eq]
      push_cast
      ring
    · rw [if_neg hm, gRat_num]
      simp only [decide_eq_true_eq]
  · unfold six
    rw [if_neg hq]
    dsimp only
    rw [← hx]
    norm_num at n1 n2 ⊢
    by_cases hm : nearest (|q| * 10 ^ (5 - x)) = 1000000
    · rw [if_pos hm, if_pos hm]
      simp only [Printable]
      norm_num
    · rw [if_neg hm, if_neg hm]
      simp only [Printable]
      norm_num
      omega

/-- The printed number differs from the number by at most five millionths of it. -/
theorem six_close (q : ℚ) : |gRat (six q) - q| ≤ |q| * (5 / 1000000) := by
  by_cases hq : q = 0
  · subst hq
    simp [six, gRat]
  obtain ⟨x, N, e, hN, h1, h2, h3, h4, _⟩ := six_spec hq
  have hp : (0 : ℚ) < 10 ^ (x - 5) := by positivity
  obtain ⟨n1, n2, _⟩ := nearest_spec (q := |q| * 10 ^ (5 - x)) (by positivity)
  rw [← hN] at n1 n2
  have e5 : (10 : ℚ) ^ (5 - x) * 10 ^ (x - 5) = 1 := by
    rw [← zpow_add₀ (by norm_num)]
    norm_num
  have hx : (10 : ℚ) ^ (x - 5) = 10 ^ x / 100000 := by
    rw [zpow_sub₀ (by norm_num)]
    norm_num
  have m1 : |q| - 10 ^ (x - 5) / 2 ≤ N * (10 : ℚ) ^ (x - 5) := by
    have := mul_le_mul_of_nonneg_right n1 hp.le
    have e6 : (|q| * 10 ^ (5 - x) - 1 / 2) * (10 : ℚ) ^ (x - 5) = |q| - 10 ^ (x - 5) / 2 := by
      rw [sub_mul, mul_assoc, e5]
      ring
    rwa [e6] at this
  have m2 : N * (10 : ℚ) ^ (x - 5) ≤ |q| + 10 ^ (x - 5) / 2 := by
    have := mul_le_mul_of_nonneg_right n2 hp.le
    have e6 : (|q| * 10 ^ (5 - x) + 1 / 2) * (10 : ℚ) ^ (x - 5) = |q| + 10 ^ (x - 5) / 2 := by
      rw [add_mul, mul_assoc, e5]
      ring
    rwa [e6] at this
  rw [e]
  have habs : abs (N * (10 : ℚ) ^ (x - 5) - |q|) ≤ |q| * (5 / 1000000) := by
    rw [abs_le]
    constructor <;> linarith
  by_cases hneg : q < 0
  · rw [if_pos hneg]
    rw [abs_of_neg hneg] at *
    have : -1 * (N : ℚ) * 10 ^ (x - 5) - q = -(N * 10 ^ (x - 5) - -q) := by ring
    rw [this, abs_neg]
    exact habs
  · rw [if_neg hneg]
    rw [abs_of_nonneg (not_lt.1 hneg)] at *
    rw [one_mul]
    exact habs

theorem six_digits (q : ℚ) : SixDigits q (gRat (six q)) := by
  by_cases hq : q = 0
  · subst hq
    exact .inl ⟨rfl, by simp [six, gRat]⟩
  obtain ⟨x, N, e, hN, h1, h2, h3, h4, _⟩ := six_spec hq
  refine .inr ⟨x, (if q < 0 then -1 else 1) * N, h1, h2, ?_, ?_⟩
  · rw [e]
    push_cast
    split_ifs <;> simp
  have hp : (0 : ℚ) < 10 ^ (x - 5) := by positivity
  obtain ⟨n1, n2, _⟩ := nearest_spec (q := |q| * 10 ^ (5 - x)) (by positivity)
  rw [← hN] at n1 n2
  have e5 : (10 : ℚ) ^ (5 - x) * 10 ^ (x - 5) = 1 := by
    rw [← zpow_add₀ (by norm_num)]
    norm_num
  have m1 : |q| - 10 ^ (x - 5) / 2 ≤ N * (10 : ℚ) ^ (x - 5) := by
    have := mul_le_mul_of_nonneg_right n1 hp.le
    have e6 : (|q| * 10 ^ (5 - x) - 1 / 2) * (10 : ℚ) ^ (x - 5) = |q| - 10 ^ (x - 5) / 2 := by
      rw [sub_mul, mul_assoc, e5]
      ring
    rwa [e6] at this
  have m2 : N * (10 : ℚ) ^ (x - 5) ≤ |q| + 10 ^ (x - 5) / 2 := by
    have := mul_le_mul_of_nonneg_right n2 hp.le
    have e6 : (|q| * 10 ^ (5 - x) + 1 / 2) * (10 : ℚ) ^ (x - 5) = |q| + 10 ^ (x - 5) / 2 := by
      rw [add_mul, mul_assoc, e5]
      ring
    rwa [e6] at this
  rw [e, abs_le]
  by_cases hneg : q < 0
  · rw [if_pos hneg]
    rw [abs_of_neg hneg] at m1 m2
    constructor <;> linarith
  · rw [if_neg hneg]
    rw [abs_of_nonneg (not_lt.1 hneg)] at m1 m2
    constructor <;> linarith

/-! ### Values of binary32 -/

theorem single_le {q : ℚ} (h : Single q) : |q| ≤ (2 ^ 24 - 1) * 2 ^ 104 := by
  obtain ⟨n, e, h1, h2, h3, rfl⟩ := h
  rw [abs_mul, abs_of_pos (by positivity : (0 : ℚ) < 2 ^ e)]
  have hn : (|(n : ℚ)|) ≤ 2 ^ 24 - 1 := by
    have : |n| ≤ 2 ^ 24 - 1 := by omega
    exact_mod_cast this
  have he : (2 : ℚ) ^ e ≤ 2 ^ (104 : ℤ) := zpow_le_zpow_right₀ (by norm_num) h3
  have he' : (2 : ℚ) ^ (104 : ℤ) = 2 ^ 104 := by norm_cast
  rw [he'] at he
  exact mul_le_mul hn he (by positivity) (by norm_num)

theorem single_ge {q : ℚ} (h : Single q) (hq : q ≠ 0) : (2 : ℚ) ^ (-149 : ℤ) ≤ |q| := by
  obtain ⟨n, e, h1, h2, h3, rfl⟩ := h
  rw [abs_mul, abs_of_pos (by positivity : (0 : ℚ) < 2 ^ e)]
  have hn0 : n ≠ 0 := by
    rintro rfl
    simp at hq
  have hn : 1 ≤ |(n : ℚ)| := by
    have : 1 ≤ |n| := Int.one_le_abs hn0
    exact_mod_cast this
  have he : (2 : ℚ) ^ (-149 : ℤ) ≤ 2 ^ e := zpow_le_zpow_right₀ (by norm_num) h2
  calc (2 : ℚ) ^ (-149 : ℤ) ≤ 2 ^ e := he
    _ = 1 * 2 ^ e := by ring
    _ ≤ |(n : ℚ)| * 2 ^ e := mul_le_mul_of_nonneg_right hn (by positivity)

theorem natAbs_div {q : ℚ} (hq : 0 < q) : ((q.num.natAbs : Nat) : ℚ) / q.den = q := by
  have h : 0 < q.num := Rat.num_pos.2 hq
  have : ((q.num.natAbs : Nat) : ℚ) = (q.num : ℚ) := by
    have : ((q.num.natAbs : Nat) : Int) = q.num := by omega
    rw [← Int.cast_natCast, this]
  rw [this, Rat.num_div_den]

/-- The rounding of a positive number that is not too large. -/
theorem round_bounds {d : ℚ} (h0 : 0 < d) (h1 : d ≤ 340282 * 10 ^ 33) : ∃ (r : ℚ) (n : Nat) (u : ℤ), F32.round d = .fin r ∧
    r = n * (2 : ℚ) ^ u ∧ d / 2 ^ u - 1 / 2 ≤ n ∧ (n : ℚ) ≤ d / 2 ^ u + 1 / 2 ∧ (-149 ≤ u ∧ d < 2 ^ (u + 24) ∧
    (u = -149 ∨ (2 : ℚ) ^ (u + 23) ≤ d)) := by
  have ha : 0 < d.num.natAbs := by
    have := Rat.num_pos.2 h0
    omega
  obtain ⟨n, e1, e2, e3⟩ := F32.roundMag_spec d.num.natAbs d.den d.den_pos
  have hu := F32.ulpExp_spec d.num.natAbs d.den ha d.den_pos
  rw [natAbs_div h0] at e2 e3 hu
  set u := F32.ulpExp d.num.natAbs d.den
  have hu104 : u ≤ 104 := by
    rcases hu.2.2 with h | h
    · omega
    · have h2 : (2 : ℚ) ^ (u + 23) < 2 ^ (128 : ℤ) := lt_of_le_of_lt (h.trans h1) (by norm_num)
      have := (zpow_lt_zpow_iff_right₀ (by norm_num : (1 : ℚ) < 2)).1 h2
      omega
  have hp : (0 : ℚ) < 2 ^ u := by positivity
  have hlt : F32.roundMag d.num.natAbs d.den < 2 ^ 128 := by
    rw [e1]
    have hm : (n : ℚ) * 2 ^ u ≤ d + 2 ^ u / 2 := by
      have := mul_le_mul_of_nonneg_right e3 hp.le
      have e4 : (d / 2 ^ u + 1 / 2) * (2 : ℚ) ^ u = d + 2 ^ u / 2 := by
        field_simp
      rwa [e4] at this
    have hu2 : (2 : ℚ) ^ u ≤ 2 ^ (104 : ℤ) := zpow_le_zpow_right₀ (by norm_num) hu104
    have : (2 : ℚ) ^ (104 : ℤ) = 2 ^ 104 := by norm_cast
    rw [this] at hu2
    calc (n : ℚ) * 2 ^ u ≤ d + 2 ^ u / 2 := hm
      _ ≤ 340282 * 10 ^ 33 + 2 ^ 104 / 2 := by linarith
      _ < 2 ^ 128 := by norm_num
  exact ⟨_, n, u, F32.round_pos d h0 hlt, e1, e2, e3, hu⟩

/-- Values of binary32 are not changed by rounding. -/
theorem round_single {q : ℚ} (h : Single q) : F32.round q = .fin q := by
  have pos : ∀ q : ℚ, 0 < q → Single q → F32.round q = .fin q := by
    intro q hq h
    have ha : 0 < q.num.natAbs := by
      have := Rat.num_pos.2 hq
      omega
    have hle := single_le h
    rw [abs_of_pos hq] at hle
    obtain ⟨n, e, h1, h2, h3, hqe⟩ := h
    have hn : 0 < n := by
      have : (0 : ℚ) < n := by
        rw [hqe] at hq
        exact pos_of_mul_pos_left hq (by positivity)
      exact_mod_cast this
    rw [abs_of_pos hn] at h1
    obtain ⟨k, e1, e2, e3⟩ := F32.roundMag_spec q.num.natAbs q.den q.den_pos
    have hu := F32.ulpExp_spec q.num.natAbs q.den ha q.den_pos
    rw [natAbs_div hq] at e2 e3 hu
    set u := F32.ulpExp q.num.natAbs q.den
    have hue : u ≤ e := by
      rcases hu.2.2 with h | h
      · omega
      · have hb : q < 2 ^ (e + 24) := by
          rw [hqe, zpow_add₀ (by norm_num), mul_comm]
          have : (n : ℚ) < 2 ^ (24 : ℤ) := by
            have : (n : ℚ) < 2 ^ 24 := by exact_mod_cast h1
            exact_mod_cast this
          exact mul_lt_mul_of_pos_left this (by positivity)
        have := (zpow_lt_zpow_iff_right₀ (by norm_num : (1 : ℚ) < 2)).1 (lt_of_le_of_lt h hb)
        omega
    have hk : q / 2 ^ u = ((n * 2 ^ (e - u).toNat : ℤ) : ℚ) := by
      push_cast
      rw [hqe, div_eq_iff (by positivity), mul_assoc]
      congr 1
      rw [← zpow_natCast, ← zpow_add₀ (by norm_num)]
      congr 1
      omega
    rw [hk] at e2 e3
    have hkn : (k : ℤ) = n * 2 ^ (e - u).toNat := by
      set K := n * 2 ^ (e - u).toNat
      have l1 : (K : ℚ) - 1 < ((k : ℤ) : ℚ) := by push_cast; linarith
      have l2 : ((k : ℤ) : ℚ) < K + 1 := by push_cast; linarith
      have l1' : K - 1 < (k : ℤ) := by exact_mod_cast l1
      have l2' : (k : ℤ) < K + 1 := by exact_mod_cast l2
      omega
    have hr : F32.roundMag q.num.natAbs q.den = q := by
      rw [e1, show ((k : Nat) : ℚ) = ((k : ℤ) : ℚ) by push_cast; rfl, hkn, ← hk]
      field_simp
    rw [F32.round_pos q hq (by rw [hr]; refine lt_of_le_of_lt hle ?_; norm_num), hr]
  rcases lt_trichotomy q 0 with hq | rfl | hq
  · have h' : Single (-q) := by
      obtain ⟨n, e, h1, h2, h3, hqe⟩ := h
      exact ⟨-n, e, by rwa [abs_neg], h2, h3, by rw [hqe]; push_cast; ring⟩
    have := pos (-q) (by linarith) h'
    have h2 := F32.round_neg (-q)
    rw [neg_neg, this] at h2
    rw [h2]
    simp [F32.neg]
  · rfl
  · exact pos q hq h

theorem six_neg {q : ℚ} : gRat (six (-q)) = -gRat (six q) := by
  by_cases hq : q = 0
  · subst hq
    simp [six, gRat]
  have hq' : -q ≠ 0 := by simpa using hq
  have key : ∀ (b b' : Bool) (n : Nat) (x : Int), b' = !b → gRat (.num b' n x) = -gRat (.num b n x) := by
    intro b b' n x h
    subst h
    cases b <;> simp [gRat]
  have hb : decide (-q < 0) = !decide (q < 0) := by
    rcases lt_or_gt_of_ne hq with h | h
    · have : ¬ -q < 0 := by linarith
      simp [h, this]
    · have h1 : -q < 0 := by linarith
      have h2 : ¬ q < 0 := by linarith
      simp [h1, h2]
  unfold six
  rw [if_neg hq, if_neg hq', abs_neg]
  dsimp only
  split_ifs
  · exact key _ _ _ _ hb
  · exact key _ _ _ _ hb

/-- The six digits of a positive number. -/
theorem six_bounds {q : ℚ} (hq : 0 < q) : 0 < gRat (six q) ∧ (q ≤ 1 → gRat (six q) ≤ 1) ∧ (1 ≤ q → 1 ≤ gRat (six q)) ∧
    (q ≤ (2 ^ 24 - 1) * 2 ^ 104 → gRat (six q) ≤ 340282 * 10 ^ 33) ∧ q / 2 ≤ gRat (six q) := by
  have hclose := six_close q
  obtain ⟨x, N, e, hN, h1, h2, h3, h4, _⟩ := six_spec hq.ne'
  rw [if_neg (by linarith), one_mul] at e
  rw [abs_of_pos hq] at h1 h2 hN
  have hp : (0 : ℚ) < 10 ^ (x - 5) := by positivity
  have hN5 : (10 : ℚ) ^ 5 ≤ N := by exact_mod_cast h3
  have hN6 : (N : ℚ) ≤ 10 ^ 6 := by exact_mod_cast h4
  have e5 : (10 : ℚ) ^ 5 * 10 ^ (x - 5) = 10 ^ x := by
    rw [show (10 : ℚ) ^ 5 = 10 ^ (5 : ℤ) by norm_cast, ← zpow_add₀ (by norm_num)]
    congr 1
    ring
  have e6 : (10 : ℚ) ^ 6 * 10 ^ (x - 5) = 10 ^ (x + 1) := by
    rw [show (10 : ℚ) ^ 6 = 10 ^ (6 : ℤ) by norm_cast, ← zpow_add₀ (by norm_num)]
    congr 1
    ring
  have lo : (10 : ℚ) ^ x ≤ gRat (six q) := by
    rw [e, ← e5]
    exact mul_le_mul_of_nonneg_right hN5 hp.le
  have hi : gRat (six q) ≤ (10 : ℚ) ^ (x + 1) := by
    rw [e, ← e6]
    exact mul_le_mul_of_nonneg_right hN6 hp.le
  have one : (10 : ℚ) ^ (0 : ℤ) = 1 := by norm_num
  rw [abs_le, abs_of_pos hq] at hclose
  refine ⟨lt_of_lt_of_le (by positivity) lo, fun h => ?_, fun h => ?_, fun h => ?_, by linarith [hclose.1]⟩
  · rcases eq_or_lt_of_le h with rfl | h
    · have hx : x = 0 := by
        have a1 : x < 1 := (zpow_lt_zpow_iff_right₀ (by norm_num : (1 : ℚ) < 10)).1 (lt_of_le_of_lt h1 (by norm_num))
        have a2 : 0 < x + 1 := (zpow_lt_zpow_iff_right₀ (by norm_num : (1 : ℚ) < 10)).1 (by rw [one]; exact h2)
        omega
      subst hx
      have : nearest (1 * (10 : ℚ) ^ (5 - (0 : ℤ))) ≤ 100000 := by
        apply nearest_le (by norm_num)
        norm_num
      rw [e, hN]
      have h' : ((nearest (1 * (10 : ℚ) ^ (5 - (0 : ℤ))) : Nat) : ℚ) ≤ 100000 := by exact_mod_cast this
      calc ((nearest (1 * (10 : ℚ) ^ (5 - (0 : ℤ))) : Nat) : ℚ) * 10 ^ ((0 : ℤ) - 5) ≤ 100000 * 10 ^ ((0 : ℤ) - 5) :=
            mul_le_mul_of_nonneg_right h' (by positivity)
        _ = 1 := by norm_num
    · have hx : x < 0 := (zpow_lt_zpow_iff_right₀ (by norm_num : (1 : ℚ) < 10)).1 (by rw [one]; exact lt_of_le_of_lt h1 h)
      refine hi.trans ?_
      rw [← one]
      exact zpow_le_zpow_right₀ (by norm_num) (by omega)
  · have hx : 0 < x + 1 := (zpow_lt_zpow_iff_right₀ (by norm_num : (1 : ℚ) < 10)).1 (by rw [one]; exact lt_of_le_of_lt h h2)
    refine le_trans ?_ lo
    rw [← one]
    exact zpow_le_zpow_right₀ (by norm_num) (by omega)
  · have hx : x < 39 := (zpow_lt_zpow_iff_right₀ (by norm_num : (1 : ℚ) < 10)).1 (lt_of_le_of_lt (h1.trans h) (by norm_num))
    by_cases h38 : x = 38
    · subst h38
      have : nearest (q * (10 : ℚ) ^ (5 - (38 : ℤ))) ≤ 340282 := by
        apply nearest_le (by positivity)
        calc q * (10 : ℚ) ^ (5 - (38 : ℤ)) ≤ ((2 ^ 24 - 1) * 2 ^ 104) * (10 : ℚ) ^ (5 - (38 : ℤ)) :=
              mul_le_mul_of_nonneg_right h (by positivity)
          _ < _ := by norm_num
      rw [← hN] at this
      have h' : (N : ℚ) ≤ 340282 := by exact_mod_cast this
      rw [e]
      calc (N : ℚ) * 10 ^ ((38 : ℤ) - 5) ≤ 340282 * 10 ^ ((38 : ℤ) - 5) := mul_le_mul_of_nonneg_right h' (by positivity)
        _ = 340282 * 10 ^ 33 := by norm_num
    · refine hi.trans ?_
      have : (10 : ℚ) ^ (x + 1) ≤ 10 ^ (38 : ℤ) := zpow_le_zpow_right₀ (by norm_num) (by omega)
      refine this.trans ?_
      norm_num

/-- Rounding a positive number that is not too large. -/
theorem round_facts {d : ℚ} (h0 : 0 < d) (h1 : d ≤ 340282 * 10 ^ 33) : ∃ r, F32.round d = .fin r ∧ 0 ≤ r ∧
    (2 ^ (-126 : ℤ) ≤ d → 0 < r) ∧ (d ≤ 1 → r ≤ 1) ∧ (1 ≤ d → 1 ≤ r) := by
  obtain ⟨r, n, u, hr, rfl, e1, e2, hu, _, hb⟩ := round_bounds h0 h1
  have hp : (0 : ℚ) < 2 ^ u := by positivity
  have one : (2 : ℚ) ^ (0 : ℤ) = 1 := by norm_num
  have big : 2 ^ (-126 : ℤ) ≤ d → (2 : ℚ) ^ 23 ≤ d / 2 ^ u := by
    intro hd
    have : (2 : ℚ) ^ (u + 23) ≤ d := by
      rcases hb with rfl | h
      · exact le_trans (by norm_num) hd
      · exact h
    rw [le_div_iff₀ hp]
    rw [zpow_add₀ (by norm_num), mul_comm] at this
    exact_mod_cast this
  refine ⟨_, hr, by positivity, fun hd => ?_, fun hd => ?_, fun hd => ?_⟩
  · have := big hd
    have : (0 : ℚ) < n := by linarith
    positivity
  · have hu0 : u ≤ 0 := by
      rcases hb with h | h
      · omega
      · have : (2 : ℚ) ^ (u + 23) ≤ 2 ^ (0 : ℤ) := by rw [one]; exact h.trans hd
        have := (zpow_le_zpow_iff_right₀ (by norm_num : (1 : ℚ) < 2)).1 this
        omega
    have hk : (1 : ℚ) / 2 ^ u = ((2 ^ (-u).toNat : Nat) : ℚ) := by
      push_cast
      rw [← zpow_natCast, Int.toNat_of_nonneg (by omega), zpow_neg, one_div]
    have hle : d / 2 ^ u ≤ ((2 ^ (-u).toNat : Nat) : ℚ) := by
      rw [← hk]
      exact div_le_div_of_nonneg_right hd hp.le
    have hn : n ≤ 2 ^ (-u).toNat := by
      have : (n : ℚ) < ((2 ^ (-u).toNat + 1 : Nat) : ℚ) := by
        push_cast at hle ⊢
        linarith
      have : n < 2 ^ (-u).toNat + 1 := by exact_mod_cast this
      omega
    have hn' : (n : ℚ) ≤ 1 / 2 ^ u := by
      rw [hk]
      exact_mod_cast hn
    rwa [le_div_iff₀ hp] at hn'
  · by_cases hu0 : u ≤ 0
    · have hk : (1 : ℚ) / 2 ^ u = ((2 ^ (-u).toNat : Nat) : ℚ) := by
        push_cast
        rw [← zpow_natCast, Int.toNat_of_nonneg (by omega), zpow_neg, one_div]
      have hle : ((2 ^ (-u).toNat : Nat) : ℚ) ≤ d / 2 ^ u := by
        rw [← hk]
        exact div_le_div_of_nonneg_right hd hp.le
      have hn : 2 ^ (-u).toNat ≤ n := by
        have : ((2 ^ (-u).toNat : Nat) : ℚ) < ((n + 1 : Nat) : ℚ) := by
          push_cast at hle ⊢
          linarith
        have : 2 ^ (-u).toNat < n + 1 := by exact_mod_cast this
        omega
      have hn' : 1 / 2 ^ u ≤ (n : ℚ) := by
        rw [hk]
        exact_mod_cast hn
      rwa [div_le_iff₀ hp] at hn'
    · have h23 := big (le_trans (by norm_num) hd)
      have hn : (1 : ℚ) ≤ n := by linarith
      have h2 : (1 : ℚ) ≤ 2 ^ u := by
        rw [← one]
        exact zpow_le_zpow_right₀ (by norm_num) (by omega)
      exact one_le_mul_of_one_le_of_one_le hn h2

/-- A value of binary32 printed with six digits and read back. -/
theorem reread_facts {q : ℚ} (h : Single q) : ∃ r, F32.round (gRat (six q)) = .fin r ∧ (0 ≤ q → 0 ≤ r) ∧
    (2 ^ (-125 : ℤ) ≤ q → 0 < r) ∧ (0 ≤ q → q ≤ 1 → r ≤ 1) ∧ (1 ≤ q → 1 ≤ r) := by
  have hle := single_le h
  rcases lt_trichotomy q 0 with hq | rfl | hq
  · have hb := six_bounds (q := -q) (by linarith)
    rw [abs_of_neg hq] at hle
    obtain ⟨r, hr, _⟩ := round_facts hb.1 (hb.2.2.2.1 hle)
    rw [six_neg, F32.round_neg] at hr
    have hneg : F32.round (gRat (six q)) = .fin (-r) := by
      cases hx : F32.round (gRat (six q)) with
      | fin y =>
        rw [hx] at hr
        simp only [F32.neg, F32.fin.injEq] at hr
        rw [← hr, neg_neg]
      | _ =>
        rw [hx] at hr
        simp [F32.neg] at hr
    have hp : (0 : ℚ) < 2 ^ (-125 : ℤ) := by positivity
    exact ⟨-r, hneg, fun h => by linarith, fun h => by linarith, fun h => by linarith, fun h => by linarith⟩
  · refine ⟨0, by simp [six, gRat, F32.round_zero], fun _ => le_refl _, fun h => ?_, fun _ _ => zero_le_one, fun h => ?_⟩
    · exact absurd h (not_le.2 (by positivity))
    · norm_num at h
  · have hb := six_bounds hq
    rw [abs_of_pos hq] at hle
    obtain ⟨r, hr, r0, r1, r2, r3⟩ := round_facts hb.1 (hb.2.2.2.1 hle)
    refine ⟨r, hr, fun _ => r0, fun h => r1 ?_, fun _ h => r2 (hb.2.1 h), fun h => r3 (hb.2.2.1 h)⟩
    have : (2 : ℚ) ^ (-125 : ℤ) = 2 * 2 ^ (-126 : ℤ) := by norm_num
    have h5 := hb.2.2.2.2
    rw [this] at h
    linarith

theorem six_printable {q : ℚ} (h : Single q) : Printable (six q) := by
  by_cases hq : q = 0
  · subst hq
    simp [six, Printable]
  have hle := single_le h
  have hge := single_ge h hq
  obtain ⟨x, N, e, hN, h1, h2, h3, h4, hp⟩ := six_spec hq
  rw [hp]
  have a1 : x < 39 := (zpow_lt_zpow_iff_right₀ (by norm_num : (1 : ℚ) < 10)).1 (lt_of_le_of_lt (h1.trans hle) (by norm_num))
  have a2 : -46 < x + 1 :=
    (zpow_lt_zpow_iff_right₀ (by norm_num : (1 : ℚ) < 10)).1 (lt_of_lt_of_le (by norm_num) (hge.trans h2.le))
  split_ifs <;> omega

/-! ### Scanning -/

/-- The text does not continue a number. -/
def Stop (rest : List Char) : Prop := ∀ c ∈ rest.head?, c.isDigit = false ∧ c ≠ '.' ∧ c ≠ 'e' ∧ c ≠ 'E'

theorem digits_isDigit {ds : List Char} (h : Digits ds) : ∀ c ∈ ds, isDigit c = true := fun c hc => by
  rw [Sol.PreProcess.isDigit_eq]
  exact h c hc

theorem stop_isDigit {rest : List Char} (h : ∀ c ∈ rest.head?, c.isDigit = false) : ∀ c ∈ rest.head?, isDigit c = false :=
  fun c hc => by
    rw [Sol.PreProcess.isDigit_eq]
    exact h c hc

theorem takeSign_text {sgn : List Char} {s : Int} (h : SignText sgn s) {ds t : List Char} (hd : Digits ds) (hne : ds ≠ []) :
    takeSign (sgn ++ (ds ++ t)) = (decide (s = -1), ds ++ t) := by
  cases h with
  | none =>
    cases ds with
    | nil => exact absurd rfl hne
    | cons c ds =>
      have := Sol.PreProcess.digit_plain (hd c List.mem_cons_self)
      simp [takeSign, this.2.1, this.2.2.1]
  | plus => simp [takeSign]
  | minus => simp [takeSign]

theorem scanExp_text {et es : List Char} {sx : Int} (h : ExpText et sx es) {rest : List Char} (hr : Stop rest) :
    scanExp (et ++ rest) = (sx * (decVal es : Int), rest) := by
  cases h with
  | none =>
    cases rest with
    | nil => simp [scanExp, decVal, Nat.ofDigitChars]
    | cons c t =>
      have := hr c (by simp)
      simp [scanExp, this.2.2.1, this.2.2.2, decVal, Nat.ofDigitChars]
  | some m hm sgn s' hs _ h hne =>
    have ht := takeSign_text (t := rest) hs h hne
    have h1 := Sol.PreProcess.takeWhile_app (digits_isDigit h) (stop_isDigit fun c hc => (hr c hc).1)
    have h2 := Sol.PreProcess.dropWhile_app (digits_isDigit h) (stop_isDigit fun c hc => (hr c hc).1)
    rw [List.cons_append, List.append_assoc]
    simp only [scanExp, if_pos hm, ht, h1, h2, if_neg hne, Sol.PreProcess.digitsVal_eq]
    cases hs <;> simp

theorem scanFrac_text {ft fs : List Char} (h : FracText ft fs) {u : List Char} (hu : ∀ c ∈ u.head?, c.isDigit = false ∧ c ≠ '.') :
    scanFrac (ft ++ u) = (fs, u) := by
  cases h with
  | none =>
    cases u with
    | nil => rfl
    | cons c t =>
      have := (hu c (by simp)).2
      simp only [List.nil_append]
      unfold scanFrac
      split
      · rename_i h
        simp only [List.cons.injEq] at h
        exact absurd h.1 this
      · rfl
  | some _ h =>
    rw [List.cons_append]
    unfold scanFrac
    simp only [Sol.PreProcess.takeWhile_app (digits_isDigit h) (stop_isDigit fun c hc => (hu c hc).1),
      Sol.PreProcess.dropWhile_app (digits_isDigit h) (stop_isDigit fun c hc => (hu c hc).1)]

theorem expText_head {et es : List Char} {sx : Int} (h : ExpText et sx es) {rest : List Char} (hr : Stop rest) :
    ∀ c ∈ (et ++ rest).head?, c.isDigit = false ∧ c ≠ '.' := by
  cases h with
  | none =>
    intro c hc
    exact ⟨(hr c hc).1, (hr c hc).2.1⟩
  | some m hm =>
    intro c hc
    simp only [List.cons_append, List.head?_cons, Option.mem_def, Option.some.injEq] at hc
    subst hc
    rcases hm with rfl | rfl <;> decide

theorem fracText_head {ft fs : List Char} (h : FracText ft fs) {u : List Char} (hu : ∀ c ∈ u.head?, c.isDigit = false ∧ c ≠ '.') :
    ∀ c ∈ (ft ++ u).head?, c.isDigit = false := by
  cases h with
  | none => exact fun c hc => (hu c hc).1
  | some h =>
    intro c hc
    simp only [List.cons_append, List.head?_cons, Option.mem_def, Option.some.injEq] at hc
    subst hc
    decide

/-- A literal is read as the number it denotes. -/
theorem scanDec_literal {sgn ds ft fs et es rest : List Char} {s sx : Int} (hs : SignText sgn s) (hd : Digits ds) (hne : ds ≠ [])
    (hf : FracText ft fs) (he : ExpText et sx es) (hr : Stop rest) :
    scanDec (sgn ++ (ds ++ (ft ++ (et ++ rest)))) = some (literalValue s ds fs sx es, rest) := by
  have h0 := expText_head he hr
  have h1 := fracText_head hf h0
  have hfd : Digits fs := by
    cases hf with
    | none => intro c hc; simp at hc
    | some _ h => exact h
  unfold scanDec
  simp only [takeSign_text hs hd hne, Sol.PreProcess.takeWhile_app (digits_isDigit hd) (stop_isDigit h1),
    Sol.PreProcess.dropWhile_app (digits_isDigit hd) (stop_isDigit h1), scanFrac_text hf h0, scanExp_text he hr,
    hne, false_and, if_false, Sol.PreProcess.digitsVal_eq]
  congr 2
  unfold literalValue
  rw [decVal_append, zpow_sub₀ (by norm_num)]
  push_cast
  cases hs <;> simp <;> field_simp <;> ring

/-- A printed value is read as the number printed. -/
theorem scanDec_put {q : ℚ} (h : Single q) {rest : List Char} (hr : Stop rest) :
    scanDec (put (.fin q) ++ rest) = some (gRat (six q), rest) := by
  obtain ⟨sgn, s, ds, ft, fs, et, sx, es, h1, h2, h3, h4, h5, h6, _, _, h7, _⟩ := gText_literal (six q) (six_printable h)
  have hp : put (.fin q) = sgn ++ (ds ++ (ft ++ et)) := h1
  rw [hp, ← h7]
  simp only [List.append_assoc]
  exact scanDec_literal h2 h3 h4 h5 h6 hr

theorem put_plain {q : ℚ} (h : Single q) (rest : List Char) : (put (.fin q) ++ rest).dropWhile isSpace = put (.fin q) ++ rest := by
  obtain ⟨sgn, s, ds, ft, fs, et, sx, es, h1, h2, h3, h4, _⟩ := gText_literal (six q) (six_printable h)
  have hp : put (.fin q) = sgn ++ (ds ++ (ft ++ et)) := h1
  rw [hp]
  cases h2 with
  | none =>
    cases ds with
    | nil => exact absurd rfl h4
    | cons c ds => simp [(Sol.PreProcess.digit_plain (h3 c List.mem_cons_self)).1]
  | plus => simp [isSpace]
  | minus => simp [isSpace]

theorem readFloat_put {q : ℚ} (h : Single q) {sp rest : List Char} (hsp : ∀ c ∈ sp, isSpace c = true) (hr : Stop rest) :
    readFloat (sp ++ (put (.fin q) ++ rest)) = some (F32.round (gRat (six q)), rest) := by
  obtain ⟨r, hr', _⟩ := reread_facts h
  unfold readFloat
  rw [List.dropWhile_append_of_pos hsp, put_plain h, scanDec_put h hr]
  simp only [hr', reduceCtorEq, or_self, if_false]
  cases rest with
  | nil => rfl
  | cons c t =>
    have := hr c (by simp)
    simp [this.2.2.1, this.2.2.2]

/-- `stof` of a printed value that is not tiny. -/
theorem stof_put {q : ℚ} (h : Single q) (hq : q = 0 ∨ 2 ^ (-125 : ℤ) ≤ |q|) :
    stof (put (.fin q)) = .ok (F32.round (gRat (six q))) := by
  obtain ⟨r, hr', _⟩ := reread_facts h
  have hs := scanDec_put h (rest := []) (by simp [Stop])
  have hp := put_plain h []
  rw [List.append_nil] at hs hp
  unfold stof
  simp only [hp, hs, hr', reduceCtorEq, or_self, if_false]
  rw [if_neg]
  rintro ⟨h1, h2⟩
  rcases hq with rfl | hq
  · refine h2 ?_
    rw [← hr']
    simp [six, gRat, F32.round_zero]
  · have hb : |q| / 2 ≤ |gRat (six q)| := by
      rcases lt_trichotomy q 0 with hn | rfl | hn
      · have := six_bounds (q := -q) (by linarith)
        rw [six_neg] at this
        rw [abs_of_neg hn, abs_of_neg (by linarith [this.1])]
        exact this.2.2.2.2
      · simp
      · have := six_bounds hn
        rw [abs_of_pos hn, abs_of_pos this.1]
        exact this.2.2.2.2
    have e : (2 : ℚ) ^ (-125 : ℤ) = 2 * (1 / 2 ^ 126) := by norm_num
    rw [e] at hq
    linarith

/-- A number with six digits is printed exactly. -/
theorem six_exact {q d : ℚ} (h : ShortNumber q) (hd : SixDigits q d) : d = q := by
  rcases h with rfl | ⟨x, N, h1, h2, h3⟩
  · rcases hd with ⟨_, rfl⟩ | ⟨x, N, h1, _⟩
    · rfl
    · rw [abs_zero] at h1
      have : (0 : ℚ) < 10 ^ x := by positivity
      linarith
  · rcases hd with ⟨rfl, _⟩ | ⟨y, K, k1, k2, k3, k4⟩
    · rw [abs_zero] at h1
      have : (0 : ℚ) < 10 ^ x := by positivity
      linarith
    · have e : x = y := by
        have a := (zpow_lt_zpow_iff_right₀ (by norm_num : (1 : ℚ) < 10)).1 (h1.trans_lt k2)
        have b := (zpow_lt_zpow_iff_right₀ (by norm_num : (1 : ℚ) < 10)).1 (k1.trans_lt h2)
        omega
      subst e
      have hp : (0 : ℚ) < 10 ^ (x - 5) := by positivity
      have hdiff : d - q = ((K - N : ℤ) : ℚ) * 10 ^ (x - 5) := by
        rw [k3]
        rw [h3]
        push_cast
        ring
      rw [hdiff, abs_mul, abs_of_pos hp] at k4
      have h5 : |((K - N : ℤ) : ℚ)| ≤ 1 / 2 := by
        by_contra hc
        push Not at hc
        have := mul_lt_mul_of_pos_right hc hp
        linarith
      have h6 : |K - N| < 1 := by
        have : ((|K - N| : ℤ) : ℚ) < 1 := by
          rw [Int.cast_abs]
          linarith
        exact_mod_cast this
      have h7 : K - N = 0 := Int.abs_lt_one_iff.1 h6
      rw [h7, Int.cast_zero, zero_mul] at hdiff
      linarith

/-- How far the value read back is from the value printed. -/
theorem reread_close {q : ℚ} (h : Single q) :
    ∃ r, F32.round (gRat (six q)) = .fin r ∧ |r - q| ≤ |q| / 100000 + 2 ^ (-150 : ℤ) := by
  have hle := single_le h
  have pos : ∀ q : ℚ, 0 < q → |q| ≤ (2 ^ 24 - 1) * 2 ^ 104 →
      ∃ r, F32.round (gRat (six q)) = .fin r ∧ |r - q| ≤ |q| / 100000 + 2 ^ (-150 : ℤ) := by
    intro q hq hle
    have hb := six_bounds hq
    have hc := six_close q
    rw [abs_of_pos hq] at hle hc ⊢
    obtain ⟨r, n, u, hr, rfl, e1, e2, _, _, hu⟩ := round_bounds hb.1 (hb.2.2.2.1 hle)
    refine ⟨_, hr, ?_⟩
    set d := gRat (six q)
    have hp : (0 : ℚ) < 2 ^ u := by positivity
    have f1 : d - 2 ^ u / 2 ≤ (n : ℚ) * 2 ^ u := by
      have := mul_le_mul_of_nonneg_right e1 hp.le
      have e4 : (d / 2 ^ u - 1 / 2) * (2 : ℚ) ^ u = d - 2 ^ u / 2 := by field_simp
      rwa [e4] at this
    have f2 : (n : ℚ) * 2 ^ u ≤ d + 2 ^ u / 2 := by
      have := mul_le_mul_of_nonneg_right e2 hp.le
      have e4 : (d / 2 ^ u + 1 / 2) * (2 : ℚ) ^ u = d + 2 ^ u / 2 := by field_simp
      rwa [e4] at this
    have f3 : (2 : ℚ) ^ u / 2 ≤ d / 2 ^ 24 + 2 ^ (-150 : ℤ) := by
      rcases hu with rfl | hu
      · have e : (2 : ℚ) ^ (-149 : ℤ) / 2 = 2 ^ (-150 : ℤ) := by norm_num
        have : 0 < d := hb.1
        rw [e]
        have : 0 < d / 2 ^ 24 := by positivity
        linarith
      · have e : (2 : ℚ) ^ (u + 23) = 2 ^ u * 2 ^ 23 := by
          rw [zpow_add₀ (by norm_num)]
          norm_num
        rw [e] at hu
        have : (0 : ℚ) < 2 ^ (-150 : ℤ) := by positivity
        have : (2 : ℚ) ^ u / 2 ≤ d / 2 ^ 24 := by
          rw [div_le_div_iff₀ (by norm_num) (by norm_num)]
          linarith
        linarith
    rw [abs_le] at hc ⊢
    have g1 : d ≤ q * 2 := by linarith [hc.2]
    have g2 : d / 2 ^ 24 ≤ q * 2 / 2 ^ 24 := by
      apply div_le_div_of_nonneg_right g1
      norm_num
    constructor <;> linarith
  rcases lt_trichotomy q 0 with hn | rfl | hn
  · obtain ⟨r, hr, hc⟩ := pos (-q) (by linarith) (by rwa [abs_neg])
    rw [six_neg, F32.round_neg] at hr
    refine ⟨-r, ?_, ?_⟩
    · cases hx : F32.round (gRat (six q)) with
      | fin s =>
        rw [hx] at hr
        have : (F32.fin (-s)) = F32.fin r := hr
        cases this
        simp
      | pinf => rw [hx] at hr; exact absurd hr (by simp [F32.neg])
      | ninf => rw [hx] at hr; exact absurd hr (by simp [F32.neg])
      | nan => rw [hx] at hr; exact absurd hr (by simp [F32.neg])
    · rw [abs_neg] at hc
      have e : -r - q = -(r - -q) := by ring
      rw [e, abs_neg]
      exact hc
  · refine ⟨0, by simp [six, gRat, F32.round_zero], ?_⟩
    simp
  · exact pos q hn hle

end Sol.FloatText
