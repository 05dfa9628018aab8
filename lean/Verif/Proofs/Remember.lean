import Verif.Model.Remember
import Verif.Spec.Remember
import Verif.Proofs.F64
import Verif.Proofs.GText
/-! Writing a number with six digits and reading it. -/

namespace Sol.Remember

open Sol.Spec Sol.NumericParser Sol.Props Sol.TextWriters

theorem digit_ne {s : List Char} (h : Digits s) {c : Char} (hc : c.isDigit = false) : ∀ d ∈ s, decide (d ≠ c) = true := by
  intro d hd
  rw [decide_eq_true_iff]
  rintro rfl
  have := h d hd
  rw [hc] at this
  exact Bool.noConfusion this

theorem takeWhile_before {p : Char → Bool} {a b : List Char} {c : Char} (ha : ∀ d ∈ a, p d = true) (hc : p c = false) :
    (a ++ c :: b).takeWhile p = a ∧ (a ++ c :: b).dropWhile p = c :: b := by
  induction a with
  | nil => simp [hc]
  | cons d a ih =>
    have hd := ha d (by simp)
    have := ih fun e he => ha e (by simp [he])
    simp [hd, this.1, this.2]

theorem takeWhile_all {p : Char → Bool} {a : List Char} (ha : ∀ d ∈ a, p d = true) : a.takeWhile p = a := by
  induction a with
  | nil => rfl
  | cons d a ih => rw [List.takeWhile_cons, if_pos (ha d (by simp)), ih fun e he => ha e (by simp [he])]

theorem decVal_append (a b : List Char) : decVal (a ++ b) = decVal a * 10 ^ b.length + decVal b := by
  rw [← ofDigitChars_eq, decVal, decVal, Nat.ofDigitChars, Nat.ofDigitChars, Nat.ofDigitChars, List.foldl_append]

/-- The text of `n` millionths is read as the nearest number. -/
theorem read_millionths (n : Nat) : pyFloat (millionths n) = F64.round ((n : ℚ) / 1000000) := by
  have hlen : (decText (n % 1000000)).length ≤ 6 := (Nat.length_toDigits_le_iff (by decide) (by decide)).2 (Nat.mod_lt _ (by decide))
  have hi := digits_decText (n / 1000000)
  have hf : Digits (List.replicate (6 - (decText (n % 1000000)).length) '0' ++ decText (n % 1000000)) :=
    Digits.append (digits_replicate _) (digits_decText _)
  have hl : (List.replicate (6 - (decText (n % 1000000)).length) '0' ++ decText (n % 1000000)).length = 6 := by
    rw [List.length_append, List.length_replicate]; omega
  have hv : decVal (List.replicate (6 - (decText (n % 1000000)).length) '0' ++ decText (n % 1000000)) = n % 1000000 := by
    rw [decVal_append, decVal_zeros, decVal_decText]; omega
  have ht := takeWhile_before (b := List.replicate (6 - (decText (n % 1000000)).length) '0' ++ decText (n % 1000000))
    (digit_ne hi (c := '.') rfl) (c := '.') (by decide)
  have hne : decText (n / 1000000) ≠ [] := by
    intro h
    have := congrArg List.length h
    have h2 : 0 < (decText (n / 1000000)).length := Nat.length_toDigits_pos
    rw [this] at h2
    exact absurd h2 (by decide)
  unfold pyFloat millionths
  dsimp only
  rw [ht.1, ht.2, List.drop_one, List.tail_cons, if_pos ⟨hne, List.all_eq_true.2 (Digits.append hi hf)⟩, hl]
  have h3 : Nat.ofDigitChars 10 (decText (n / 1000000) ++
      (List.replicate (6 - (decText (n % 1000000)).length) '0' ++ decText (n % 1000000))) 0 = n := by
    have := decVal_append (decText (n / 1000000)) (List.replicate (6 - (decText (n % 1000000)).length) '0' ++ decText (n % 1000000))
    rw [hl, hv, decVal_decText] at this
    rw [decVal] at this
    rw [this]
    omega
  rw [h3]
  norm_num

/-- No character of the text ends a line or is `=`. -/
theorem millionths_plain (n : Nat) {c : Char} (hc : c.isDigit = false) (h : c ≠ '.') : ∀ d ∈ millionths n, decide (d ≠ c) = true := by
  intro d hd
  unfold millionths at hd
  simp only [List.mem_append, List.mem_cons] at hd
  rcases hd with hd | rfl | hd | hd
  · exact digit_ne (digits_decText _) hc d hd
  · exact decide_eq_true (Ne.symm h)
  · exact digit_ne (digits_replicate _) hc d hd
  · exact digit_ne (digits_decText _) hc d hd

/-- A name without `=` and end of line. -/
def Plain (name : List Char) : Prop := ∀ d ∈ name, d ≠ '=' ∧ d ≠ '\n'

/-- What a later run reads. -/
theorem choose_later {name : List Char} (hn : Plain name) (v w : ℚ) :
    choose name false (some (resultLine name v)) w =
      (F64.round ((F32.divRound (v.num.natAbs * 1000000) v.den : Nat) / 1000000)).map fun r => (r, resultLine name v) := by
  have hpre : ∀ d ∈ "Best Result: ".toList ++ name, d ≠ '=' ∧ d ≠ '\n' := by
    intro d hd
    rcases List.mem_append.1 hd with hd | hd
    · have : ∀ d ∈ "Best Result: ".toList, d ≠ '=' ∧ d ≠ '\n' := by decide +kernel
      exact this d hd
    · exact hn d hd
  have h1 : (resultLine name v).takeWhile (· ≠ '\n') = resultLine name v := by
    apply takeWhile_all
    intro d hd
    unfold resultLine at hd
    rcases List.mem_append.1 hd with hd | hd
    · exact decide_eq_true (hpre d hd).2
    · rcases List.mem_cons.1 hd with rfl | hd
      · decide
      · exact millionths_plain _ rfl (by decide) d hd
  have h2 := (takeWhile_before (a := "Best Result: ".toList ++ name) (b := fixedText v) (c := '=') (p := fun d => decide (d ≠ '='))
    (fun d hd => decide_eq_true (hpre d hd).1) (by decide)).2
  have h3 : afterEqual (resultLine name v) = some (fixedText v) := by
    unfold afterEqual resultLine
    rw [h2]
    exact congrArg some (takeWhile_all (millionths_plain _ rfl (by decide)))
  simp only [choose]
  rw [h1, h3, Option.bind_some, fixedText, read_millionths]

/-- The number of millionths is the nearest one. -/
theorem near {v : ℚ} (hv : 0 ≤ v) : |(F32.divRound (v.num.natAbs * 1000000) v.den : ℚ) - v * 1000000| ≤ 1 / 2 := by
  have h := F32.divRound_near (v.num.natAbs * 1000000) v.den v.den_pos
  have e : ((v.num.natAbs * 1000000 : Nat) : ℚ) / v.den = v * 1000000 := by
    rcases hv.eq_or_lt with h0 | h0
    · rw [← h0]; simp
    · have := F64.natAbs_div h0
      push_cast at this ⊢
      rw [mul_div_right_comm, this]
  rw [e] at h
  rw [abs_le]
  constructor <;> linarith [h.1, h.2]

/-- A number of millionths is rounded by little. -/
theorem round_millionths (k : Nat) (hk : k ≤ 2 ^ 32 * 1000000 + 1) :
    ∃ r, F64.round ((k : ℚ) / 1000000) = some r ∧ 0 ≤ r ∧ |r - k / 1000000| ≤ (k / 1000000 : ℚ) / 2 ^ 53 := by
  rcases Nat.eq_zero_or_pos k with rfl | h
  · exact ⟨0, by simp [F64.round], le_refl _, by simp⟩
  have h1 : (1 : ℚ) ≤ k := by exact_mod_cast h
  have h2 : (k : ℚ) ≤ 2 ^ 32 * 1000000 + 1 := by exact_mod_cast hk
  have h3 : (2 : ℚ) ^ (-1022 : ℤ) ≤ 2 ^ (-20 : ℤ) := zpow_le_zpow_right₀ (by norm_num) (by norm_num)
  have h4 : (2 : ℚ) ^ (-20 : ℤ) ≤ 1 / 1000000 := by norm_num
  have h5 : (1 : ℚ) / 1000000 ≤ k / 1000000 := by linarith
  have h6 : (10 : ℚ) ^ 10 ≤ 10 ^ 300 := pow_le_pow_right₀ (by norm_num) (by norm_num)
  obtain ⟨r, hr, he⟩ := F64.round_pos (d := (k : ℚ) / 1000000) (le_trans h3 (le_trans h4 h5)) (le_trans (by linarith) h6)
  refine ⟨r, hr, ?_, he⟩
  have h7 := (abs_le.1 he).1
  have h8 : (k / 1000000 : ℚ) / 2 ^ 53 ≤ k / 1000000 := div_le_self (by linarith) (by norm_num)
  linarith

/-- The nearest `double` of at most six digits has these digits. -/
theorem digits_again {v : ℚ} {k : Nat} (hk : k < 2 ^ 32 * 1000000) (h : F64.round ((k : ℚ) / 1000000) = some v) :
    0 ≤ v ∧ F32.divRound (v.num.natAbs * 1000000) v.den = k := by
  obtain ⟨r, hr, h0, he⟩ := round_millionths k (by omega)
  obtain rfl := Option.some.inj (hr.symm.trans h)
  refine ⟨h0, ?_⟩
  have hn := abs_le.1 (near h0)
  have he := abs_le.1 he
  have hk' : (k : ℚ) < 2 ^ 32 * 1000000 := by exact_mod_cast hk
  have hb : (k / 1000000 : ℚ) / 2 ^ 53 * 1000000 < 1 / 2 := by linarith
  set n := F32.divRound (r.num.natAbs * 1000000) r.den
  have a1 : (n : ℚ) < k + 1 := by linarith [hn.2, he.2]
  have a2 : (k : ℚ) < n + 1 := by linarith [hn.1, he.1]
  have a3 : n < k + 1 := by exact_mod_cast a1
  have a4 : k < n + 1 := by exact_mod_cast a2
  omega

end Sol.Remember
