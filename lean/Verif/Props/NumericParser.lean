import Verif.Proofs.NumericParserVal
import Mathlib.Data.Rat.Defs
import Mathlib.Algebra.Order.Field.Rat
import Mathlib.Tactic.Positivity
import Mathlib.Tactic.Ring
import Mathlib.Tactic.FieldSimp
import Mathlib.Tactic.Linarith
/-!
# Properties C05, C06, C07: parsing numbers from text
-/

namespace Sol.Props
open Sol.NumericParser Sol.Spec

/-! ## C05: parsing stays inside the zero-terminated line -/

/-- **C05.** From every position at or before the terminator of a line, all three parsers stay inside the line; when
    they return, the end position lies at or behind the start position and at or before the terminator
    (the characters skipped contain no terminator). Termination is part of the model (total functions). -/
theorem C05_parse_stays_in_line (p : List Char) (h : '\x00' ∈ p) :
    (parseInt p ≠ .ub .outOfBounds ∧ parseUint p ≠ .ub .outOfBounds ∧ parseFloat p ≠ .ub .outOfBounds) ∧
    (∀ v e, parseInt p = .ok (v, e) → ∃ used, p = used ++ e ∧ '\x00' ∉ used ∧ '\x00' ∈ e) ∧
    (∀ v e, parseUint p = .ok (v, e) → ∃ used, p = used ++ e ∧ '\x00' ∉ used ∧ '\x00' ∈ e) ∧
    (∀ v e, parseFloat p = .ok (v, e) → ∃ used, p = used ++ e ∧ '\x00' ∉ used ∧ '\x00' ∈ e) := by
  have key : ∀ {α : Type} {r : Res (α × List Char)}, Adv p r (·.2) → ∀ v e, r = .ok (v, e) →
      ∃ used, p = used ++ e ∧ '\x00' ∉ used ∧ '\x00' ∈ e := by
    intro α r ha v e hr
    obtain ⟨u, hu, hu'⟩ := ha.1 _ hr
    refine ⟨u, hu, hu', ?_⟩
    rw [hu] at h
    simpa [hu'] using h
  exact ⟨⟨(parseInt_adv p).2 h, (parseUint_adv p).2 h, (parseFloat_adv p).2 h⟩,
    key (parseInt_adv p), key (parseUint_adv p), key (parseFloat_adv p)⟩

/-- An instance: garbage, an unterminated exponent, then the terminator and stale bytes of an earlier line. -/
example : '\x00' ∈ [' ', '+', '-', '.', 'e', '\r', '\n', '\x00', ' ', '1', '2', ':', '3'] := by decide

/-! ## C06: integers -/

/-- **C06 (indexes).** The decimal text of every 32-bit index is parsed to that index; parsing stops at the next
    non-blank character. -/
theorem C06_index_parses (ws rest : List Char) (n : UInt32) (hw : ∀ c ∈ ws, blank c = true)
    (hr : EndsNumber rest) (h0 : '\x00' ∈ rest) :
    parseUint (ws ++ (decText n.toNat ++ rest)) = .ok (n, rest.dropWhile blank) := by
  have := parseUint_literal (ds := decText n.toNat) (ft := []) (fs := []) (et := []) (es := []) hw
    (digits_decText _) .none .none (.inl Nat.toDigits_ne_nil) hr h0 (by decide)
  simp only [List.nil_append, List.length_nil, List.append_nil, decVal_decText] at this
  rw [this]
  simp [decVal, Nat.ofDigitChars]

/-- **C06 (labels), the part that holds.** The decimal text of every label of magnitude at most 2147483599 is parsed
    to that label. Missing: the 48 largest magnitudes, for which the code has undefined behaviour
    (`C06_is_violated`). -/
theorem C06_label_parses_partial (ws rest : List Char) (v : Int) (hv : v.natAbs ≤ 2147483599)
    (hw : ∀ c ∈ ws, blank c = true) (hr : EndsNumber rest) (h0 : '\x00' ∈ rest) :
    parseInt (ws ++ (intText v ++ rest)) = .ok (v, rest.dropWhile blank) := by
  have hs : ∃ sgn s, SignText sgn s ∧ intText v = sgn ++ decText v.natAbs ∧ s * v.natAbs = v := by
    unfold intText
    split
    · exact ⟨['-'], -1, .minus, rfl, by omega⟩
    · exact ⟨[], 1, .none, rfl, by omega⟩
  obtain ⟨sgn, s, hs, ht, hsv⟩ := hs
  have := parseInt_literal (ds := decText v.natAbs) (ft := []) (fs := []) (et := []) (es := []) hw hs
    (digits_decText _) .none .none (.inl Nat.toDigits_ne_nil) hr h0
    (by simpa only [List.append_nil, decVal_decText]) (by decide)
  have hz : decVal [] = 0 := rfl
  simp only [List.nil_append, List.length_nil, List.append_nil, decVal_decText, hz, Nat.lt_irrefl, if_false,
    false_and, Nat.sub_zero, Nat.pow_zero, Nat.mul_one] at this
  rw [if_pos (by omega), hsv] at this
  rw [ht, List.append_assoc, this]

/-- **C06 is violated** for labels of magnitude 2147483600 to 2147483648: `acc * 10 + *p++ - '0'` adds the character
    code before it subtracts 48, which overflows `int`. The bound in `C06_label_parses_partial` is exact. -/
theorem C06_is_violated (ws rest : List Char) (v : Int) (hv : 2147483599 < v.natAbs)
    (hw : ∀ c ∈ ws, blank c = true) (h0 : '\x00' ∈ rest) :
    parseInt (ws ++ (intText v ++ rest)) = .ub .signedOverflow := by
  have hs : ∃ sgn s, SignText sgn s ∧ intText v = sgn ++ decText v.natAbs := by
    unfold intText
    split
    · exact ⟨['-'], -1, .minus, rfl⟩
    · exact ⟨[], 1, .none, rfl⟩
  obtain ⟨sgn, s, hs, ht⟩ := hs
  have hd := digits_decText v.natAbs
  have hbs := bodyStart_digits (r := rest) hd Nat.toDigits_ne_nil
  obtain ⟨c, t, hct, hc0, hcb⟩ := bodyStart_sign hs hbs
  have hz : '\x00' ∈ ws ++ (sgn ++ (decText v.natAbs ++ rest)) := by simp [h0]
  rw [ht, List.append_assoc]
  unfold parseInt
  rw [stripLine_ok hz, strip_blanks hw ⟨c, t, hct, hc0, hcb⟩, Res.bind_ok,
    show peek (sgn ++ (decText v.natAbs ++ rest)) = .ok c by rw [hct]; rfl, Res.bind_ok, if_neg hc0,
    intSign_ok hs hbs, Res.bind_ok]
  dsimp only
  have h1 := intDigits_overflow (rest := rest) hd 0 (by decide) (by
    have := decVal_decText v.natAbs
    unfold decVal at this
    rw [this]; exact hv)
  rw [show ((0 : Nat) : Int) = 0 from rfl] at h1
  rw [h1]
  rfl

/-- Both kinds of labels exist among the `int` values, e.g. the largest and the smallest one. -/
example : ((-2147483599 : Int).natAbs ≤ 2147483599) ∧ 2147483599 < (2147483647 : Int).natAbs ∧
    2147483599 < (-2147483648 : Int).natAbs := by decide

/-- An instance of the hypotheses about the text around a number. -/
example : (∀ c ∈ [' ', '\t'], blank c = true) ∧ EndsNumber [':', '0', '.', '5', '\n', '\x00'] ∧ '\x00' ∈ [':', '0', '.', '5', '\n', '\x00'] :=
  ⟨by decide, ⟨':', _, rfl, by decide⟩, by decide⟩

/-- **C06 (labels written as real numbers).** A label `digits.fraction` without exponent is never accepted: the parser
    reports failure (end position = start position), so a data file with labels such as `1.0` is rejected. -/
theorem C06_real_label_rejected (ws sgn ds fs rest : List Char) (s : Int) (hw : ∀ c ∈ ws, blank c = true)
    (hs : SignText sgn s) (hd : Digits ds) (hf : Digits fs) (hne : fs ≠ []) (hm : decVal (ds ++ fs) ≤ 2147483599)
    (hr : EndsNumber rest) (h0 : '\x00' ∈ rest) :
    parseInt (ws ++ (sgn ++ (ds ++ ('.' :: fs ++ rest)))) =
      .ok (0, ws ++ (sgn ++ (ds ++ ('.' :: fs ++ rest)))) := by
  have := parseInt_literal (et := []) (es := []) hw hs hd (.some fs hf) .none (.inr (by simp)) hr h0 hm (by decide)
  rw [if_pos] at this
  · exact this
  · exact List.length_pos_of_ne_nil hne

example : SignText ['-'] (-1) ∧ Digits ['1'] ∧ Digits ['0'] ∧ decVal ['1', '0'] ≤ 2147483599 :=
  ⟨.minus, by decide, by decide, by decide⟩

/-! ## C07: real values -/

/-- The number an exact decimal stands for. -/
def decRat (d : Dec) : ℚ := d.mant * (10 : ℚ) ^ d.exp

/-- The number denoted by the literal `[sign]ds.fs[e[sign]es]`. -/
def literalValue (s : Int) (ds fs : List Char) (sx : Int) (es : List Char) : ℚ :=
  s * (decVal ds + decVal fs / (10 : ℚ) ^ fs.length) * (10 : ℚ) ^ (sx * (decVal es : Int))

theorem ofDigitChars_eq (ds : List Char) (acc : Nat) :
    Nat.ofDigitChars 10 ds acc = acc * 10 ^ ds.length + decVal ds := by
  induction ds generalizing acc with
  | nil => simp [Nat.ofDigitChars]
  | cons c ds ih =>
    rw [decVal, ofDigitChars_cons, ofDigitChars_cons, ih, ih (10 * 0 + _), List.length_cons]
    ring

theorem decVal_append (ds es : List Char) : decVal (ds ++ es) = decVal ds * 10 ^ es.length + decVal es := by
  rw [decVal, ofDigitChars_append, ofDigitChars_eq]

theorem decVal_lt (ds : List Char) (h : Digits ds) : decVal ds < 10 ^ ds.length := by
  induction ds with
  | nil => simp [Nat.ofDigitChars]
  | cons c ds ih =>
    have hc := digit_range (h c (List.mem_cons_self ..))
    have := ih (fun d hd => h d (List.mem_cons_of_mem _ hd))
    rw [decVal, ofDigitChars_cons, ofDigitChars_eq, List.length_cons, Nat.pow_succ]
    have h9 : 10 * 0 + (c.toNat - 48) ≤ 9 := by omega
    have := Nat.mul_le_mul_right (10 ^ ds.length) h9
    omega

/-- The parsed number is the denoted one with the decimals after the seventh cut off. -/
theorem decRat_eq (s : Int) (ds fs : List Char) (sx : Int) (es : List Char) :
    decRat ⟨s * (decVal (ds ++ fs.take 7) : Nat), sx * (decVal es : Nat) - (min 7 fs.length : Nat)⟩ =
      literalValue s ds (fs.take 7) sx es := by
  unfold decRat literalValue
  have hl : (fs.take 7).length = min 7 fs.length := by simp
  have h10 : (10 : ℚ) ≠ 0 := by norm_num
  dsimp only
  rw [← hl, decVal_append, zpow_sub₀ h10, zpow_natCast]
  push_cast
  field_simp

/-- **C07.** A well-formed literal whose mantissa (the digits and at most seven decimals) and exponent fit the
    accumulators is parsed, without overflow, to a decimal that
    * equals the denoted number if there are at most seven decimals,
    * otherwise is not larger in magnitude than the denoted number, and differs from it by less than one unit of the
      seventh decimal, scaled by the exponent;
    parsing stops at the next non-blank character. -/
theorem C07_value_parses (ws sgn ds ft fs et es rest : List Char) (s sx : Int)
    (hw : ∀ c ∈ ws, blank c = true) (hs : SignText sgn s) (hd : Digits ds) (hf : FracText ft fs)
    (he : ExpText et sx es) (hne : ds ≠ [] ∨ ft ≠ []) (hr : EndsNumber rest) (h0 : '\x00' ∈ rest)
    (hm : decVal (ds ++ fs.take 7) ≤ 2147483599) (hx : decVal es ≤ 2147483599) :
    ∃ d, parseFloat (ws ++ (sgn ++ (ds ++ (ft ++ (et ++ rest))))) = .ok (d, rest.dropWhile blank) ∧
      (fs.length ≤ 7 → decRat d = literalValue s ds fs sx es) ∧
      0 ≤ s * (literalValue s ds fs sx es - decRat d) ∧
      s * (literalValue s ds fs sx es - decRat d) < (10 : ℚ) ^ (sx * (decVal es : Int) - 7) ∧
      0 ≤ s * decRat d := by
  refine ⟨_, parseFloat_literal hw hs hd hf he hne hr h0 hm hx, ?_⟩
  rw [decRat_eq]
  have hfd : Digits fs := by cases hf with
    | none => intro c hc; simp at hc
    | some fs h => exact h
  have h10 : (0 : ℚ) < 10 := by norm_num
  have hx0 : (0 : ℚ) < (10 : ℚ) ^ (sx * (decVal es : Int)) := zpow_pos h10 _
  have hs2 : (s : ℚ) * s = 1 := by cases hs <;> simp
  have hnn : (0 : ℚ) ≤ s * literalValue s ds (fs.take 7) sx es := by
    unfold literalValue
    rw [mul_assoc, ← mul_assoc (s : ℚ) (s : ℚ), hs2, one_mul]
    positivity
  by_cases hl : fs.length ≤ 7
  · rw [List.take_of_length_le hl] at hnn ⊢
    refine ⟨fun _ => rfl, ?_, ?_, hnn⟩
    · rw [sub_self, mul_zero]
    · rw [sub_self, mul_zero]; exact zpow_pos h10 _
  · have hsplit : fs = fs.take 7 ++ fs.drop 7 := (List.take_append_drop 7 fs).symm
    have hlen : (fs.take 7).length = 7 := by rw [List.length_take]; omega
    have hlt := decVal_lt (fs.drop 7) (fun c hc => hfd c (List.mem_of_mem_drop hc))
    have hdiff : (s : ℚ) * (literalValue s ds fs sx es - literalValue s ds (fs.take 7) sx es) =
        decVal (fs.drop 7) / (10 : ℚ) ^ (fs.drop 7).length / 10 ^ 7 * (10 : ℚ) ^ (sx * (decVal es : Int)) := by
      generalize ha : fs.take 7 = a at *
      generalize fs.drop 7 = b at *
      have hv : (decVal fs : ℚ) = decVal a * 10 ^ b.length + decVal b := by
        rw [hsplit, decVal_append]; push_cast; rfl
      have hl' : fs.length = 7 + b.length := by rw [hsplit, List.length_append, hlen]
      unfold literalValue
      rw [hv, hl', hlen, pow_add]
      have h1 : (10 : ℚ) ^ b.length ≠ 0 := by positivity
      have : ∀ a b c d e f : ℚ, s * (s * (a + b / c) * f - s * (a + d / e) * f) =
          (s * s) * (b / c - d / e) * f := by intros; ring
      rw [this, hs2, one_mul]
      congr 1
      field_simp
      ring
    refine ⟨fun h => absurd h hl, ?_, ?_, hnn⟩
    · rw [hdiff]; positivity
    · rw [hdiff, zpow_sub₀ h10.ne']
      have h1 : (0 : ℚ) < (10 : ℚ) ^ (fs.drop 7).length := by positivity
      have h2 : (decVal (fs.drop 7) : ℚ) / (10 : ℚ) ^ (fs.drop 7).length < 1 := by
        rw [div_lt_one h1]; exact_mod_cast hlt
      have : (10 : ℚ) ^ (7 : ℤ) = 10 ^ 7 := by norm_cast
      rw [this, div_eq_mul_inv _ ((10 : ℚ) ^ 7), div_eq_mul_inv _ ((10 : ℚ) ^ 7), mul_right_comm]
      have h7 : (0 : ℚ) < ((10 : ℚ) ^ 7)⁻¹ := by positivity
      have := mul_lt_mul_of_pos_right h2 hx0
      rw [one_mul] at this
      exact mul_lt_mul_of_pos_right this h7

/-- An instance with every optional part present and nine decimals: `-1.234567891e-12`. -/
example : SignText ['-'] (-1) ∧ Digits ['1'] ∧ FracText ['.', '2', '3', '4', '5', '6', '7', '8', '9', '1'] ['2', '3', '4', '5', '6', '7', '8', '9', '1'] ∧
    ExpText ['e', '-', '1', '2'] (-1) ['1', '2'] ∧ decVal (['1'] ++ ['2', '3', '4', '5', '6', '7', '8', '9', '1'].take 7) ≤ 2147483599 :=
  ⟨.minus, by decide, .some _ (by decide), .some 'e' (.inl rfl) ['-'] (-1) .minus _ (by decide) (by decide),
    by decide⟩

end Sol.Props
