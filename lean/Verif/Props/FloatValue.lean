import Verif.Proofs.FloatValue
/-!
# Property C72: values in text files are read to the precision of a `float`
-/

namespace Sol.Props
open Sol.NumericParser Sol.Spec Sol.FloatValue Sol.FloatText Sol.TextWriters

/-- A literal of a sign, digits, decimals and an exponent, whose digits and exponent fit the accumulators. -/
structure Literal (sgn ds ft fs et es : List Char) (s sx : Int) : Prop where
  sign : SignText sgn s
  whole : Digits ds
  frac : FracText ft fs
  exp : ExpText et sx es
  some : ds ≠ [] ∨ ft ≠ []
  fits : decVal (ds ++ fs.take 7) ≤ 2147483599
  fits' : decVal es ≤ 2147483599

theorem parse_literal (pw : Int → F32) {ws sgn ds ft fs et es rest : List Char} {s sx : Int} (h : Literal sgn ds ft fs et es s sx)
    (hw : ∀ c ∈ ws, blank c = true) (hr : EndsNumber rest) (h0 : '\x00' ∈ rest) :
    parseValue pw (ws ++ (sgn ++ (ds ++ (ft ++ (et ++ rest))))) =
      .ok (floatOf pw ⟨s * (decVal (ds ++ fs.take 7) : Nat), sx * (decVal es : Nat) - (min 7 fs.length : Nat)⟩, rest.dropWhile blank) := by
  unfold parseValue
  rw [parseFloat_literal hw h.sign h.whole h.frac h.exp h.some hr h0 h.fits h.fits']
  rfl

/-- The digits used differ from the literal by what is cut off after the seventh decimal. -/
theorem cut_off {sgn ds ft fs et es : List Char} {s sx : Int} (h : Literal sgn ds ft fs et es s sx) :
    |literalValue s ds (fs.take 7) sx es| ≤ |literalValue s ds fs sx es| ∧
    |literalValue s ds (fs.take 7) sx es - literalValue s ds fs sx es| ≤
      if fs.length ≤ 7 then 0 else (10 : ℚ) ^ (sx * (decVal es : Int) - 7) := by
  obtain ⟨d, h1, h2, h3, h4, h5⟩ := C07_value_parses [] sgn ds ft fs et es ['\n', '\x00'] s sx (by simp) h.sign h.whole h.frac h.exp h.some
    ⟨'\n', _, rfl, by decide⟩ (by simp) h.fits h.fits'
  have h1' := parseFloat_literal (ws := []) (rest := ['\n', '\x00']) (by simp) h.sign h.whole h.frac h.exp h.some
    ⟨'\n', _, rfl, by decide⟩ (by simp) h.fits h.fits'
  rw [h1'] at h1
  obtain rfl := (Prod.mk.inj (Res.ok.inj h1)).1
  rw [decRat_eq] at h2 h3 h4 h5
  have hs1 : |(s : ℚ)| = 1 := by cases h.sign <;> simp
  have ha : ∀ z : ℚ, |z| = |(s : ℚ) * z| := fun z => by rw [abs_mul, hs1, one_mul]
  constructor
  · rw [ha, ha (literalValue s ds fs sx es), abs_of_nonneg h5, abs_of_nonneg (by linarith)]
    linarith
  · split
    · rename_i hl
      rw [h2 hl, sub_self, abs_zero]
    · rw [abs_sub_comm, ha, abs_of_nonneg h3]
      exact h4.le

/-- **C72, the part that holds.** A literal that is not too large is read to a `float` that differs from the number it denotes by at
    most 2^-22 of it and 2^-118, besides the decimals after the seventh, which are cut off.  Missing: a bound relative to the number
    for tiny numbers, and zeros with large exponents (`C72_is_violated`). -/
theorem C72_value_partial (pw : Int → F32) (hpw : Powf pw) (ws sgn ds ft fs et es rest : List Char) (s sx : Int)
    (h : Literal sgn ds ft fs et es s sx) (hw : ∀ c ∈ ws, blank c = true) (hr : EndsNumber rest) (h0 : '\x00' ∈ rest)
    (hz : decVal (ds ++ fs.take 7) ≠ 0 ∨ sx * decVal es ≤ 38) (hb : |literalValue s ds fs sx es| ≤ 340281 * 10 ^ 33) :
    ∃ v, parseValue pw (ws ++ (sgn ++ (ds ++ (ft ++ (et ++ rest))))) = .ok (.fin v, rest.dropWhile blank) ∧
      |v - literalValue s ds fs sx es| ≤ |literalValue s ds fs sx es| / 2 ^ 22 + 2 ^ (-118 : ℤ) +
        if fs.length ≤ 7 then 0 else (10 : ℚ) ^ (sx * (decVal es : Int) - 7) := by
  obtain ⟨c1, c2⟩ := cut_off h
  have e := decRat_eq s ds fs sx es
  unfold decRat at e
  have hs1 : |s| = 1 := by cases h.sign <;> simp
  have hfit := h.fits
  obtain ⟨v, h1, h2⟩ := value_near hpw (d := ⟨s * (decVal (ds ++ fs.take 7) : Nat), sx * (decVal es : Nat) - (min 7 fs.length : Nat)⟩)
    (by simp only; rw [abs_mul, hs1, one_mul, Nat.abs_cast]; omega)
    (by
      simp only
      rcases hz with hz | hz
      · by_contra hc
        have hb' := c1.trans hb
        rw [← e, abs_mul] at hb'
        have : (1 : ℚ) ≤ |((s * (decVal (ds ++ fs.take 7) : Nat) : Int) : ℚ)| := by
          have : 1 ≤ |s * ((decVal (ds ++ fs.take 7) : Nat) : Int)| := by
            rw [abs_mul, hs1, one_mul, Nat.abs_cast]; omega
          exact_mod_cast this
        have h39 : (10 : ℚ) ^ (39 : ℤ) ≤ 10 ^ (sx * (decVal es : Nat) - (min 7 fs.length : Nat) : ℤ) :=
          zpow_le_zpow_right₀ (by norm_num) (by omega)
        simp only at hb'
        rw [abs_of_pos (show (0 : ℚ) < 10 ^ (sx * (decVal es : Nat) - (min 7 fs.length : Nat) : ℤ) by positivity)] at hb'
        have h40 : (10 : ℚ) ^ (39 : ℤ) ≤ 340281 * 10 ^ 33 := by nlinarith
        norm_num at h40
      · omega)
    (by rw [e]; exact c1.trans hb)
  refine ⟨v, by rw [parse_literal pw h hw hr h0, h1], ?_⟩
  rw [e] at h2
  have h3 := abs_sub_le v (literalValue s ds (fs.take 7) sx es) (literalValue s ds fs sx es)
  have h4 := div_le_div_of_nonneg_right c1 (show (0 : ℚ) ≤ 2 ^ 22 by norm_num)
  linarith

theorem mul_pinf {r : ℚ} (h : 0 < r) : (F32.fin r) * F32.pinf = F32.pinf := by
  show F32.mul _ _ = _
  simp only [F32.mul, F32.sgn, if_pos h]
  rfl

theorem neg_mul_pinf {r : ℚ} (h : 0 < r) : (F32.neg (F32.fin r)) * F32.pinf = F32.ninf := by
  show F32.mul _ _ = _
  simp only [F32.mul, F32.neg, F32.sgn]
  rw [if_neg (by linarith), if_pos (by linarith)]
  rfl

/-- A number whose exponent is too large is read as an infinity of its sign. -/
theorem C72_large (pw : Int → F32) (hpw : Powf pw) (ws sgn ds ft fs et es rest : List Char) (s sx : Int)
    (h : Literal sgn ds ft fs et es s sx) (hw : ∀ c ∈ ws, blank c = true) (hr : EndsNumber rest) (h0 : '\x00' ∈ rest)
    (hz : decVal (ds ++ fs.take 7) ≠ 0) (hb : 39 + (min 7 fs.length : Nat) ≤ sx * (decVal es : Int)) :
    parseValue pw (ws ++ (sgn ++ (ds ++ (ft ++ (et ++ rest))))) = .ok (if s = 1 then .pinf else .ninf, rest.dropWhile blank) := by
  rw [parse_literal pw h hw hr h0]
  unfold floatOf
  simp only
  rw [if_neg (by omega), powf_large hpw (by omega)]
  have hfit := h.fits
  generalize decVal (ds ++ fs.take 7) = N at *
  obtain ⟨r, hr1, hr2⟩ := round_near (d := (N : ℚ)) (by
    rw [Nat.abs_cast]
    have : (N : ℚ) ≤ 2147483599 := by exact_mod_cast hfit
    exact this.trans (by norm_num))
  have hr0 : 0 < r := by
    have hN : (1 : ℚ) ≤ N := by exact_mod_cast Nat.one_le_iff_ne_zero.2 hz
    rw [Nat.abs_cast] at hr2
    have := (abs_le.1 hr2).1
    have e1 : (2 : ℚ) ^ (-150 : ℤ) ≤ 1 / 2 := by norm_num
    have e2 : (N : ℚ) / 2 ^ 24 ≤ N / 4 := div_le_div_of_nonneg_left (by linarith) (by norm_num) (by norm_num)
    linarith
  have hcast : ∀ m : Int, ((m : Int) : F32) = F32.round (m : ℚ) := fun _ => rfl
  cases h.sign with
  | none =>
    rw [hcast, one_mul, Int.cast_natCast, hr1, if_pos rfl]
    rw [mul_pinf hr0]
  | plus =>
    rw [hcast, one_mul, Int.cast_natCast, hr1, if_pos rfl]
    rw [mul_pinf hr0]
  | minus =>
    rw [hcast, Int.cast_mul, Int.cast_natCast, Int.cast_neg, Int.cast_one, neg_one_mul, F32.round_neg, hr1, if_neg (by decide)]
    rw [neg_mul_pinf hr0]

/-- **C72, printed values.** A value that is zero or of ordinary size, printed with `%g` and read, differs by at most 6/10^6 of it; between
    0.0001 and 0.01, where `%g` may print more than seven decimals, also by 10^-7.  Outside this range printing the value read
    gives the same text again. -/
theorem C72_printed (pw : Int → F32) (hpw : Powf pw) (q : ℚ) (hs : Single q) (hq : q = 0 ∨ 1 / 10 ^ 27 ≤ |q|) (hb : |q| ≤ 34 * 10 ^ 37)
    (rest : List Char) (hr : EndsNumber rest) (h0 : '\x00' ∈ rest) :
    ∃ v, parseValue pw (put (.fin q) ++ rest) = .ok (.fin v, rest.dropWhile blank) ∧ (q = 0 → v = 0) ∧
      |v - q| ≤ |q| * (6 / 10 ^ 6) + (if |q| < 1 / 10 ^ 4 ∨ 1 / 100 ≤ |q| then 0 else 1 / 10 ^ 7) ∧
      (|q| < 1 / 10 ^ 4 ∨ 1 / 100 ≤ |q| → put (.fin v) = put (.fin q)) := by
  obtain ⟨d, h1, h2⟩ := parseFloat_gText (six q) (six_printable hs) rest hr h0
  obtain ⟨v, h3, h4, -, h5, h6⟩ := floatOf_close hpw hs hq hb h2
  refine ⟨v, ?_, h4, h5, h6⟩
  unfold parseValue put fmtG
  rw [h1, Res.bind_ok]
  dsimp only
  rw [h3]

/-- The hypotheses can be met: `powf` rounded correctly; `-1.234567891e-12`; the smallest and largest values of `C72_printed`. -/
theorem C72_instance : Powf (fun k => F32.round ((10 : ℚ) ^ k)) ∧
    Literal ['-'] ['1'] ['.', '2', '3', '4', '5', '6', '7', '8', '9', '1'] ['2', '3', '4', '5', '6', '7', '8', '9', '1'] ['e', '-', '1', '2'] ['1', '2'] (-1) (-1) ∧
    Single (1 / 2 ^ 89) ∧ (1 : ℚ) / 10 ^ 27 ≤ |1 / 2 ^ 89| ∧ Single (2 ^ 127) ∧ |(2 : ℚ) ^ 127| ≤ 34 * 10 ^ 37 ∧
    parseValue (fun k => F32.round ((10 : ℚ) ^ k)) (['-', '1', '.', '2', '5', 'e', '3', ' ', '\x00']) = .ok (.fin (-1250), ['\x00']) := by
  refine ⟨fun k => ⟨_, by rw [sub_self, abs_zero]; positivity, rfl⟩, ⟨.minus, by decide, .some _ (by decide), .some 'e' (.inl rfl) ['-'] (-1) .minus _ (by decide)
    (by decide), .inl (by decide), by decide, by decide⟩, ⟨1, -89, by norm_num, by norm_num, by norm_num, by norm_num⟩, by rw [abs_of_pos (by positivity)]; norm_num,
    ⟨2 ^ 23, 104, by norm_num, by norm_num, by norm_num, by norm_num⟩, by norm_num, by decide +kernel⟩

/-- **C72 is violated** in two ways.  A zero written with a large exponent is read as NaN (0 times infinity).  A tiny value is read with a large
    error, because the power of ten is rounded to a multiple of 2^-149 first: 2^-126, printed as `1.17549e-38`, comes back smaller by
    more than 0.5 percent. -/
theorem C72_is_violated (pw : Int → F32) (hpw : Powf pw) :
    (∀ (ws sgn ds ft fs et es rest : List Char) (s sx : Int), Literal sgn ds ft fs et es s sx → (∀ c ∈ ws, blank c = true) → EndsNumber rest →
      '\x00' ∈ rest → decVal (ds ++ fs.take 7) = 0 → 39 + (min 7 fs.length : Nat) ≤ sx * (decVal es : Int) →
      parseValue pw (ws ++ (sgn ++ (ds ++ (ft ++ (et ++ rest))))) = .ok (.nan, rest.dropWhile blank)) ∧
    Literal [] ['0'] [] [] ['e', '3', '9'] ['3', '9'] 1 1 ∧ Single (1 / 2 ^ 126) ∧
    put (.fin (1 / 2 ^ 126)) = "1.17549e-38".toList ∧
    ∃ v, parseValue pw ("1.17549e-38\n\x00".toList) = .ok (.fin v, ['\x00']) ∧ v < 1 / 2 ^ 126 * (1 - 5 / 1000) := by
  refine ⟨?_, ⟨.none, by decide, .none, .some 'e' (.inl rfl) [] 1 .none _ (by decide) (by decide), .inl (by decide), by decide, by decide⟩,
    ⟨1, -126, by norm_num, by norm_num, by norm_num, by norm_num⟩, by decide +kernel, ?_⟩
  · intro ws sgn ds ft fs et es rest s sx h hw hr h0 hz hb
    rw [parse_literal pw h hw hr h0, hz]
    unfold floatOf
    simp only
    rw [if_neg (by omega), powf_large hpw (by omega)]
    simp only [Nat.cast_zero, mul_zero]
    rfl
  · obtain ⟨q, hq, he⟩ := hpw (-43)
    have hq' := abs_le.1 hq
    have e43 : (10 : ℚ) ^ (-43 : ℤ) = 1 / 10 ^ 43 := by norm_num
    rw [e43] at hq'
    have hq0 : 0 < q := by
      have : (0 : ℚ) < 1 / 10 ^ 43 - 1 / 10 ^ 43 / 2 ^ 40 := by norm_num
      linarith
    have hq1 : q ≤ 1 / 10 ^ 43 + 1 / 10 ^ 43 / 2 ^ 40 := by linarith
    have hq2 : 1 / 10 ^ 43 - 1 / 10 ^ 43 / 2 ^ 40 ≤ q := by linarith
    obtain ⟨r, n, u, hr, er, b1, b2, hu, -, hb⟩ := round_bounds hq0 (hq1.trans (by norm_num))
    have hu' : u = -149 := by
      rcases hb with h | h
      · exact h
      · have : (2 : ℚ) ^ (u + 23) ≤ 2 ^ (-126 : ℤ) := h.trans (hq1.trans (by norm_num))
        have := (zpow_le_zpow_iff_right₀ (by norm_num : (1 : ℚ) < 2)).1 this
        omega
    subst hu'
    have e149 : (2 : ℚ) ^ (-149 : ℤ) = 1 / 2 ^ 149 := by norm_num
    rw [e149] at b1 b2 er
    have n1 : (n : ℚ) < 72 := by
      refine lt_of_le_of_lt b2 ?_
      have : q / (1 / 2 ^ 149) ≤ (1 / 10 ^ 43 + 1 / 10 ^ 43 / 2 ^ 40) / (1 / 2 ^ 149) := div_le_div_of_nonneg_right hq1 (by norm_num)
      have e : ((1 / 10 ^ 43 + 1 / 10 ^ 43 / 2 ^ 40) / (1 / 2 ^ 149) : ℚ) < 71 + 1 / 2 := by norm_num
      linarith
    have n2 : (70 : ℚ) < n := by
      refine lt_of_lt_of_le ?_ b1
      have : (1 / 10 ^ 43 - 1 / 10 ^ 43 / 2 ^ 40) / (1 / 2 ^ 149) ≤ q / (1 / 2 ^ 149) := div_le_div_of_nonneg_right hq2 (by norm_num)
      have e : (70 + 1 / 2 : ℚ) < ((1 / 10 ^ 43 - 1 / 10 ^ 43 / 2 ^ 40) / (1 / 2 ^ 149) : ℚ) := by norm_num
      linarith
    have hn : n = 71 := by
      have h1 : n < 72 := by exact_mod_cast n1
      have h2 : 70 < n := by exact_mod_cast n2
      omega
    subst hn
    have hl : Literal [] ['1'] ['.', '1', '7', '5', '4', '9'] ['1', '7', '5', '4', '9'] ['e', '-', '3', '8'] ['3', '8'] 1 (-1) :=
      ⟨.none, by decide, .some _ (by decide), .some 'e' (.inl rfl) ['-'] (-1) .minus _ (by decide) (by decide), .inl (by decide), by decide, by decide⟩
    have hp := parse_literal pw (ws := []) (rest := ['\n', '\x00']) hl (by simp) ⟨'\n', _, rfl, by decide⟩ (by simp)
    have ed : (⟨1 * (decVal (['1'] ++ (['1', '7', '5', '4', '9'] : List Char).take 7) : Nat), -1 * (decVal ['3', '8'] : Nat) -
        (min 7 ['1', '7', '5', '4', '9'].length : Nat)⟩ : Dec) = ⟨117549, -43⟩ := by decide +kernel
    rw [ed] at hp
    have ef : floatOf pw ⟨117549, -43⟩ = .fin (8345979 * (1 / 2 ^ 149)) := by
      unfold floatOf
      simp only
      rw [if_neg (by decide), he, hr, er]
      have e1 : ((117549 : Int) : F32) = .fin 117549 := by decide +kernel
      rw [e1, F32.fin_mul]
      have e2 : (117549 * (((71 : Nat) : ℚ) * (1 / 2 ^ 149)) : ℚ) = 8345979 * (1 / 2 ^ 149) := by norm_num
      rw [e2]
      exact round_single ⟨8345979, -149, by norm_num, by norm_num, by norm_num, by norm_num⟩
    rw [ef] at hp
    refine ⟨8345979 * (1 / 2 ^ 149), ?_, ?_⟩
    · exact hp
    · norm_num

end Sol.Props
