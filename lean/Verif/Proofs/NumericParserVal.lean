import Verif.Proofs.NumericParser
import Verif.Spec.Decimal
/-!
# Lemmas about the numeric parser: the values computed from decimal text
-/

namespace Sol.NumericParser
open Sol.Spec

theorem isDigit_eq (c : Char) : isDigit c = c.isDigit := by
  simp only [isDigit, Char.isDigit]
  rfl

theorem isSpace_eq (c : Char) : isSpace c = blank c := rfl

theorem digit_range {c : Char} (h : c.isDigit = true) : 48 ≤ c.toNat ∧ c.toNat ≤ 57 := by
  simp only [Char.isDigit, Bool.and_eq_true, decide_eq_true_eq] at h
  exact ⟨UInt32.le_iff_toNat_le.1 h.1, UInt32.le_iff_toNat_le.1 h.2⟩

/-- `c :: t` with `c` not a digit. -/
def StopsDigits (rest : List Char) : Prop := ∃ c t, rest = c :: t ∧ c.isDigit = false

theorem ofDigitChars_cons (c : Char) (ds : List Char) (acc : Nat) :
    Nat.ofDigitChars 10 (c :: ds) acc = Nat.ofDigitChars 10 ds (10 * acc + (c.toNat - 48)) := by
  have h0 : '0'.toNat = 48 := by decide
  rw [Nat.ofDigitChars, List.foldl_cons, h0, Nat.ofDigitChars, h0]

theorem ofDigitChars_append (ds es : List Char) (acc : Nat) :
    Nat.ofDigitChars 10 (ds ++ es) acc = Nat.ofDigitChars 10 es (Nat.ofDigitChars 10 ds acc) := by
  simp [Nat.ofDigitChars, List.foldl_append]

theorem le_ofDigitChars (ds : List Char) (acc : Nat) : acc ≤ Nat.ofDigitChars 10 ds acc := by
  induction ds generalizing acc with
  | nil => exact Nat.le_refl _
  | cons c ds ih =>
    rw [ofDigitChars_cons]
    have := ih (10 * acc + (c.toNat - 48))
    omega

theorem accInt_ok {acc : Nat} {c : Char} (h : c.isDigit = true)
    (hb : 10 * acc + (c.toNat - 48) ≤ 2147483599) :
    accInt acc c = .ok ((10 * acc + (c.toNat - 48) : Nat) : Int) := by
  have := digit_range h
  unfold accInt chkInt
  rw [if_pos (by omega)]
  simp only [Res.bind_ok]
  rw [if_pos (by omega)]
  simp only [Res.bind_ok]
  rw [if_pos (by omega)]
  congr 1
  omega

theorem accInt_overflow {acc : Nat} {c : Char} (h : c.isDigit = true)
    (hb : 2147483599 < 10 * acc + (c.toNat - 48)) :
    accInt acc c = .ub .signedOverflow := by
  have := digit_range h
  unfold accInt chkInt
  split
  · simp only [Res.bind_ok]
    rw [if_neg (by omega)]
    rfl
  · rfl

theorem intDigits_ok {ds rest : List Char} (hd : Digits ds) (hr : StopsDigits rest) (acc : Nat)
    (hb : Nat.ofDigitChars 10 ds acc ≤ 2147483599) :
    intDigits acc (ds ++ rest) = .ok ((Nat.ofDigitChars 10 ds acc : Nat), rest) := by
  induction ds generalizing acc with
  | nil =>
    obtain ⟨c, t, rfl, hc⟩ := hr
    simp [intDigits, isDigit_eq, hc, Nat.ofDigitChars]
  | cons c ds ih =>
    have hc := hd c (List.mem_cons_self ..)
    rw [ofDigitChars_cons] at hb ⊢
    have hle := le_ofDigitChars ds (10 * acc + (c.toNat - 48))
    rw [List.cons_append, intDigits, isDigit_eq, if_pos hc, accInt_ok hc (by omega), Res.bind_ok]
    exact ih (fun d h => hd d (List.mem_cons_of_mem _ h)) _ hb

theorem intDigits_overflow {ds rest : List Char} (hd : Digits ds) (acc : Nat) (ha : acc ≤ 2147483599)
    (hb : 2147483599 < Nat.ofDigitChars 10 ds acc) :
    intDigits acc (ds ++ rest) = .ub .signedOverflow := by
  induction ds generalizing acc with
  | nil => simp [Nat.ofDigitChars] at hb; omega
  | cons c ds ih =>
    have hc := hd c (List.mem_cons_self ..)
    rw [ofDigitChars_cons] at hb
    rw [List.cons_append, intDigits, isDigit_eq, if_pos hc]
    by_cases h : 10 * acc + (c.toNat - 48) ≤ 2147483599
    · rw [accInt_ok hc h, Res.bind_ok]
      exact ih (fun d h => hd d (List.mem_cons_of_mem _ h)) _ h hb
    · rw [accInt_overflow hc (by omega)]; rfl

theorem intDecimals_ok {ds rest : List Char} (hd : Digits ds) (hr : StopsDigits rest) (acc n : Nat)
    (hb : Nat.ofDigitChars 10 ds acc ≤ 2147483599) :
    intDecimals acc n none (ds ++ rest) = .ok ((Nat.ofDigitChars 10 ds acc : Nat), n + ds.length, rest) := by
  induction ds generalizing acc n with
  | nil =>
    obtain ⟨c, t, rfl, hc⟩ := hr
    simp [intDecimals, isDigit_eq, hc, Nat.ofDigitChars]
  | cons c ds ih =>
    have hc := hd c (List.mem_cons_self ..)
    rw [ofDigitChars_cons] at hb ⊢
    have hle := le_ofDigitChars ds (10 * acc + (c.toNat - 48))
    rw [List.cons_append, intDecimals, isDigit_eq, if_pos (by simp [hc]), accInt_ok hc (by omega), Res.bind_ok,
      ih (fun d h => hd d (List.mem_cons_of_mem _ h)) _ _ hb, List.length_cons, Nat.add_right_comm, Nat.add_assoc]

theorem intDecimals7_ok {ds rest : List Char} (hd : Digits ds) (hr : StopsDigits rest) (acc n : Nat) (hn : n ≤ 7)
    (hb : Nat.ofDigitChars 10 (ds.take (7 - n)) acc ≤ 2147483599) :
    intDecimals acc n (some 7) (ds ++ rest) =
      .ok ((Nat.ofDigitChars 10 (ds.take (7 - n)) acc : Nat), n + min (7 - n) ds.length,
        ds.drop (7 - n) ++ rest) := by
  induction ds generalizing acc n with
  | nil =>
    obtain ⟨c, t, rfl, hc⟩ := hr
    simp [intDecimals, isDigit_eq, hc, Nat.ofDigitChars]
  | cons c ds ih =>
    have hc := hd c (List.mem_cons_self ..)
    by_cases h7 : n = 7
    · subst h7
      simp [intDecimals, Nat.ofDigitChars]
    · have hs : 7 - n = (7 - (n + 1)) + 1 := by omega
      rw [hs, List.take_succ_cons, ofDigitChars_cons] at hb
      rw [hs, List.take_succ_cons, ofDigitChars_cons, List.drop_succ_cons]
      have hle := le_ofDigitChars (ds.take (7 - (n + 1))) (10 * acc + (c.toNat - 48))
      rw [List.cons_append, intDecimals, isDigit_eq,
        if_pos (by simp only [hc, Bool.true_and, bne_iff_ne]; simp; omega),
        accInt_ok hc (by omega), Res.bind_ok,
        ih (fun d h => hd d (List.mem_cons_of_mem _ h)) _ _ (by omega) hb, List.length_cons]
      congr 3
      omega

theorem skipDigits_ok {ds rest : List Char} (hd : Digits ds) (hr : StopsDigits rest) :
    skipDigits (ds ++ rest) = .ok rest := by
  induction ds with
  | nil =>
    obtain ⟨c, t, rfl, hc⟩ := hr
    simp [skipDigits, isDigit_eq, hc]
  | cons c ds ih =>
    have hc := hd c (List.mem_cons_self ..)
    rw [List.cons_append, skipDigits, isDigit_eq, if_pos hc]
    exact ih (fun d h => hd d (List.mem_cons_of_mem _ h))

theorem accUint (acc : Nat) {c : Char} (h : c.isDigit = true) :
    UInt32.ofNat acc * 10 + UInt32.ofNat c.toNat - 48 = UInt32.ofNat (10 * acc + (c.toNat - 48)) := by
  have := digit_range h
  apply UInt32.toNat_inj.1
  simp only [UInt32.toNat_sub, UInt32.toNat_add, UInt32.toNat_mul, UInt32.toNat_ofNat', UInt32.toNat_ofNat]
  omega

theorem uintDigits_ok {ds rest : List Char} (hd : Digits ds) (hr : StopsDigits rest) (acc : Nat) :
    uintDigits (UInt32.ofNat acc) (ds ++ rest) = .ok (UInt32.ofNat (Nat.ofDigitChars 10 ds acc), rest) := by
  induction ds generalizing acc with
  | nil =>
    obtain ⟨c, t, rfl, hc⟩ := hr
    simp [uintDigits, isDigit_eq, hc, Nat.ofDigitChars]
  | cons c ds ih =>
    have hc := hd c (List.mem_cons_self ..)
    rw [List.cons_append, uintDigits, isDigit_eq, if_pos hc, accUint acc hc, ofDigitChars_cons]
    exact ih (fun d h => hd d (List.mem_cons_of_mem _ h)) _

theorem stripLine_ok {p : Ptr} (h : '\x00' ∈ p) : stripLine p = .ok (p.dropWhile blank) := by
  induction p with
  | nil => simp at h
  | cons c p ih =>
    rw [stripLine, List.dropWhile_cons, isSpace_eq]
    split
    · rename_i hb
      apply ih
      have : c ≠ '\x00' := by rintro rfl; revert hb; decide
      simpa [Ne.symm this] using h
    · rfl

theorem endsNumber_stops {rest : List Char} (h : EndsNumber rest) : StopsDigits rest := by
  obtain ⟨c, t, h1, h2, _⟩ := h
  exact ⟨c, t, h1, h2⟩

theorem stops_cons {c : Char} {t : List Char} (h : c.isDigit = false) : StopsDigits (c :: t) := ⟨c, t, rfl, h⟩

/-! ### Signs, decimals, exponents as text -/

theorem digit_ne {c : Char} (h : c.isDigit = true) : c ≠ '\x00' ∧ c ≠ '+' ∧ c ≠ '-' ∧ c ≠ '.' ∧ c ≠ 'e' ∧ c ≠ 'E' := by
  refine ⟨?_, ?_, ?_, ?_, ?_, ?_⟩ <;> (rintro rfl; revert h; decide)

theorem digit_not_blank {c : Char} (h : c.isDigit = true) : blank c = false := by
  have := digit_range h
  cases hb : blank c
  · rfl
  · simp only [blank, Bool.or_eq_true, beq_iff_eq] at hb
    rcases hb with ((rfl | rfl) | rfl) | rfl <;> revert this <;> decide

/-- The text behind the fraction: it does not continue it. -/
def AfterFrac (r : List Char) : Prop := ∃ c t, r = c :: t ∧ c.isDigit = false ∧ c ≠ '.'

/-- The text behind the sign: it is not a sign, blank or terminator. -/
def BodyStart (r : List Char) : Prop :=
  ∃ c t, r = c :: t ∧ c ≠ '\x00' ∧ c ≠ '+' ∧ c ≠ '-' ∧ blank c = false

theorem AfterFrac.stops {r : List Char} (h : AfterFrac r) : StopsDigits r := by
  obtain ⟨c, t, h1, h2, _⟩ := h
  exact ⟨c, t, h1, h2⟩

theorem afterFrac_exp {et rest es : List Char} {s : Int} (h : ExpText et s es) (hr : EndsNumber rest) :
    AfterFrac (et ++ rest) := by
  cases h with
  | none =>
    obtain ⟨c, t, h1, h2, h3, _⟩ := hr
    exact ⟨c, t, h1, h2, h3⟩
  | some m hm sgn s hs es hes hne =>
    refine ⟨m, sgn ++ es ++ rest, by simp, ?_, ?_⟩
    · rcases hm with rfl | rfl <;> decide
    · rcases hm with rfl | rfl <;> decide

theorem stops_frac {ft fs r : List Char} (h : FracText ft fs) (hr : AfterFrac r) : StopsDigits (ft ++ r) := by
  cases h with
  | none => exact hr.stops
  | some fs h => exact stops_cons (by decide)

theorem bodyStart_digits {ds r : List Char} (hd : Digits ds) (hne : ds ≠ []) : BodyStart (ds ++ r) := by
  cases ds with
  | nil => exact absurd rfl hne
  | cons c ds =>
    have hc := hd c (List.mem_cons_self ..)
    have := digit_ne hc
    exact ⟨c, ds ++ r, rfl, this.1, this.2.1, this.2.2.1, digit_not_blank hc⟩

theorem bodyStart_mant {ds ft fs r : List Char} (hd : Digits ds) (hf : FracText ft fs) (hne : ds ≠ [] ∨ ft ≠ []) :
    BodyStart (ds ++ (ft ++ r)) := by
  cases ds with
  | nil =>
    cases hf with
    | none => simp at hne
    | some fs h => exact ⟨'.', fs ++ r, rfl, by decide, by decide, by decide, by decide⟩
  | cons c ds => exact bodyStart_digits hd (by simp)

theorem intSign_ok {sgn r : List Char} {s : Int} (h : SignText sgn s) (hr : BodyStart r) :
    intSign (sgn ++ r) = .ok (s, r) := by
  obtain ⟨c, t, rfl, _, h2, h3, _⟩ := hr
  cases h <;> simp [intSign, peek, h2, h3]

theorem floatSign_ok {sgn r : List Char} {s : Int} (h : SignText sgn s) (hr : BodyStart r) :
    floatSign (sgn ++ r) = .ok (s, r) := by
  obtain ⟨c, t, rfl, _, h2, h3, _⟩ := hr
  cases h <;> simp [floatSign, skipChar, peek, h2, h3]

theorem intFraction_ok {ft fs r : List Char} (h : FracText ft fs) (hr : AfterFrac r) (acc : Nat)
    (hb : Nat.ofDigitChars 10 fs acc ≤ 2147483599) :
    intFraction acc (ft ++ r) = .ok ((Nat.ofDigitChars 10 fs acc : Nat), fs.length, r) := by
  cases h with
  | none =>
    obtain ⟨c, t, rfl, h1, h2⟩ := hr
    simp [intFraction, peek, h2, Nat.ofDigitChars]
  | some fs h =>
    simp only [intFraction, peek, List.cons_append, Res.bind_ok, if_pos, List.tail_cons]
    rw [intDecimals_ok h hr.stops acc 0 hb, Nat.zero_add]

theorem uintDecimals_ok {ds rest : List Char} (hd : Digits ds) (hr : StopsDigits rest) (acc n : Nat) :
    uintDecimals (UInt32.ofNat acc) n (ds ++ rest) =
      .ok (UInt32.ofNat (Nat.ofDigitChars 10 ds acc), n + ds.length, rest) := by
  induction ds generalizing acc n with
  | nil =>
    obtain ⟨c, t, rfl, hc⟩ := hr
    simp [uintDecimals, isDigit_eq, hc, Nat.ofDigitChars]
  | cons c ds ih =>
    have hc := hd c (List.mem_cons_self ..)
    rw [List.cons_append, uintDecimals, isDigit_eq, if_pos hc, accUint acc hc, ofDigitChars_cons,
      ih (fun d h => hd d (List.mem_cons_of_mem _ h)), List.length_cons, Nat.add_right_comm, Nat.add_assoc]

theorem uintFraction_ok {ft fs r : List Char} (h : FracText ft fs) (hr : AfterFrac r) (acc : Nat) :
    uintFraction (UInt32.ofNat acc) (ft ++ r) = .ok (UInt32.ofNat (Nat.ofDigitChars 10 fs acc), fs.length, r) := by
  cases h with
  | none =>
    obtain ⟨c, t, rfl, h1, h2⟩ := hr
    simp [uintFraction, peek, h2, Nat.ofDigitChars]
  | some fs h =>
    simp only [uintFraction, peek, List.cons_append, Res.bind_ok, if_pos, List.tail_cons]
    rw [uintDecimals_ok h hr.stops acc 0, Nat.zero_add]

theorem floatFraction_ok {ft fs r : List Char} (h : FracText ft fs) (hr : AfterFrac r) (acc : Nat)
    (hb : Nat.ofDigitChars 10 (fs.take 7) acc ≤ 2147483599) :
    floatFraction acc (ft ++ r) = .ok ((Nat.ofDigitChars 10 (fs.take 7) acc : Nat), min 7 fs.length, r) := by
  cases h with
  | none =>
    obtain ⟨c, t, rfl, h1, h2⟩ := hr
    simp [floatFraction, peek, h2, Nat.ofDigitChars]
  | some fs h =>
    simp only [floatFraction, peek, List.cons_append, Res.bind_ok, if_pos, List.tail_cons]
    rw [intDecimals7_ok h hr.stops acc 0 (by omega) hb]
    simp only [Res.bind_ok, Nat.sub_zero, Nat.zero_add]
    rw [skipDigits_ok (fun c hc => h c (List.mem_of_mem_drop hc)) hr.stops]
    rfl

theorem intExponent_ok {et es rest : List Char} (h : ExpText et 1 es) (hr : EndsNumber rest)
    (hb : decVal es ≤ 2147483599) :
    intExponent (et ++ rest) = .ok ((decVal es : Nat), rest) := by
  generalize hs1 : (1 : Int) = s1 at h
  cases h with
  | none =>
    obtain ⟨c, t, rfl, h1, h2, h3, h4⟩ := hr
    simp [intExponent, peek, h3, h4]
  | some m hm sgn s hs es h hne =>
    have hp : peek ((m :: (sgn ++ es)) ++ rest) = .ok m := rfl
    rw [intExponent, hp, Res.bind_ok, if_pos hm]
    have hsk : skipChar '+' (sgn ++ (es ++ rest)) = .ok (es ++ rest) := by
      obtain ⟨c, t, hct, _, h2, _, _⟩ := bodyStart_digits (r := rest) h hne
      cases hs with
      | none => simp [skipChar, hct, peek, h2]
      | plus => simp [skipChar, peek]
      | minus => simp at hs1
    have hp' : List.tail ((m :: (sgn ++ es)) ++ rest) = sgn ++ (es ++ rest) := by simp
    rw [hp', hsk, Res.bind_ok]
    exact intDigits_ok h (endsNumber_stops hr) 0 hb

theorem floatExponent_ok {et es rest : List Char} {s : Int} (h : ExpText et s es) (hr : EndsNumber rest)
    (hb : decVal es ≤ 2147483599) :
    floatExponent (et ++ rest) = .ok (s * (decVal es : Nat), rest) := by
  cases h with
  | none =>
    obtain ⟨c, t, rfl, h1, h2, h3, h4⟩ := hr
    simp [floatExponent, peek, h3, h4]
  | some m hm sgn s hs es h hne =>
    have hp : peek ((m :: (sgn ++ es)) ++ rest) = .ok m := rfl
    rw [floatExponent, hp, Res.bind_ok, if_pos hm]
    have hp' : List.tail ((m :: (sgn ++ es)) ++ rest) = sgn ++ (es ++ rest) := by simp
    rw [hp', floatSign_ok hs (bodyStart_digits h hne), Res.bind_ok]
    dsimp only
    have := intDigits_ok h (endsNumber_stops hr) 0 hb
    rw [show ((0 : Nat) : Int) = 0 from rfl] at this
    rw [this, Res.bind_ok]
    dsimp only
    have hcs : s = 1 ∨ s = -1 := by cases hs <;> simp
    unfold decVal at hb
    rw [chkInt, if_pos, Res.bind_ok, Int.mul_comm]
    rcases hcs with rfl | rfl <;> omega

theorem bodyStart_sign {sgn r : List Char} {s : Int} (h : SignText sgn s) (hr : BodyStart r) :
    ∃ c t, sgn ++ r = c :: t ∧ c ≠ '\x00' ∧ blank c = false := by
  obtain ⟨c, t, rfl, h1, h2, h3, h4⟩ := hr
  cases h with
  | none => exact ⟨c, t, rfl, h1, h4⟩
  | plus => exact ⟨_, _, rfl, by decide, by decide⟩
  | minus => exact ⟨_, _, rfl, by decide, by decide⟩

theorem strip_blanks {ws r : List Char} (hw : ∀ c ∈ ws, blank c = true)
    (hr : ∃ c t, r = c :: t ∧ c ≠ '\x00' ∧ blank c = false) : (ws ++ r).dropWhile blank = r := by
  induction ws with
  | nil =>
    obtain ⟨c, t, rfl, _, h⟩ := hr
    simp [h]
  | cons w ws ih =>
    rw [List.cons_append, List.dropWhile_cons, if_pos (hw w (List.mem_cons_self ..))]
    exact ih (fun c hc => hw c (List.mem_cons_of_mem _ hc))

/-- The value `ParseInt` computes from a literal, before the sign. -/
theorem parseInt_literal {ws sgn ds ft fs et es rest : List Char} {s : Int}
    (hw : ∀ c ∈ ws, blank c = true) (hs : SignText sgn s) (hd : Digits ds) (hf : FracText ft fs)
    (he : ExpText et 1 es) (hne : ds ≠ [] ∨ ft ≠ []) (hr : EndsNumber rest) (h0 : '\x00' ∈ rest)
    (hm : decVal (ds ++ fs) ≤ 2147483599) (hx : decVal es ≤ 2147483599) :
    parseInt (ws ++ (sgn ++ (ds ++ (ft ++ (et ++ rest))))) =
      (if decVal es < fs.length then
        .ok (0, ws ++ (sgn ++ (ds ++ (ft ++ (et ++ rest)))))
      else if 0 < decVal es ∧ 10 ≤ decVal es - fs.length then .ub .signedOverflow
      else if decVal (ds ++ fs) * 10 ^ (decVal es - fs.length) ≤ 2147483647 then
        .ok (s * ((decVal (ds ++ fs) * 10 ^ (decVal es - fs.length) : Nat) : Int), rest.dropWhile blank)
      else .ub .signedOverflow) := by
  have hbs := bodyStart_mant (r := et ++ rest) hd hf hne
  obtain ⟨c, t, hct, hc0, hcb⟩ := bodyStart_sign hs hbs
  have hz : '\x00' ∈ ws ++ (sgn ++ (ds ++ (ft ++ (et ++ rest)))) := by simp [h0]
  have haf := afterFrac_exp he hr
  have hmono := le_ofDigitChars fs (decVal ds)
  rw [decVal, ofDigitChars_append] at hm
  unfold parseInt
  rw [stripLine_ok hz, strip_blanks hw ⟨c, t, hct, hc0, hcb⟩, Res.bind_ok]
  rw [show peek (sgn ++ (ds ++ (ft ++ (et ++ rest)))) = .ok c by rw [hct]; rfl, Res.bind_ok, if_neg hc0,
    intSign_ok hs hbs, Res.bind_ok]
  dsimp only
  have h1 := intDigits_ok hd (stops_frac hf haf) 0 (Nat.le_trans hmono hm)
  rw [show ((0 : Nat) : Int) = 0 from rfl] at h1
  rw [h1, Res.bind_ok]
  dsimp only
  rw [intFraction_ok hf haf _ hm, Res.bind_ok]
  dsimp only
  rw [intExponent_ok he hr hx, Res.bind_ok]
  dsimp only
  rw [show decVal (ds ++ fs) = Nat.ofDigitChars 10 fs (Nat.ofDigitChars 10 ds 0) from ofDigitChars_append ..]
  generalize Nat.ofDigitChars 10 fs (Nat.ofDigitChars 10 ds 0) = m at *
  have hs1 : s = 1 ∨ s = -1 := by cases hs <;> simp
  by_cases hlt : decVal es < fs.length
  · rw [if_pos hlt, if_pos (by omega)]
  · rw [if_neg hlt, if_neg (by omega)]
    unfold scaleInt
    by_cases hpos : 0 < decVal es
    · rw [if_pos (by omega)]
      dsimp only
      rw [show ((decVal es : Int) - (fs.length : Int)).toNat = decVal es - fs.length by omega]
      by_cases hk : 10 ≤ decVal es - fs.length
      · rw [if_pos hk, if_pos ⟨hpos, hk⟩]; rfl
      · rw [if_neg hk, if_neg (by omega)]
        rw [show (m : Int) * 10 ^ (decVal es - fs.length) = ((m * 10 ^ (decVal es - fs.length) : Nat) : Int) by simp]
        generalize m * 10 ^ (decVal es - fs.length) = M
        by_cases hM : M ≤ 2147483647
        · rw [chkInt, if_pos (by omega), if_pos hM, Res.bind_ok, stripLine_ok h0, Res.bind_ok, chkInt, if_pos]
          · rfl
          · rcases hs1 with rfl | rfl <;> omega
        · rw [chkInt, if_neg (by omega), if_neg hM]; rfl
    · rw [if_neg (by omega), if_neg (by omega)]
      have hk : decVal es - fs.length = 0 := by omega
      rw [hk, Nat.pow_zero, Nat.mul_one, if_pos (by omega), Res.bind_ok, stripLine_ok h0, Res.bind_ok, chkInt,
        if_pos]
      · rfl
      · rcases hs1 with rfl | rfl <;> omega

/-- The value `ParseUint` computes from a literal. -/
theorem parseUint_literal {ws ds ft fs et es rest : List Char}
    (hw : ∀ c ∈ ws, blank c = true) (hd : Digits ds) (hf : FracText ft fs)
    (he : ExpText et 1 es) (hne : ds ≠ [] ∨ ft ≠ []) (hr : EndsNumber rest) (h0 : '\x00' ∈ rest)
    (hx : decVal es ≤ 2147483599) :
    parseUint (ws ++ (ds ++ (ft ++ (et ++ rest)))) =
      (if decVal es < fs.length then
        .ok (0, ws ++ (ds ++ (ft ++ (et ++ rest))))
      else if 0 < decVal es ∧ 10 ≤ decVal es - fs.length then .ub .signedOverflow
      else
        .ok (UInt32.ofNat (decVal (ds ++ fs) * 10 ^ (decVal es - fs.length)), rest.dropWhile blank)) := by
  have hbs := bodyStart_mant (r := et ++ rest) hd hf hne
  obtain ⟨c, t, hct, hc0, _, _, hcb⟩ := hbs
  have hz : '\x00' ∈ ws ++ (ds ++ (ft ++ (et ++ rest))) := by simp [h0]
  have haf := afterFrac_exp he hr
  unfold parseUint
  rw [stripLine_ok hz, strip_blanks hw ⟨c, t, hct, hc0, hcb⟩, Res.bind_ok]
  rw [show peek (ds ++ (ft ++ (et ++ rest))) = .ok c by rw [hct]; rfl, Res.bind_ok, if_neg hc0]
  have h1 := uintDigits_ok hd (stops_frac hf haf) 0
  rw [show UInt32.ofNat 0 = 0 from rfl] at h1
  rw [h1, Res.bind_ok]
  dsimp only
  rw [uintFraction_ok hf haf _, Res.bind_ok]
  dsimp only
  rw [intExponent_ok he hr hx, Res.bind_ok]
  dsimp only
  rw [show decVal (ds ++ fs) = Nat.ofDigitChars 10 fs (Nat.ofDigitChars 10 ds 0) from ofDigitChars_append ..]
  generalize Nat.ofDigitChars 10 fs (Nat.ofDigitChars 10 ds 0) = m at *
  by_cases hlt : decVal es < fs.length
  · rw [if_pos hlt, if_pos (by omega)]
  · rw [if_neg hlt, if_neg (by omega)]
    unfold scaleUint
    by_cases hpos : 0 < decVal es
    · rw [if_pos (by omega)]
      dsimp only
      rw [show ((decVal es : Int) - (fs.length : Int)).toNat = decVal es - fs.length by omega]
      by_cases hk : 10 ≤ decVal es - fs.length
      · rw [if_pos hk, if_pos ⟨hpos, hk⟩]; rfl
      · rw [if_neg hk, if_neg (by omega), Res.bind_ok, stripLine_ok h0, Res.bind_ok, UInt32.ofNat_mul]
    · rw [if_neg (by omega), if_neg (by omega)]
      have hk : decVal es - fs.length = 0 := by omega
      rw [hk, Nat.pow_zero, Nat.mul_one, Res.bind_ok, stripLine_ok h0, Res.bind_ok]

/-- The value `ParseFloat` computes from a literal. -/
theorem parseFloat_literal {ws sgn ds ft fs et es rest : List Char} {s sx : Int}
    (hw : ∀ c ∈ ws, blank c = true) (hs : SignText sgn s) (hd : Digits ds) (hf : FracText ft fs)
    (he : ExpText et sx es) (hne : ds ≠ [] ∨ ft ≠ []) (hr : EndsNumber rest) (h0 : '\x00' ∈ rest)
    (hm : decVal (ds ++ fs.take 7) ≤ 2147483599) (hx : decVal es ≤ 2147483599) :
    parseFloat (ws ++ (sgn ++ (ds ++ (ft ++ (et ++ rest))))) =
      .ok (⟨s * (decVal (ds ++ fs.take 7) : Nat), sx * (decVal es : Nat) - (min 7 fs.length : Nat)⟩,
        rest.dropWhile blank) := by
  have hbs := bodyStart_mant (r := et ++ rest) hd hf hne
  obtain ⟨c, t, hct, hc0, hcb⟩ := bodyStart_sign hs hbs
  have hz : '\x00' ∈ ws ++ (sgn ++ (ds ++ (ft ++ (et ++ rest)))) := by simp [h0]
  have haf := afterFrac_exp he hr
  have hmono := le_ofDigitChars (fs.take 7) (decVal ds)
  have hm' := hm
  rw [decVal, ofDigitChars_append] at hm
  have hs1 : s = 1 ∨ s = -1 := by cases hs <;> simp
  have hsx : sx = 1 ∨ sx = -1 := by
    cases he with
    | none => simp
    | some m hm sgn s hs es hes hne => cases hs <;> simp
  unfold parseFloat
  rw [stripLine_ok hz, strip_blanks hw ⟨c, t, hct, hc0, hcb⟩, Res.bind_ok]
  rw [show peek (sgn ++ (ds ++ (ft ++ (et ++ rest)))) = .ok c by rw [hct]; rfl, Res.bind_ok, if_neg hc0,
    floatSign_ok hs hbs, Res.bind_ok]
  dsimp only
  have h1 := intDigits_ok hd (stops_frac hf haf) 0 (Nat.le_trans hmono hm)
  rw [show ((0 : Nat) : Int) = 0 from rfl] at h1
  rw [h1, Res.bind_ok]
  dsimp only
  rw [floatFraction_ok hf haf _ hm, Res.bind_ok]
  dsimp only
  rw [floatExponent_ok he hr hx, Res.bind_ok]
  dsimp only
  rw [show decVal (ds ++ fs.take 7) = Nat.ofDigitChars 10 (fs.take 7) (Nat.ofDigitChars 10 ds 0)
    from ofDigitChars_append ..]
  generalize Nat.ofDigitChars 10 (fs.take 7) (Nat.ofDigitChars 10 ds 0) = m at *
  have hmin : min 7 fs.length ≤ 7 := Nat.min_le_left ..
  generalize min 7 fs.length = n at *
  rw [chkInt, if_pos, Res.bind_ok, stripLine_ok h0, Res.bind_ok, chkInt, if_pos, Res.bind_ok]
  · rcases hs1 with rfl | rfl <;> omega
  · rcases hsx with rfl | rfl <;> omega

end Sol.NumericParser
