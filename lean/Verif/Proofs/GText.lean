import Verif.Model.TextWriters
import Verif.Props.NumericParser
import Mathlib.Tactic.IntervalCases
import Mathlib.Algebra.Order.Group.Abs
import Mathlib.Algebra.Order.Group.Unbundled.Abs
/-!
# What `ParseFloat` makes of the text printed by `%g`
-/

namespace Sol.TextWriters
open Sol.Spec Sol.NumericParser Sol.Props

/-- The number a `%g` value stands for. -/
def gRat : GVal → ℚ
  | .num neg m x => (if neg then -1 else 1) * m * (10 : ℚ) ^ (x - 5)
  | _ => 0

theorem gRat_num (neg : Bool) (m : Nat) (x : Int) :
    gRat (.num neg m x) = (if neg then -1 else 1) * m * (10 : ℚ) ^ (x - 5) := rfl

/-- Values that `%g` prints as a number: zero or six significant digits, exponent in the range of a `double`. -/
def Printable : GVal → Prop
  | .zero _ => True
  | .num _ m x => 10 ^ 5 ≤ m ∧ m < 10 ^ 6 ∧ -400 ≤ x ∧ x ≤ 400
  | _ => False

/-- Values for which `%g` prints at most seven decimals. All do, except numbers below 0.01 with six significant digits
    (or five, below 0.001) that are still printed without exponent. -/
def Short : GVal → Prop
  | .num _ m x => (x = -3 → m % 10 = 0) ∧ (x = -4 → m % 100 = 0)
  | _ => True

/-- Whole numbers of at most six digits, which `%g` prints as they are. -/
def WholeG : GVal → Prop
  | .num _ m x => ∃ n : Nat, x = n ∧ n ≤ 5 ∧ m % 10 ^ (5 - n) = 0
  | _ => True

theorem stripZeros_spec (ds : List Char) : ∃ k, ds = stripZeros ds ++ List.replicate k '0' := by
  unfold stripZeros
  have h := List.takeWhile_append_dropWhile (p := (· == '0')) (l := ds.reverse)
  have h2 : ds = (ds.reverse.dropWhile (· == '0')).reverse ++ (ds.reverse.takeWhile (· == '0')).reverse := by
    have := congrArg List.reverse h
    rw [List.reverse_append, List.reverse_reverse] at this
    exact this.symm
  refine ⟨(ds.reverse.takeWhile (· == '0')).length, ?_⟩
  conv_lhs => rw [h2]
  congr 1
  rw [List.eq_replicate_iff]
  refine ⟨by simp, ?_⟩
  intro c hc
  rw [List.mem_reverse] at hc
  have gen : ∀ l : List Char, c ∈ l.takeWhile (· == '0') → c = '0' := by
    intro l
    induction l with
    | nil => simp
    | cons d l ih =>
      rw [List.takeWhile_cons]
      split
      · rename_i hd
        intro hm
        rcases List.mem_cons.1 hm with rfl | hm
        · simpa using hd
        · exact ih hm
      · simp
  exact gen _ hc

theorem decVal_zeros (k : Nat) : decVal (List.replicate k '0') = 0 := by
  induction k with
  | zero => rfl
  | succ k ih =>
    rw [List.replicate_succ, decVal, ofDigitChars_cons]
    exact ih

theorem digits_replicate (k : Nat) : Digits (List.replicate k '0') := by
  intro c hc
  rw [List.mem_replicate] at hc
  rw [hc.2]; decide

theorem Digits.append {a b : List Char} (ha : Digits a) (hb : Digits b) : Digits (a ++ b) := by
  intro c hc
  rcases List.mem_append.1 hc with h | h
  · exact ha c h
  · exact hb c h

theorem Digits.take {a : List Char} (h : Digits a) (k : Nat) : Digits (a.take k) :=
  fun c hc => h c (List.mem_of_mem_take hc)

theorem Digits.drop {a : List Char} (h : Digits a) (k : Nat) : Digits (a.drop k) :=
  fun c hc => h c (List.mem_of_mem_drop hc)

theorem Digits.strip {a : List Char} (h : Digits a) : Digits (stripZeros a) := by
  obtain ⟨k, hk⟩ := stripZeros_spec a
  intro c hc
  refine h c ?_
  rw [hk]; exact List.mem_append_left _ hc

theorem fracText_fracOf {fs : List Char} (h : Digits fs) : FracText (fracOf fs) (stripZeros fs) := by
  unfold fracOf
  split
  · rename_i h0; rw [h0]; exact .none
  · exact .some _ (Digits.strip h)

/-- Removing trailing zeros does not change a fraction's value. -/
theorem frac_strip (fs : List Char) :
    (decVal (stripZeros fs) : ℚ) / 10 ^ (stripZeros fs).length = decVal fs / 10 ^ fs.length := by
  obtain ⟨k, hk⟩ := stripZeros_spec fs
  have h1 : (decVal fs : ℚ) = decVal (stripZeros fs) * 10 ^ k := by
    conv_lhs => rw [hk]
    rw [decVal_append, decVal_zeros, List.length_replicate]; push_cast; ring
  have h2 : fs.length = (stripZeros fs).length + k := by
    conv_lhs => rw [hk]
    rw [List.length_append, List.length_replicate]
  rw [h1, h2, pow_add]
  have : (10 : ℚ) ^ k ≠ 0 := by positivity
  have : (10 : ℚ) ^ (stripZeros fs).length ≠ 0 := by positivity
  field_simp

theorem length_strip (fs : List Char) : (stripZeros fs).length ≤ fs.length := by
  obtain ⟨k, hk⟩ := stripZeros_spec fs
  conv_rhs => rw [hk]
  simp

theorem length_six {m : Nat} (h1 : 10 ^ 5 ≤ m) (h2 : m < 10 ^ 6) : (decText m).length = 6 := by
  have a := (Nat.length_toDigits_le_iff (b := 10) (n := m) (k := 6) (by decide) (by decide)).2 h2
  have b := mt (Nat.length_toDigits_le_iff (b := 10) (n := m) (k := 5) (by decide) (by decide)).1 (by omega)
  unfold decText
  omega

theorem pad2_spec (n : Nat) : Digits (pad2 (decText n)) ∧ decVal (pad2 (decText n)) = n ∧ pad2 (decText n) ≠ [] := by
  unfold pad2
  split
  · refine ⟨?_, ?_, by simp⟩
    · exact Digits.append (a := ['0']) (by decide) (digits_decText n)
    · rw [decVal, ofDigitChars_cons]
      exact decVal_decText n
  · exact ⟨digits_decText n, decVal_decText n, Nat.toDigits_ne_nil⟩

theorem signOf_spec (neg : Bool) : SignText (signOf neg) (if neg then -1 else 1) := by
  cases neg
  · exact .none
  · exact .minus

theorem decVal_split (ds : List Char) (k : Nat) :
    (decVal (ds.take k) : ℚ) + decVal (ds.drop k) / 10 ^ (ds.drop k).length = decVal ds / 10 ^ (ds.drop k).length := by
  have h : (decVal ds : ℚ) = decVal (ds.take k) * 10 ^ (ds.drop k).length + decVal (ds.drop k) := by
    conv_lhs => rw [← List.take_append_drop k ds]
    rw [decVal_append]; push_cast; rfl
  rw [h]
  have : (10 : ℚ) ^ (ds.drop k).length ≠ 0 := by positivity
  field_simp

/-- The trailing zeros of a fraction that is a multiple of 10^k (at least). -/
theorem length_strip_of_dvd (fs : List Char) (hd : Digits fs) (k : Nat) (hk : k ≤ fs.length)
    (h : decVal fs % 10 ^ k = 0) : (stripZeros fs).length + k ≤ fs.length := by
  have hz : fs.drop (fs.length - k) = List.replicate k '0' := by
    have hlen : (fs.drop (fs.length - k)).length = k := by rw [List.length_drop]; omega
    have hv : decVal (fs.drop (fs.length - k)) = 0 := by
      have hlt := decVal_lt _ (Digits.drop hd (fs.length - k))
      rw [hlen] at hlt
      have he : decVal fs = decVal (fs.take (fs.length - k)) * 10 ^ k + decVal (fs.drop (fs.length - k)) := by
        conv_lhs => rw [← List.take_append_drop (fs.length - k) fs]
        rw [decVal_append, hlen]
      rw [he, Nat.mul_comm, Nat.mul_add_mod, Nat.mod_eq_of_lt hlt] at h
      exact h
    have gen : ∀ l : List Char, Digits l → decVal l = 0 → l = List.replicate l.length '0' := by
      intro l
      induction l with
      | nil => intro _ _; rfl
      | cons c l ih =>
        intro hl hv
        have hc := digit_range (hl c (List.mem_cons_self ..))
        rw [decVal, ofDigitChars_cons, ofDigitChars_eq] at hv
        have hp : 0 < 10 ^ l.length := by positivity
        have h1 : (10 * 0 + (c.toNat - 48)) * 10 ^ l.length = 0 := by omega
        have h2 : c.toNat = 48 := by
          rcases Nat.mul_eq_zero.1 h1 with h | h <;> omega
        have h3 : c = '0' := by
          apply Char.toNat_inj.1
          rw [h2]; rfl
        rw [List.length_cons, List.replicate_succ, h3, ← ih (fun d hd => hl d (List.mem_cons_of_mem _ hd)) (by omega)]
    have := gen _ (Digits.drop hd _) hv
    rw [hlen] at this
    exact this
  unfold stripZeros
  have hr : fs.reverse = List.replicate k '0' ++ (fs.take (fs.length - k)).reverse := by
    conv_lhs => rw [← List.take_append_drop (fs.length - k) fs, hz]
    simp
  have hdrop : fs.reverse.dropWhile (· == '0') = (fs.take (fs.length - k)).reverse.dropWhile (· == '0') := by
    rw [hr]
    generalize (fs.take (fs.length - k)).reverse = l
    clear hr hz h hk
    induction k with
    | zero => simp
    | succ k ih => rw [List.replicate_succ, List.cons_append, List.dropWhile_cons, if_pos (by rfl)]; exact ih
  rw [hdrop, List.length_reverse]
  have h1 : ((fs.take (fs.length - k)).reverse.dropWhile (· == '0')).length ≤ fs.length - k := by
    refine Nat.le_trans (List.dropWhile_suffix _).length_le ?_
    simp
  omega

/-- The text printed for a value is a literal that denotes the value. -/
theorem gText_literal (v : GVal) (hv : Printable v) :
    ∃ sgn s ds ft fs et sx es, gText v = sgn ++ (ds ++ (ft ++ et)) ∧ SignText sgn s ∧ Digits ds ∧ ds ≠ [] ∧
      FracText ft fs ∧ ExpText et sx es ∧ decVal (ds ++ fs.take 7) ≤ 2147483599 ∧ decVal es ≤ 2147483599 ∧
      literalValue s ds fs sx es = gRat v ∧ (Short v → fs.length ≤ 7) ∧ (7 < fs.length → es = []) ∧
      (WholeG v → fs = [] ∧ es = []) := by
  have bound : ∀ (ds fs : List Char), Digits ds → Digits fs → ds.length + min 7 fs.length ≤ 9 →
      decVal (ds ++ fs.take 7) ≤ 2147483599 := by
    intro ds fs h1 h2 hl
    have h := decVal_lt (ds ++ fs.take 7) (Digits.append h1 (Digits.take h2 7))
    have h9 : (10 : Nat) ^ (ds ++ fs.take 7).length ≤ 10 ^ 9 := Nat.pow_le_pow_right (by decide) (by simp; omega)
    have : (10 : Nat) ^ 9 = 1000000000 := by norm_num
    omega
  cases v with
  | inf neg => exact absurd hv (by simp [Printable])
  | nan neg => exact absurd hv (by simp [Printable])
  | zero neg =>
    refine ⟨signOf neg, _, ['0'], [], [], [], 1, [], by simp [gText], signOf_spec neg, by decide, by decide, .none,
      .none, by decide, by decide, ?_, by simp, by simp, fun _ => ⟨rfl, rfl⟩⟩
    simp [literalValue, gRat, decVal, Nat.ofDigitChars]
  | num neg m x =>
    obtain ⟨h1, h2, h3, h4⟩ := hv
    have hlen := length_six h1 h2
    have hdm := digits_decText m
    have hvm := decVal_decText m
    by_cases hexp : x < -4 ∨ 6 ≤ x
    · -- exponent notation
      obtain ⟨p1, p2, p3⟩ := pad2_spec x.natAbs
      have hsx : ∃ sx, SignText [if x < 0 then '-' else '+'] sx ∧ sx * (x.natAbs : Int) = x := by
        split
        · exact ⟨-1, .minus, by omega⟩
        · exact ⟨1, .plus, by omega⟩
      obtain ⟨sx, hs1, hs2⟩ := hsx
      have hls : (stripZeros ((decText m).drop 1)).length ≤ 5 := by
        refine Nat.le_trans (length_strip _) ?_
        rw [List.length_drop, hlen]
      refine ⟨signOf neg, _, (decText m).take 1, fracOf ((decText m).drop 1), stripZeros ((decText m).drop 1),
        'e' :: (if x < 0 then '-' else '+') :: pad2 (decText x.natAbs), sx, pad2 (decText x.natAbs), ?_,
        signOf_spec neg, Digits.take hdm 1, ?_, fracText_fracOf (Digits.drop hdm 1), ?_, ?_, ?_, ?_, ?_, ?_, ?_⟩
      · simp [gText, hexp]
      · intro h
        have := congrArg List.length h
        simp [hlen] at this
      · exact ExpText.some 'e' (.inl rfl) [if x < 0 then '-' else '+'] sx hs1 _ p1 p3
      · exact bound _ _ (Digits.take hdm 1) (Digits.strip (Digits.drop hdm 1)) (by
          rw [List.length_take, hlen]; omega)
      · rw [p2]; omega
      · unfold literalValue
        rw [gRat_num]
        rw [frac_strip, decVal_split, p2, hs2, List.length_drop, hlen, hvm]
        rw [zpow_sub₀ (by norm_num : (10 : ℚ) ≠ 0)]
        have h10 : (10 : ℚ) ^ (5 : ℤ) = 10 ^ (6 - 1) := by norm_cast
        rw [h10]
        push_cast
        split <;> field_simp <;> simp
      · intro _; omega
      · intro h; omega
      · rintro ⟨n, rfl, hn, _⟩; omega
    · by_cases hx0 : 0 ≤ x
      · -- integer part, optional fraction
        obtain ⟨n, rfl⟩ := Int.eq_ofNat_of_zero_le hx0
        have hn : n < 6 := by omega
        have hld : ((decText m).drop (n + 1)).length = 5 - n := by rw [List.length_drop, hlen]; omega
        have hls : (stripZeros ((decText m).drop (n + 1))).length ≤ 5 - n := by
          rw [← hld]; exact length_strip _
        refine ⟨signOf neg, _, (decText m).take (n + 1), fracOf ((decText m).drop (n + 1)),
          stripZeros ((decText m).drop (n + 1)), [], 1, [], ?_, signOf_spec neg, Digits.take hdm _, ?_,
          fracText_fracOf (Digits.drop hdm _), .none, ?_, by decide, ?_, ?_, ?_, ?_⟩
        · simp only [gText, if_neg hexp, if_pos hx0, Int.toNat_natCast, List.append_nil]
        · intro h
          have := congrArg List.length h
          simp [hlen] at this
        · exact bound _ _ (Digits.take hdm _) (Digits.strip (Digits.drop hdm _)) (by
            rw [List.length_take, hlen]; omega)
        · unfold literalValue
          rw [gRat_num]
          rw [frac_strip, decVal_split, hld, hvm]
          have hz : decVal [] = 0 := rfl
          rw [hz]
          have h5 : (n : ℤ) - 5 = -((5 - n : ℕ) : ℤ) := by omega
          rw [h5, zpow_neg, zpow_natCast]
          push_cast
          split <;> simp <;> field_simp
        · intro _; omega
        · intro h; omega
        · rintro ⟨k, hk, _, hk2⟩
          obtain rfl : k = n := by omega
          refine ⟨List.length_eq_zero_iff.1 ?_, rfl⟩
          have hlt := decVal_lt _ (Digits.drop hdm (k + 1))
          have hsplit : decVal (decText m) = decVal ((decText m).take (k + 1)) * 10 ^ (5 - k) + decVal ((decText m).drop (k + 1)) := by
            conv_lhs => rw [← List.take_append_drop (k + 1) (decText m)]
            rw [decVal_append, hld]
          rw [hvm] at hsplit
          rw [hsplit, Nat.mul_add_mod_self_right] at hk2
          have := length_strip_of_dvd _ (Digits.drop hdm (k + 1)) (5 - k) (by omega) hk2
          omega
      · -- 0.000ddd
        obtain ⟨n, hn⟩ : ∃ n : Nat, x = -(n : Int) - 1 := ⟨(-x - 1).toNat, by omega⟩
        have hn3 : n ≤ 3 := by omega
        have hnn : (-x).toNat - 1 = n := by omega
        have hdf : Digits (List.replicate n '0' ++ decText m) := Digits.append (digits_replicate n) hdm
        have hlf : (List.replicate n '0' ++ decText m).length = n + 6 := by simp [hlen]
        have hvf : decVal (List.replicate n '0' ++ decText m) = m := by
          rw [decVal_append, decVal_zeros, hvm]; omega
        refine ⟨signOf neg, _, ['0'], fracOf (List.replicate n '0' ++ decText m),
          stripZeros (List.replicate n '0' ++ decText m), [], 1, [], ?_, signOf_spec neg, by decide, by decide,
          fracText_fracOf hdf, .none, ?_, by decide, ?_, ?_, fun _ => rfl, by rintro ⟨k, hk, _⟩; omega⟩
        · simp only [gText, if_neg hexp, if_neg hx0, hnn, List.append_nil, List.cons_append, List.nil_append]
        · exact bound _ _ (by decide) (Digits.strip hdf) (by simp only [List.length_cons, List.length_nil]; omega)
        · unfold literalValue
          rw [gRat_num]
          rw [frac_strip, hlf, hvf]
          have hz : decVal [] = 0 := rfl
          have hz1 : decVal ['0'] = 0 := rfl
          rw [hz, hz1, hn]
          have h5 : -(n : ℤ) - 1 - 5 = -((n + 6 : ℕ) : ℤ) := by omega
          rw [h5, zpow_neg, zpow_natCast]
          push_cast
          split <;> simp <;> field_simp
        · intro hs
          obtain ⟨hs3, hs4⟩ := hs
          have hle := length_strip (List.replicate n '0' ++ decText m)
          rw [hlf] at hle
          by_cases hn2 : n = 2
          · subst hn2
            have := length_strip_of_dvd _ hdf 1 (by omega) (by rw [hvf]; exact hs3 (by omega))
            omega
          · by_cases hn3 : n = 3
            · subst hn3
              have := length_strip_of_dvd _ hdf 2 (by omega) (by rw [hvf]; exact hs4 (by omega))
              omega
            · omega

theorem gText_ne_nil (v : GVal) : gText v ≠ [] := by
  cases v <;> simp only [gText] <;> (try simp)
  rename_i neg m x
  intro h
  split
  · simp
  · split
    · intro h1
      rw [List.append_eq_nil_iff, List.take_eq_nil_iff] at h1
      rcases h1.1 with h1 | h1
      · omega
      · exact absurd h1 Nat.toDigits_ne_nil
    · simp

/-- A printable value different from zero is read as a value different from zero, and zero as zero. -/
theorem mant_core {v : GVal} {d : Dec} (hv : Printable v) (h : (Short v → decRat d = gRat v) ∧ |gRat v - decRat d| < 1 / 10 ^ 7) :
    d.mant = 0 ↔ ∃ neg, v = .zero neg := by
  have hd0 : d.mant = 0 ↔ decRat d = 0 := by
    unfold decRat
    have : (10 : ℚ) ^ d.exp ≠ 0 := zpow_ne_zero _ (by norm_num)
    constructor
    · intro h; rw [h]; simp
    · intro h; rcases mul_eq_zero.1 h with h | h
      · exact_mod_cast h
      · exact absurd h this
  rw [hd0]
  cases v with
  | inf neg => exact absurd hv (by simp [Printable])
  | nan neg => exact absurd hv (by simp [Printable])
  | zero neg => simp [h.1 trivial, gRat]
  | num neg m x =>
    simp only [reduceCtorEq, exists_false, iff_false]
    obtain ⟨h1, h2, _, _⟩ := hv
    have hm : (0 : ℚ) < m := by have : 0 < m := by omega
                                exact_mod_cast this
    have hne : gRat (.num neg m x) ≠ 0 := by
      rw [gRat_num]
      have : (10 : ℚ) ^ (x - 5) ≠ 0 := zpow_ne_zero _ (by norm_num)
      cases neg <;> simp [hm.ne', this]
    by_cases hs : Short (.num neg m x)
    · rw [h.1 hs]; exact hne
    · intro hz
      have habs := h.2
      rw [hz, sub_zero] at habs
      have hx : x = -3 ∨ x = -4 := by
        by_contra hc
        exact hs ⟨fun h => absurd (Or.inl h) hc, fun h => absurd (Or.inr h) hc⟩
      have hg : |gRat (.num neg m x)| = m * (10 : ℚ) ^ (x - 5) := by
        rw [gRat_num]
        rw [abs_mul, abs_mul, abs_of_pos hm, abs_of_pos (zpow_pos (by norm_num : (0 : ℚ) < 10) _)]
        cases neg <;> simp
      rw [hg] at habs
      have hm5 : (10 : ℚ) ^ 5 ≤ m := by exact_mod_cast h1
      have h10 : (10 : ℚ) ^ (-9 : ℤ) ≤ (10 : ℚ) ^ (x - 5) := zpow_le_zpow_right₀ (by norm_num) (by omega)
      have h9 : (10 : ℚ) ^ (-9 : ℤ) = 1 / 10 ^ 9 := by rw [zpow_neg]; norm_cast; simp
      rw [h9] at h10
      have := mul_le_mul hm5 h10 (by positivity) hm.le
      norm_num at this habs
      linarith

/-- What the reader makes of a printed value: exact for short values, and always within 10^-7; the mantissa is an `int`; zero and
    whole numbers are read without an exponent. -/
def Close (v : GVal) (d : Dec) : Prop :=
  (Short v → decRat d = gRat v) ∧ |gRat v - decRat d| < 1 / 10 ^ 7 ∧ |d.mant| ≤ 2147483647 ∧ (d.mant = 0 → d.exp = 0) ∧
    (WholeG v → d.exp = 0)

theorem Close.mant_eq_zero {v : GVal} {d : Dec} (hv : Printable v) (h : Close v d) : d.mant = 0 ↔ ∃ neg, v = .zero neg :=
  mant_core hv ⟨h.1, h.2.1⟩

theorem parseFloat_gText (v : GVal) (hv : Printable v) (rest : List Char) (hr : EndsNumber rest)
    (h0 : '\x00' ∈ rest) :
    ∃ d, parseFloat (gText v ++ rest) = .ok (d, rest.dropWhile blank) ∧ Close v d := by
  obtain ⟨sgn, s, ds, ft, fs, et, sx, es, ht, hs, hd, hne, hf, he, hm, hx, hval, hsh, hlong, hwhole⟩ := gText_literal v hv
  obtain ⟨d, hp, hex, hlo, hhi, _⟩ := C07_value_parses [] sgn ds ft fs et es rest s sx (by simp) hs hd hf he (.inl hne)
    hr h0 hm hx
  rw [hval] at hex hlo hhi
  have hp' : parseFloat (gText v ++ rest) = .ok (d, rest.dropWhile blank) := by
    rw [ht]
    simpa using hp
  have hn : |gRat v - decRat d| < 1 / 10 ^ 7 := by
    by_cases h7 : fs.length ≤ 7
    · rw [hex h7, sub_self, abs_zero]; norm_num
    · have hes := hlong (by omega)
      subst hes
      have hz : decVal [] = 0 := rfl
      rw [hz] at hhi
      have h10 : (10 : ℚ) ^ (sx * ((0 : ℕ) : ℤ) - 7) = 1 / 10 ^ 7 := by simp
      rw [h10] at hhi
      have habs : |gRat v - decRat d| = s * (gRat v - decRat d) := by
        have hs1 : |(s : ℚ)| = 1 := by cases hs <;> simp
        rw [← abs_of_nonneg hlo, abs_mul, hs1, one_mul]
      rw [habs]; exact hhi
  refine ⟨d, hp', fun h => hex (hsh h), hn, ?_, ?_, ?_⟩
  · have h2 := parseFloat_literal (ws := []) (by simp) hs hd hf he (.inl hne) hr h0 hm hx
    have h3 := hp
    rw [h2] at h3
    obtain rfl := (Prod.mk.inj (Res.ok.inj h3)).1
    have hs1 : |s| = 1 := by cases hs <;> simp
    dsimp only
    rw [abs_mul, hs1, one_mul, Nat.abs_cast]
    omega
  · intro hz
    obtain ⟨neg, rfl⟩ := (mant_core hv ⟨fun h => hex (hsh h), hn⟩).1 hz
    have h2 := parseFloat_literal (ws := []) (ds := ['0']) (rest := rest) (by simp) (signOf_spec neg) (by decide) .none .none (.inl (by decide)) hr h0
      (by decide) (by decide)
    have e : gText (.zero neg) ++ rest = [] ++ (signOf neg ++ (['0'] ++ ([] ++ ([] ++ rest)))) := by simp [gText]
    rw [e, h2] at hp'
    obtain rfl := (Prod.mk.inj (Res.ok.inj hp')).1
    rfl
  · intro hw
    obtain ⟨rfl, rfl⟩ := hwhole hw
    have h2 := parseFloat_literal (ws := []) (by simp) hs hd hf he (.inl hne) hr h0 hm hx
    have h3 := hp
    rw [h2] at h3
    obtain rfl := (Prod.mk.inj (Res.ok.inj h3)).1
    simp [decVal, Nat.ofDigitChars]

end Sol.TextWriters
