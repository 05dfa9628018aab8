import Verif.Model.Json
import Verif.Proofs.F64
import Verif.Proofs.FloatText
/-!
# Numbers of the JSON text
-/

namespace Sol.Json
open Sol.FloatText Sol.Text Sol.TextWriters Sol.Spec Sol.Props
open Sol.NumericParser hiding isDigit

/-! ### Six digits and binary64 -/

theorem log10_eq {q : ℚ} {x : Int} (h0 : 0 < q) (h1 : (10 : ℚ) ^ x ≤ q) (h2 : q < (10 : ℚ) ^ (x + 1)) : Int.log 10 q = x := by
  have a : x ≤ Int.log 10 q := (Int.zpow_le_iff_le_log (b := 10) (by norm_num) h0).1 (by push_cast; exact h1)
  have b : Int.log 10 q < x + 1 := (Int.lt_zpow_iff_log_lt (b := 10) (by norm_num) h0).1 (by push_cast; exact h2)
  omega

/-- A number next to one with six digits has these six digits. -/
theorem six_of_near {r : ℚ} {m : Nat} {x : Int} (h1 : 10 ^ 5 ≤ m) (h2 : m < 10 ^ 6)
    (h : |r - m * (10 : ℚ) ^ (x - 5)| ≤ m * (10 : ℚ) ^ (x - 5) / 2 ^ 53) : six r = .num false m x := by
  have hp : (0 : ℚ) < 10 ^ (x - 5) := by positivity
  have hm1 : (100000 : ℚ) ≤ m := by exact_mod_cast h1
  have hm2 : (m : ℚ) + 1 ≤ 1000000 := by exact_mod_cast h2
  obtain ⟨ha, hb⟩ := abs_le.1 h
  set p : ℚ := 10 ^ (x - 5) with hpd
  have hx : (10 : ℚ) ^ x = 100000 * p := by
    rw [hpd, zpow_sub₀ (by norm_num)]
    norm_num
    ring
  have hx1 : (10 : ℚ) ^ (x + 1) = 1000000 * p := by
    rw [zpow_add₀ (by norm_num), hx]
    norm_num
    ring
  have hxm : (10 : ℚ) ^ (x - 1) = 10000 * p := by
    rw [zpow_sub₀ (by norm_num), hx]
    norm_num
    ring
  have e5 : p * 10 ^ (5 - x) = 1 := by
    rw [hpd, ← zpow_add₀ (by norm_num)]
    norm_num
  have e6 : p * 10 ^ (5 - (x - 1)) = 10 := by
    rw [hpd, ← zpow_add₀ (by norm_num), show x - 5 + (5 - (x - 1)) = 1 by ring]
    norm_num
  have small : (m : ℚ) * p / 2 ^ 53 ≤ p / 100 := by
    have : (m : ℚ) * p ≤ 1000000 * p := mul_le_mul_of_nonneg_right (by linarith) hp.le
    norm_num
    linarith
  have hmp : (100000 : ℚ) * p ≤ m * p := mul_le_mul_of_nonneg_right hm1 hp.le
  have hmp2 : (m : ℚ) * p + p ≤ 1000000 * p := by
    have := mul_le_mul_of_nonneg_right hm2 hp.le
    linarith
  have hr0 : 0 < r := by linarith
  have hneg : ¬ r < 0 := not_lt.2 hr0.le
  unfold six
  rw [if_neg hr0.ne', abs_of_pos hr0]
  dsimp only
  by_cases hc : (10 : ℚ) ^ x ≤ r
  · rw [log10_eq hr0 hc (by rw [hx1]; linarith)]
    have hu : |r * 10 ^ (5 - x) - m| ≤ 1 / 100 := by
      have hq : (0 : ℚ) < 10 ^ (5 - x) := by positivity
      have e7 : r * 10 ^ (5 - x) - m = (r - m * p) * 10 ^ (5 - x) := by
        rw [sub_mul, mul_assoc, e5, mul_one]
      rw [e7, abs_mul, abs_of_pos hq]
      have := mul_le_mul_of_nonneg_right (h.trans small) hq.le
      rw [div_mul_eq_mul_div, e5] at this
      exact this
    obtain ⟨u1, u2⟩ := abs_le.1 hu
    have hn : nearest (r * 10 ^ (5 - x)) = m := by
      obtain ⟨n1, n2, _⟩ := nearest_spec (q := r * 10 ^ (5 - x)) (by positivity)
      have a1 : (m : ℚ) < nearest (r * 10 ^ (5 - x)) + 1 := by linarith
      have a2 : (nearest (r * 10 ^ (5 - x)) : ℚ) < m + 1 := by linarith
      have b1 : m < nearest (r * 10 ^ (5 - x)) + 1 := by exact_mod_cast a1
      have b2 : nearest (r * 10 ^ (5 - x)) < m + 1 := by exact_mod_cast a2
      omega
    rw [hn, if_neg (by omega)]
    simp [hneg]
  · rw [not_le] at hc
    have hm : m = 100000 := by
      by_contra hne
      have : (100001 : ℚ) ≤ m := by exact_mod_cast (show 100001 ≤ m by omega)
      have : (100001 : ℚ) * p ≤ m * p := mul_le_mul_of_nonneg_right this hp.le
      linarith
    rw [log10_eq (x := x - 1) hr0 (by rw [hxm]; linarith) (by rw [sub_add_cancel]; exact hc)]
    have hu : |r * 10 ^ (5 - (x - 1)) - 1000000| ≤ 1 / 10 := by
      have hq : (0 : ℚ) < 10 ^ (5 - (x - 1)) := by positivity
      have e7 : r * 10 ^ (5 - (x - 1)) - 1000000 = (r - m * p) * 10 ^ (5 - (x - 1)) := by
        rw [sub_mul, mul_assoc, e6, hm]
        norm_num
      rw [e7, abs_mul, abs_of_pos hq]
      have := mul_le_mul_of_nonneg_right (h.trans small) hq.le
      rw [div_mul_eq_mul_div, e6] at this
      linarith
    obtain ⟨u1, u2⟩ := abs_le.1 hu
    have hn : nearest (r * 10 ^ (5 - (x - 1))) = 1000000 := by
      obtain ⟨n1, n2, _⟩ := nearest_spec (q := r * 10 ^ (5 - (x - 1))) (by positivity)
      have a1 : ((1000000 : Nat) : ℚ) < nearest (r * 10 ^ (5 - (x - 1))) + 1 := by push_cast; linarith
      have a2 : (nearest (r * 10 ^ (5 - (x - 1))) : ℚ) < (1000000 : Nat) + 1 := by push_cast; linarith
      have b1 : 1000000 < nearest (r * 10 ^ (5 - (x - 1))) + 1 := by exact_mod_cast a1
      have b2 : nearest (r * 10 ^ (5 - (x - 1))) < 1000000 + 1 := by exact_mod_cast a2
      omega
    rw [hn, if_pos rfl, hm, sub_add_cancel]
    simp [hneg]

theorem six_neg_num {r : ℚ} {m : Nat} {x : Int} (h : six r = .num false m x) : six (-r) = .num true m x := by
  have h0 : r ≠ 0 := by
    rintro rfl
    simp [six] at h
  unfold six at h ⊢
  rw [if_neg h0] at h
  rw [if_neg (neg_ne_zero.2 h0), abs_neg]
  dsimp only at h ⊢
  split at h
  · rename_i hm
    rw [if_pos hm]
    simp only [GVal.num.injEq, decide_eq_false_iff_not, not_lt] at h ⊢
    exact ⟨by simpa using lt_of_le_of_ne h.1 h0.symm, h.2⟩
  · rename_i hm
    rw [if_neg hm]
    simp only [GVal.num.injEq, decide_eq_false_iff_not, not_lt] at h ⊢
    exact ⟨by simpa using lt_of_le_of_ne h.1 h0.symm, h.2⟩

/-- Six digits of a binary32 number survive binary64. -/
theorem six_round {q : ℚ} (h : Single q) : ∃ r, F64.round (gRat (six q)) = some r ∧ six r = six q := by
  by_cases hq : q = 0
  · subst hq
    refine ⟨0, by simp [six, gRat, F64.round], rfl⟩
  have hpr := six_printable h
  obtain ⟨neg, m, x, e⟩ : ∃ neg m x, six q = .num neg m x := by
    unfold six
    rw [if_neg hq]
    dsimp only
    split_ifs
    · exact ⟨_, _, _, rfl⟩
    · exact ⟨_, _, _, rfl⟩
  have hb : |q| / 2 ≤ |gRat (six q)| ∧ |gRat (six q)| ≤ 2 * |q| := by
    have := six_close q
    have t1 := abs_sub_abs_le_abs_sub q (gRat (six q))
    have t2 := abs_sub_abs_le_abs_sub (gRat (six q)) q
    rw [abs_sub_comm] at t1
    have := abs_nonneg q
    constructor <;> linarith
  rw [e] at hpr hb ⊢
  obtain ⟨p1, p2, _⟩ := hpr
  have hd : gRat (.num neg m x) = if neg then -((m : ℚ) * 10 ^ (x - 5)) else (m : ℚ) * 10 ^ (x - 5) := by
    rw [gRat_num]
    cases neg <;> simp
  have hpos : (0 : ℚ) < m * 10 ^ (x - 5) := by
    have : 0 < m := by omega
    positivity
  have habs : |gRat (.num neg m x)| = (m : ℚ) * 10 ^ (x - 5) := by
    rw [hd]
    cases neg <;> simp [abs_of_pos hpos]
  rw [habs] at hb
  have hle := single_le h
  have hge := single_ge h hq
  obtain ⟨r, hr, hrr⟩ := F64.round_pos (d := (m : ℚ) * 10 ^ (x - 5)) (by
      have e1 : (2 : ℚ) ^ (-1022 : ℤ) ≤ 2 ^ (-150 : ℤ) := zpow_le_zpow_right₀ (by norm_num) (by norm_num)
      have e2 : (2 : ℚ) ^ (-149 : ℤ) = 2 * 2 ^ (-150 : ℤ) := by
        rw [show (-149 : ℤ) = 1 + (-150) by norm_num, zpow_add₀ (by norm_num), zpow_one]
      rw [e2] at hge
      linarith [hb.1]) (by
      have e1 : (10 : ℚ) ^ 40 ≤ 10 ^ 300 := pow_le_pow_right₀ (by norm_num) (by norm_num)
      refine le_trans (le_trans hb.2 ?_) e1
      refine le_trans (mul_le_mul_of_nonneg_left hle (by norm_num)) ?_
      norm_num)
  have hs := six_of_near p1 p2 hrr
  cases neg with
  | false =>
    refine ⟨r, ?_, hs⟩
    rw [hd]
    simpa using hr
  | true =>
    refine ⟨-r, ?_, six_neg_num hs⟩
    rw [hd, if_pos rfl, F64.round_neg, hr]
    rfl

/-! ### Digits -/

theorem decVal_cons (c : Char) (ds : List Char) : decVal (c :: ds) = (c.toNat - 48) * 10 ^ ds.length + decVal ds := by
  rw [decVal, ofDigitChars_cons, ofDigitChars_eq]
  simp

theorem decVal_inj {a b : List Char} (ha : Digits a) (hb : Digits b) (hl : a.length = b.length) (h : decVal a = decVal b) : a = b := by
  induction a generalizing b with
  | nil =>
    cases b with
    | nil => rfl
    | cons d b => simp at hl
  | cons c a ih =>
    cases b with
    | nil => simp at hl
    | cons d b =>
      have hl' : a.length = b.length := by simpa using hl
      rw [decVal_cons, decVal_cons, hl'] at h
      have b1 := decVal_lt a fun c hc => ha c (List.mem_cons_of_mem _ hc)
      have b2 := decVal_lt b fun c hc => hb c (List.mem_cons_of_mem _ hc)
      rw [hl'] at b1
      have r1 := digit_range (ha c List.mem_cons_self)
      have r2 := digit_range (hb d List.mem_cons_self)
      have hpos : 0 < 10 ^ b.length := by positivity
      have hcd : c.toNat - 48 = d.toNat - 48 := by
        have e1 := congrArg (· / 10 ^ b.length) h
        simp only [Nat.add_comm (_ * _), Nat.add_mul_div_right _ _ hpos, Nat.div_eq_of_lt b1, Nat.div_eq_of_lt b2, Nat.zero_add] at e1
        exact e1
      rw [hcd] at h
      have hv : decVal a = decVal b := by omega
      have hc : c = d := by
        apply Char.ext
        apply UInt32.toNat_inj.1
        have : c.toNat = d.toNat := by omega
        exact this
      rw [hc, ih (fun c hc => ha c (List.mem_cons_of_mem _ hc)) (fun c hc => hb c (List.mem_cons_of_mem _ hc)) hl' hv]

/-- Digits without needless zeros are the text of their number. -/
theorem toDigits_decVal {ds : List Char} (hd : Digits ds) (hne : ds ≠ []) (h : ds = ['0'] ∨ 10 ^ (ds.length - 1) ≤ decVal ds) :
    Nat.toDigits 10 (decVal ds) = ds := by
  rcases h with rfl | h
  · decide
  refine decVal_inj (digits_decText _) hd ?_ (decVal_decText _)
  have hlen : 0 < ds.length := List.length_pos_iff.2 hne
  have a := (Nat.length_toDigits_le_iff (b := 10) (n := decVal ds) (k := ds.length) (by decide) hlen).2 (decVal_lt ds hd)
  by_cases h1 : ds.length = 1
  · have := Nat.length_toDigits_pos (b := 10) (n := decVal ds)
    omega
  have b := mt (Nat.length_toDigits_le_iff (b := 10) (n := decVal ds) (k := ds.length - 1) (by decide) (by omega)).1 (by omega)
  omega

/-! ### `decodeNumber` -/

theorem decodeDigits_none {max v : Nat} {ds : List Char} (h : ∃ c ∈ ds, isDigit c = false) : decodeDigits max v ds = none := by
  induction ds generalizing v with
  | nil => simp at h
  | cons c ds ih =>
    unfold decodeDigits
    by_cases hc : isDigit c = true
    · rw [if_pos hc]
      split_ifs
      · rfl
      · obtain ⟨d, hd, hn⟩ := h
        rcases List.mem_cons.1 hd with rfl | hd
        · rw [hc] at hn
          cases hn
        · exact ih ⟨d, hd, hn⟩
    · rw [if_neg hc]

theorem decodeDigits_some {max v : Nat} {ds : List Char} (hm : 10 ≤ max) (hd : Digits ds) (h : Nat.ofDigitChars 10 ds v ≤ max) :
    decodeDigits max v ds = some (Nat.ofDigitChars 10 ds v) := by
  induction ds generalizing v with
  | nil => rfl
  | cons c ds ih =>
    have hc := hd c List.mem_cons_self
    have hr := digit_range hc
    rw [ofDigitChars_cons] at h ⊢
    unfold decodeDigits
    rw [if_pos (digits_isDigit hd c List.mem_cons_self), if_neg]
    · rw [Nat.mul_comm v 10]
      exact ih (fun c hc => hd c (List.mem_cons_of_mem _ hc)) h
    · rw [ofDigitChars_eq] at h
      rintro ⟨h1, h2⟩
      have hp : 1 ≤ 10 ^ ds.length := Nat.one_le_pow _ _ (by decide)
      have hle : 10 * v + (c.toNat - 48) ≤ max := by
        have : (10 * v + (c.toNat - 48)) * 1 ≤ (10 * v + (c.toNat - 48)) * 10 ^ ds.length := Nat.mul_le_mul_left _ hp
        omega
      rcases h2 with h2 | h2 | h2
      · omega
      · have hlen : 0 < ds.length := List.length_pos_iff.2 h2
        have : 10 ^ 1 ≤ 10 ^ ds.length := Nat.pow_le_pow_right (by decide) hlen
        have : (10 * v + (c.toNat - 48)) * 10 ≤ (10 * v + (c.toNat - 48)) * 10 ^ ds.length := Nat.mul_le_mul_left _ (by simpa using this)
        omega
      · omega

theorem six_zero_or_num (q : ℚ) : six q = .zero false ∨ ∃ neg m x, six q = .num neg m x := by
  unfold six
  by_cases h : q = 0
  · rw [if_pos h]; exact .inl rfl
  · rw [if_neg h]
    dsimp only
    split_ifs
    · exact .inr ⟨_, _, _, rfl⟩
    · exact .inr ⟨_, _, _, rfl⟩

theorem isDigit_false_of {c : Char} (h : c = '.' ∨ c = 'e') : isDigit c = false := by
  rcases h with rfl | rfl <;> decide

/-- The text of a number is that of a whole number, or it has a point or an exponent. -/
theorem gText_kinds {neg : Bool} {m : Nat} {x : Int} (h1 : 10 ^ 5 ≤ m) (h2 : m < 10 ^ 6) :
    ∃ body, gText (.num neg m x) = signOf neg ++ body ∧
      ((∃ c ∈ body, c = '.' ∨ c = 'e') ∨
        (Digits body ∧ body ≠ [] ∧ body.length ≤ 6 ∧ 0 < decVal body ∧ Nat.toDigits 10 (decVal body) = body)) := by
  have hl := length_six h1 h2
  refine ⟨_, rfl, ?_⟩
  have frac : ∀ fs : List Char, fracOf fs = [] ∨ '.' ∈ fracOf fs := by
    intro fs
    unfold fracOf
    split
    · exact .inl rfl
    · exact .inr List.mem_cons_self
  by_cases c1 : x < -4 ∨ 6 ≤ x
  · rw [if_pos c1]
    exact .inl ⟨'e', by simp, .inr rfl⟩
  · rw [if_neg c1]
    by_cases c2 : 0 ≤ x
    · rw [if_pos c2]
      rcases frac ((decText m).drop (x.toNat + 1)) with hf | hf
      · rw [hf, List.append_nil]
        right
        have hk : x.toNat + 1 ≤ 6 := by omega
        have hlen : ((decText m).take (x.toNat + 1)).length = x.toNat + 1 := by rw [List.length_take, hl]; omega
        have hd : Digits ((decText m).take (x.toNat + 1)) := Digits.take (digits_decText m) _
        have hsplit : m = decVal ((decText m).take (x.toNat + 1)) * 10 ^ (5 - x.toNat) + decVal ((decText m).drop (x.toNat + 1)) := by
          conv_lhs => rw [← decVal_decText m, ← List.take_append_drop (x.toNat + 1) (decText m)]
          rw [decVal_append, List.length_drop, hl, show 6 - (x.toNat + 1) = 5 - x.toNat by omega]
        have hlow : decVal ((decText m).drop (x.toNat + 1)) < 10 ^ (5 - x.toNat) := by
          have := decVal_lt _ (Digits.drop (digits_decText m) (x.toNat + 1))
          rwa [List.length_drop, hl, show 6 - (x.toNat + 1) = 5 - x.toNat by omega] at this
        have hge : 10 ^ x.toNat ≤ decVal ((decText m).take (x.toNat + 1)) := by
          by_contra hc
          rw [not_le] at hc
          have e : 10 ^ x.toNat * 10 ^ (5 - x.toNat) = 10 ^ 5 := by
            rw [← pow_add]
            congr 1
            omega
          have : (decVal ((decText m).take (x.toNat + 1)) + 1) * 10 ^ (5 - x.toNat) ≤ 10 ^ x.toNat * 10 ^ (5 - x.toNat) :=
            Nat.mul_le_mul_right _ hc
          rw [e, Nat.add_mul] at this
          omega
        have hne : (decText m).take (x.toNat + 1) ≠ [] := by
          intro h
          rw [h] at hlen
          simp at hlen
        refine ⟨hd, hne, by omega, lt_of_lt_of_le (by positivity) hge, toDigits_decVal hd hne (.inr ?_)⟩
        rw [hlen]
        exact hge
      · exact .inl ⟨'.', List.mem_append_right _ hf, .inl rfl⟩
    · rw [if_neg c2]
      rcases frac (List.replicate ((-x).toNat - 1) '0' ++ decText m) with hf | hf
      · exfalso
        unfold fracOf at hf
        split at hf
        · rename_i hs
          obtain ⟨k, hk⟩ := stripZeros_spec (List.replicate ((-x).toNat - 1) '0' ++ decText m)
          rw [hs, List.nil_append] at hk
          have := congrArg decVal hk
          rw [decVal_append, decVal_zeros, decVal_zeros, decVal_decText] at this
          omega
        · cases hf
      · exact .inl ⟨'.', List.mem_cons_of_mem _ hf, .inl rfl⟩

theorem decodeNumber_pos {t : List Char} (h : t.head? ≠ some '-') : decodeNumber t =
    match decodeDigits (2 ^ 64 - 1) 0 t with
    | some v => some (.int v)
    | none => decodeDouble t := by
  unfold decodeNumber
  split
  · simp at h
  · rfl

/-- A printed number is read as a value that prints as the same text. -/
theorem decodeNumber_put {q : ℚ} (h : Single q) : ∃ v, decodeNumber (put (.fin q)) = some v ∧ asString v = some (put (.fin q)) := by
  have hp := six_printable h
  rcases six_zero_or_num q with hz | ⟨neg, m, x, e⟩
  · have : put (.fin q) = ['0'] := by
      show gText (six q) = _
      rw [hz]
      rfl
    rw [this]
    exact ⟨.int 0, by decide, by decide⟩
  · have hput : put (.fin q) = gText (.num neg m x) := by
      show gText (six q) = _
      rw [e]
    have hdbl : ∃ v, decodeDouble (put (.fin q)) = some v ∧ asString v = some (put (.fin q)) := by
      obtain ⟨r, hr, hs⟩ := six_round h
      refine ⟨.real (.fin r), ?_, ?_⟩
      · have := scanDec_put h (rest := []) (by simp [Stop])
        rw [List.append_nil] at this
        unfold decodeDouble
        rw [this]
        simp only [hr, Option.map_some]
      · show some (gText (six r)) = some (gText (six q))
        rw [hs]
    rw [e] at hp
    obtain ⟨body, hb, hk⟩ := gText_kinds (neg := neg) (x := x) hp.1 hp.2.1
    rw [← hput] at hb
    cases neg with
    | false =>
      have hb' : put (.fin q) = body := by rw [hb]; rfl
      rw [hb'] at hdbl ⊢
      have hhead : body.head? ≠ some '-' := by
        rcases hk with _ | ⟨hd, _⟩
        · obtain ⟨sgn, s, ds, ft, fs, et, sx, es, g1, g2, g3, g4, _, _, _, _, g7, _⟩ := gText_literal (.num false m x) hp
          have g1 : body = sgn ++ (ds ++ (ft ++ et)) := by rw [← hb', hput, g1]
          cases g2 with
          | none =>
            cases ds with
            | nil => exact absurd rfl g4
            | cons c ds =>
              rw [g1]
              intro hh
              simp only [List.nil_append, List.cons_append, List.head?_cons, Option.some.injEq] at hh
              have := g3 c List.mem_cons_self
              rw [hh] at this
              revert this
              decide
          | plus =>
            rw [g1]
            simp
          | minus =>
            exfalso
            have hpos : (0 : ℚ) < gRat (.num false m x) := by
              rw [gRat_num]
              have : 0 < m := by have := hp.1; omega
              simp only [Bool.false_eq_true, if_false, one_mul]
              positivity
            rw [← g7] at hpos
            unfold literalValue at hpos
            have : (0 : ℚ) ≤ ((decVal ds : ℚ) + decVal fs / 10 ^ fs.length) * 10 ^ (sx * (decVal es : Int)) := by positivity
            simp only [Int.cast_neg, Int.cast_one] at hpos
            linarith
        · cases body with
          | nil => simp
          | cons c body =>
            intro hh
            simp only [List.head?_cons, Option.some.injEq] at hh
            have := hd c List.mem_cons_self
            rw [hh] at this
            revert this
            decide
      rw [decodeNumber_pos hhead]
      rcases hk with ⟨c, hc, hc'⟩ | ⟨hd, hne, hlen, hpos, hdig⟩
      · rw [decodeDigits_none ⟨c, hc, isDigit_false_of hc'⟩]
        exact hdbl
      · have hlt := decVal_lt body hd
        have : decVal body < 10 ^ 6 := lt_of_lt_of_le hlt (Nat.pow_le_pow_right (by decide) hlen)
        rw [decodeDigits_some (by decide) hd (show decVal body ≤ _ by omega)]
        refine ⟨.int (decVal body), rfl, ?_⟩
        show some (intText _) = _
        unfold intText
        rw [if_neg (by omega), Int.natAbs_natCast, hdig]
    | true =>
      have hb' : put (.fin q) = '-' :: body := by rw [hb]; rfl
      rw [hb'] at hdbl ⊢
      show ∃ v, (match decodeDigits (2 ^ 63) 0 body with
        | some v => some (.int (-v))
        | none => decodeDouble ('-' :: body)) = some v ∧ _
      rcases hk with ⟨c, hc, hc'⟩ | ⟨hd, hne, hlen, hpos, hdig⟩
      · rw [decodeDigits_none ⟨c, hc, isDigit_false_of hc'⟩]
        exact hdbl
      · have hlt := decVal_lt body hd
        have : decVal body < 10 ^ 6 := lt_of_lt_of_le hlt (Nat.pow_le_pow_right (by decide) hlen)
        rw [decodeDigits_some (by decide) hd (show decVal body ≤ _ by omega)]
        refine ⟨.int (-(decVal body)), rfl, ?_⟩
        show some (intText _) = _
        unfold intText
        have hneg : (-(decVal body : Int)) < 0 := by
          have : (0 : Int) < decVal body := by exact_mod_cast hpos
          linarith
        rw [if_pos hneg, Int.natAbs_neg, Int.natAbs_natCast, hdig]

/-- An integer of 64 bits is read as it was printed. -/
theorem decodeNumber_int {n : Int} (h1 : -2 ^ 63 ≤ n) (h2 : n ≤ 2 ^ 64 - 1) : decodeNumber (intText n) = some (.int n) := by
  unfold intText
  by_cases hn : n < 0
  · rw [if_pos hn]
    show (match decodeDigits (2 ^ 63) 0 (Nat.toDigits 10 n.natAbs) with
        | some v => some (Value.int (-v))
        | none => decodeDouble _) = _
    have hd := decVal_decText n.natAbs
    rw [decodeDigits_some (by decide) (digits_decText _) (show decVal (decText n.natAbs) ≤ _ by rw [hd]; omega)]
    show some (Value.int (-((decVal (decText n.natAbs) : Nat) : Int))) = _
    rw [hd]
    congr 2
    omega
  · rw [if_neg hn]
    have hd := decVal_decText n.natAbs
    rw [decodeNumber_pos, decodeDigits_some (by decide) (digits_decText _) (show decVal (decText n.natAbs) ≤ _ by rw [hd]; omega)]
    · show some (Value.int ((decVal (decText n.natAbs) : Nat) : Int)) = _
      rw [hd]
      congr 2
      omega
    · intro hh
      have hm := List.mem_of_mem_head? hh
      have := digits_decText n.natAbs _ hm
      revert this
      decide

end Sol.Json
