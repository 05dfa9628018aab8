import Verif.Proofs.NumericParserVal
import Verif.Spec.SvmGrammar
/-!
# What a successful parse says about the text
-/

namespace Sol.NumericParser
open Sol.Spec

theorem peek_inv {p : Ptr} {c : Char} (h : peek p = .ok c) : ∃ q, p = c :: q := by
  cases p with
  | nil => simp [peek] at h
  | cons d q => simp [peek] at h; exact ⟨q, by rw [h]⟩

theorem stripLine_inv {p e : Ptr} (h : stripLine p = .ok e) : ∃ ws, Blanks ws ∧ p = ws ++ e := by
  induction p with
  | nil => simp [stripLine] at h
  | cons c p ih =>
    rw [stripLine] at h
    split at h
    · rename_i hb
      obtain ⟨ws, h1, h2⟩ := ih h
      refine ⟨c :: ws, ?_, by rw [h2]; rfl⟩
      intro d hd
      rcases List.mem_cons.1 hd with rfl | hd
      · exact hb
      · exact h1 d hd
    · simp at h
      exact ⟨[], fun c hc => by simp at hc, by simp [h]⟩

theorem accInt_inv {acc : Nat} {c : Char} {v : Int} (hc : c.isDigit = true) (h : accInt acc c = .ok v) :
    v = ((10 * acc + (c.toNat - 48) : Nat) : Int) ∧ 10 * acc + (c.toNat - 48) ≤ 2147483599 := by
  by_cases hb : 10 * acc + (c.toNat - 48) ≤ 2147483599
  · rw [accInt_ok hc hb] at h
    simp at h
    exact ⟨by omega, hb⟩
  · rw [accInt_overflow hc (by omega)] at h
    simp at h

theorem digits_cons {c : Char} {ds : List Char} (hc : c.isDigit = true) (h : Digits ds) : Digits (c :: ds) := by
  intro d hd
  rcases List.mem_cons.1 hd with rfl | hd
  · exact hc
  · exact h d hd

theorem digits_nil : Digits [] := fun c hc => by simp at hc

theorem intDigits_inv {p e : Ptr} {acc : Nat} {v : Int} (h : intDigits acc p = .ok (v, e)) :
    ∃ ds, Digits ds ∧ p = ds ++ e ∧ v = (Nat.ofDigitChars 10 ds acc : Nat) := by
  induction p generalizing acc with
  | nil => simp [intDigits] at h
  | cons c p ih =>
    rw [intDigits] at h
    split at h
    · rename_i hc
      rw [isDigit_eq] at hc
      obtain ⟨a, ha, h⟩ := Res.bind_eq_ok.1 h
      obtain ⟨rfl, _⟩ := accInt_inv hc ha
      obtain ⟨ds, h1, h2, h3⟩ := ih h
      exact ⟨c :: ds, digits_cons hc h1, by rw [h2]; rfl, by rw [h3, ofDigitChars_cons]⟩
    · simp at h
      exact ⟨[], digits_nil, by simp [h.2], by rw [← h.1]; rfl⟩

theorem intDecimals_inv {p e : Ptr} {acc n k : Nat} {v : Int} (h : intDecimals acc n none p = .ok (v, k, e)) :
    ∃ ds, Digits ds ∧ p = ds ++ e ∧ v = (Nat.ofDigitChars 10 ds acc : Nat) ∧ k = n + ds.length := by
  induction p generalizing acc n with
  | nil => simp [intDecimals] at h
  | cons c p ih =>
    rw [intDecimals] at h
    split at h
    · rename_i hc
      rw [isDigit_eq, Bool.and_eq_true] at hc
      obtain ⟨a, ha, h⟩ := Res.bind_eq_ok.1 h
      obtain ⟨rfl, _⟩ := accInt_inv hc.1 ha
      obtain ⟨ds, h1, h2, h3, h4⟩ := ih h
      exact ⟨c :: ds, digits_cons hc.1 h1, by rw [h2]; rfl, by rw [h3, ofDigitChars_cons], by
        rw [h4, List.length_cons]; omega⟩
    · simp at h
      exact ⟨[], digits_nil, by simp [h.2.2], by rw [← h.1]; rfl, by simp [h.2.1]⟩

theorem intDecimals7_inv {p e : Ptr} {acc n k : Nat} {v : Int} (hn : n ≤ 7)
    (h : intDecimals acc n (some 7) p = .ok (v, k, e)) :
    ∃ ds, Digits ds ∧ p = ds ++ e ∧ v = (Nat.ofDigitChars 10 ds acc : Nat) ∧ k = n + ds.length ∧ k ≤ 7 ∧
      (k < 7 → StopsDigits e) := by
  induction p generalizing acc n with
  | nil => simp [intDecimals] at h
  | cons c p ih =>
    rw [intDecimals] at h
    split at h
    · rename_i hc
      rw [isDigit_eq, Bool.and_eq_true] at hc
      have hn7 : 7 ≠ n := by simpa using hc.2
      obtain ⟨a, ha, h⟩ := Res.bind_eq_ok.1 h
      obtain ⟨rfl, _⟩ := accInt_inv hc.1 ha
      obtain ⟨ds, h1, h2, h3, h4, h5, h6⟩ := ih (by omega) h
      exact ⟨c :: ds, digits_cons hc.1 h1, by rw [h2]; rfl, by rw [h3, ofDigitChars_cons], by
        rw [h4, List.length_cons]; omega, h5, h6⟩
    · rename_i hc
      simp at h
      refine ⟨[], digits_nil, by simp [h.2.2], by rw [← h.1]; rfl, by simp [h.2.1], by omega, fun hk => ?_⟩
      rw [← h.2.2]
      refine ⟨c, p, rfl, ?_⟩
      rw [isDigit_eq] at hc
      cases hd : c.isDigit
      · rfl
      · rw [hd, Bool.true_and] at hc
        have : 7 = n := by simpa using hc
        omega

theorem skipDigits_inv {p e : Ptr} (h : skipDigits p = .ok e) : ∃ ds, Digits ds ∧ p = ds ++ e := by
  induction p with
  | nil => simp [skipDigits] at h
  | cons c p ih =>
    rw [skipDigits] at h
    split at h
    · rename_i hc
      rw [isDigit_eq] at hc
      obtain ⟨ds, h1, h2⟩ := ih h
      exact ⟨c :: ds, digits_cons hc h1, by rw [h2]; rfl⟩
    · simp at h
      exact ⟨[], digits_nil, by simp [h]⟩

theorem skipDigits_stops {p : Ptr} (h : StopsDigits p) : skipDigits p = .ok p := skipDigits_ok (ds := []) digits_nil h

theorem uintDigits_inv {p e : Ptr} {acc : Nat} {v : UInt32} (h : uintDigits (UInt32.ofNat acc) p = .ok (v, e)) :
    ∃ ds, Digits ds ∧ p = ds ++ e ∧ v = UInt32.ofNat (Nat.ofDigitChars 10 ds acc) := by
  induction p generalizing acc with
  | nil => simp [uintDigits] at h
  | cons c p ih =>
    rw [uintDigits] at h
    split at h
    · rename_i hc
      rw [isDigit_eq] at hc
      rw [accUint acc hc] at h
      obtain ⟨ds, h1, h2, h3⟩ := ih h
      exact ⟨c :: ds, digits_cons hc h1, by rw [h2]; rfl, by rw [h3, ofDigitChars_cons]⟩
    · simp at h
      exact ⟨[], digits_nil, by simp [h.2], by rw [← h.1]; rfl⟩

theorem uintDecimals_inv {p e : Ptr} {acc n k : Nat} {v : UInt32}
    (h : uintDecimals (UInt32.ofNat acc) n p = .ok (v, k, e)) :
    ∃ ds, Digits ds ∧ p = ds ++ e ∧ v = UInt32.ofNat (Nat.ofDigitChars 10 ds acc) ∧ k = n + ds.length := by
  induction p generalizing acc n with
  | nil => simp [uintDecimals] at h
  | cons c p ih =>
    rw [uintDecimals] at h
    split at h
    · rename_i hc
      rw [isDigit_eq] at hc
      rw [accUint acc hc] at h
      obtain ⟨ds, h1, h2, h3, h4⟩ := ih h
      exact ⟨c :: ds, digits_cons hc h1, by rw [h2]; rfl, by rw [h3, ofDigitChars_cons], by
        rw [h4, List.length_cons]; omega⟩
    · simp at h
      exact ⟨[], digits_nil, by simp [h.2.2], by rw [← h.1]; rfl, by simp [h.2.1]⟩

theorem skipChar_inv {c : Char} {p e : Ptr} (h : skipChar c p = .ok e) : p = e ∨ p = c :: e := by
  unfold skipChar at h
  obtain ⟨x, hx, h⟩ := Res.bind_eq_ok.1 h
  obtain ⟨q, rfl⟩ := peek_inv hx
  split at h
  · rename_i hc
    simp at h
    right; rw [hc, h]
  · simp at h
    left; exact h

theorem intExponent_inv {p e : Ptr} {v : Int} (h : intExponent p = .ok (v, e)) :
    ∃ et es, ExpTok et es ∧ p = et ++ e ∧ v = (decVal es : Nat) := by
  unfold intExponent at h
  obtain ⟨x, hx, h⟩ := Res.bind_eq_ok.1 h
  obtain ⟨q, rfl⟩ := peek_inv hx
  split at h
  · rename_i hm
    obtain ⟨p', hp', h⟩ := Res.bind_eq_ok.1 h
    rw [List.tail_cons] at hp'
    obtain ⟨es, h1, h2, h3⟩ := intDigits_inv (acc := 0) h
    rcases skipChar_inv hp' with rfl | rfl
    · exact ⟨x :: ([] ++ es), es, .some x hm [] (.inl rfl) es h1, by rw [h2]; rfl, h3⟩
    · exact ⟨x :: (['+'] ++ es), es, .some x hm ['+'] (.inr rfl) es h1, by rw [h2]; rfl, h3⟩
  · simp at h
    exact ⟨[], [], .none, by simp [h.2], by rw [← h.1]; rfl⟩

theorem intFraction_inv {p e : Ptr} {acc k : Nat} {v : Int} (h : intFraction acc p = .ok (v, k, e)) :
    ∃ ft fs, FracText ft fs ∧ p = ft ++ e ∧ v = (Nat.ofDigitChars 10 fs acc : Nat) ∧ k = fs.length := by
  unfold intFraction at h
  obtain ⟨x, hx, h⟩ := Res.bind_eq_ok.1 h
  obtain ⟨q, rfl⟩ := peek_inv hx
  split at h
  · rename_i hm
    subst hm
    obtain ⟨ds, h1, h2, h3, h4⟩ := intDecimals_inv h
    rw [List.tail_cons] at h2
    exact ⟨'.' :: ds, ds, .some ds h1, by rw [h2]; rfl, h3, by omega⟩
  · simp at h
    exact ⟨[], [], .none, by simp [h.2.2], by rw [← h.1]; rfl, by simp [h.2.1]⟩

theorem uintFraction_inv {p e : Ptr} {acc k : Nat} {v : UInt32}
    (h : uintFraction (UInt32.ofNat acc) p = .ok (v, k, e)) :
    ∃ ft fs, FracText ft fs ∧ p = ft ++ e ∧ v = UInt32.ofNat (Nat.ofDigitChars 10 fs acc) ∧ k = fs.length := by
  unfold uintFraction at h
  obtain ⟨x, hx, h⟩ := Res.bind_eq_ok.1 h
  obtain ⟨q, rfl⟩ := peek_inv hx
  split at h
  · rename_i hm
    subst hm
    obtain ⟨ds, h1, h2, h3, h4⟩ := uintDecimals_inv h
    rw [List.tail_cons] at h2
    exact ⟨'.' :: ds, ds, .some ds h1, by rw [h2]; rfl, h3, by omega⟩
  · simp at h
    exact ⟨[], [], .none, by simp [h.2.2], by rw [← h.1]; rfl, by simp [h.2.1]⟩

theorem floatFraction_inv {p e : Ptr} {acc k : Nat} {v : Int} (h : floatFraction acc p = .ok (v, k, e)) :
    ∃ ft fs, FracText ft fs ∧ p = ft ++ e ∧ v = (Nat.ofDigitChars 10 (fs.take 7) acc : Nat) ∧
      k = min 7 fs.length := by
  unfold floatFraction at h
  obtain ⟨x, hx, h⟩ := Res.bind_eq_ok.1 h
  obtain ⟨q, rfl⟩ := peek_inv hx
  split at h
  · rename_i hm
    subst hm
    obtain ⟨⟨a, n, p1⟩, ha, h⟩ := Res.bind_eq_ok.1 h
    obtain ⟨p2, hp2, h⟩ := Res.bind_eq_ok.1 h
    obtain ⟨ds, h1, h2, h3, h4, h5, h6⟩ := intDecimals7_inv (by omega) ha
    rw [List.tail_cons] at h2
    obtain ⟨ds', h1', h2'⟩ := skipDigits_inv hp2
    simp at h
    obtain ⟨rfl, rfl, rfl⟩ := h
    have hds : ds'= [] ∨ n = 7 := by
      by_cases hk : n < 7
      · have := skipDigits_stops (h6 hk)
        rw [this] at hp2
        simp at hp2
        rw [hp2] at h2'
        left
        simpa using h2'
      · right; omega
    refine ⟨'.' :: (ds ++ ds'), ds ++ ds', .some _ ?_, by rw [h2, h2']; simp, ?_, ?_⟩
    · intro c hc
      rcases List.mem_append.1 hc with h | h
      · exact h1 c h
      · exact h1' c h
    · rw [h3]
      rcases hds with rfl | hn
      · rw [List.append_nil, List.take_of_length_le (by omega)]
      · rw [List.take_append_of_le_length (by omega), List.take_of_length_le (by omega)]
    · rcases hds with rfl | hn
      · simp; omega
      · simp; omega
  · simp at h
    exact ⟨[], [], .none, by simp [h.2.2], by rw [← h.1]; rfl, by simp [← h.2.1]⟩

theorem intSign_inv {p e : Ptr} {s : Int} (h : intSign p = .ok (s, e)) : ∃ sgn, SignText sgn s ∧ p = sgn ++ e := by
  unfold intSign at h
  obtain ⟨x, hx, h⟩ := Res.bind_eq_ok.1 h
  obtain ⟨q, rfl⟩ := peek_inv hx
  split at h
  · simp at h; obtain ⟨rfl, rfl⟩ := h; rename_i hx; subst hx; exact ⟨['+'], .plus, rfl⟩
  · split at h
    · simp at h; obtain ⟨rfl, rfl⟩ := h; rename_i hx; subst hx; exact ⟨['-'], .minus, rfl⟩
    · simp at h; obtain ⟨rfl, rfl⟩ := h; exact ⟨[], .none, rfl⟩

theorem floatSign_inv {p e : Ptr} {s : Int} (h : floatSign p = .ok (s, e)) :
    ∃ sgn, FSignTok sgn s ∧ p = sgn ++ e := by
  unfold floatSign at h
  obtain ⟨p1, hp1, h⟩ := Res.bind_eq_ok.1 h
  obtain ⟨x, hx, h⟩ := Res.bind_eq_ok.1 h
  obtain ⟨q, rfl⟩ := peek_inv hx
  split at h
  · rename_i hx; subst hx
    simp at h; obtain ⟨rfl, rfl⟩ := h
    rcases skipChar_inv hp1 with rfl | rfl
    · exact ⟨['-'], .one _ _ .minus, rfl⟩
    · exact ⟨['+', '-'], .plusMinus, rfl⟩
  · simp at h; obtain ⟨rfl, rfl⟩ := h
    rcases skipChar_inv hp1 with rfl | rfl
    · exact ⟨[], .one _ _ .none, rfl⟩
    · exact ⟨['+'], .one _ _ .plus, rfl⟩

theorem chkInt_inv {x y : Int} (h : chkInt x = .ok y) : y = x := by
  unfold chkInt at h
  split at h
  · simp at h; exact h.symm
  · simp at h

theorem floatExponent_inv {p e : Ptr} {v : Int} (h : floatExponent p = .ok (v, e)) :
    ∃ et sx es, FExpTok et sx es ∧ p = et ++ e ∧ v = sx * (decVal es : Nat) := by
  unfold floatExponent at h
  obtain ⟨x, hx, h⟩ := Res.bind_eq_ok.1 h
  obtain ⟨q, rfl⟩ := peek_inv hx
  split at h
  · rename_i hm
    obtain ⟨⟨s, p1⟩, hs, h⟩ := Res.bind_eq_ok.1 h
    obtain ⟨⟨a, p2⟩, ha, h⟩ := Res.bind_eq_ok.1 h
    obtain ⟨y, hy, h⟩ := Res.bind_eq_ok.1 h
    have hy := chkInt_inv hy
    simp at h
    obtain ⟨rfl, rfl⟩ := h
    rw [List.tail_cons] at hs
    obtain ⟨sgn, h1, h2⟩ := floatSign_inv hs
    obtain ⟨es, h3, h4, h5⟩ := intDigits_inv (acc := 0) ha
    refine ⟨x :: (sgn ++ es), s, es, .some x hm sgn s h1 es h3, by rw [h2]; rw [h4]; simp, ?_⟩
    rw [hy, Int.mul_comm]; rw [h5]
  · simp at h
    exact ⟨[], 1, [], .none, by simp [h.2], by rw [← h.1]; rfl⟩

theorem scaleInt_inv {a e : Nat} {n : Nat} {v : Int} (hn : n ≤ e) (h : scaleInt a e n = .ok v) :
    v = ((a * 10 ^ (e - n) : Nat) : Int) := by
  unfold scaleInt at h
  split at h
  · dsimp only at h
    split at h
    · simp at h
    · have := chkInt_inv h
      rw [this, show ((e : Int) - (n : Int)).toNat = e - n by omega]
      simp
  · simp at h
    have : e - n = 0 := by omega
    rw [this, ← h]; simp

theorem scaleUint_inv {a e : Nat} {n : Nat} {v : UInt32} (hn : n ≤ e)
    (h : scaleUint (UInt32.ofNat a) e n = .ok v) : v = UInt32.ofNat (a * 10 ^ (e - n)) := by
  unfold scaleUint at h
  split at h
  · dsimp only at h
    split at h
    · simp at h
    · simp only [Res.ok.injEq] at h
      rw [← h, show ((e : Int) - (n : Int)).toNat = e - n by omega, UInt32.ofNat_mul]
  · simp at h
    have : e - n = 0 := by omega
    rw [this, ← h]; simp

/-- A successful parse of an integer that moved forward consumed an integer token. -/
theorem parseInt_inv {p e : Ptr} {v : Int} (h : parseInt p = .ok (v, e)) (hne : e.length ≠ p.length) :
    ∃ tok, p = tok ++ e ∧ IntTok tok v := by
  unfold parseInt at h
  obtain ⟨p1, h1, h⟩ := Res.bind_eq_ok.1 h
  obtain ⟨c, hc, h⟩ := Res.bind_eq_ok.1 h
  split at h
  · simp at h; exact absurd (by rw [h.2]) hne
  obtain ⟨⟨s, p2⟩, h2, h⟩ := Res.bind_eq_ok.1 h
  obtain ⟨⟨a1, p3⟩, h3, h⟩ := Res.bind_eq_ok.1 h
  obtain ⟨⟨a2, k, p4⟩, h4, h⟩ := Res.bind_eq_ok.1 h
  obtain ⟨⟨x, p5⟩, h5, h⟩ := Res.bind_eq_ok.1 h
  dsimp only at h3 h4 h5 h
  obtain ⟨ws, w1, rfl⟩ := stripLine_inv h1
  obtain ⟨sgn, s1, rfl⟩ := intSign_inv h2
  obtain ⟨ds, d1, rfl, rfl⟩ := intDigits_inv (acc := 0) h3
  obtain ⟨ft, fs, f1, rfl, rfl, rfl⟩ := intFraction_inv h4
  obtain ⟨et, es, e1, rfl, rfl⟩ := intExponent_inv h5
  split at h
  · simp at h; exact absurd (by rw [h.2]) hne
  · rename_i hle
    obtain ⟨a3, h6, h⟩ := Res.bind_eq_ok.1 h
    obtain ⟨p6, h7, h⟩ := Res.bind_eq_ok.1 h
    obtain ⟨y, h8, h⟩ := Res.bind_eq_ok.1 h
    simp only [Res.ok.injEq, Prod.mk.injEq] at h
    obtain ⟨rfl, rfl⟩ := h
    have h8 := chkInt_inv h8
    obtain ⟨ws', w2, rfl⟩ := stripLine_inv h7
    have hle' : fs.length ≤ decVal es := by omega
    have h6 := scaleInt_inv hle' h6
    refine ⟨ws ++ (sgn ++ (ds ++ (ft ++ (et ++ ws')))), by simp, ws, sgn, s, ds, ft, fs, et, es, ws', w1, s1, d1, f1,
      e1, w2, rfl, hle', ?_⟩
    rw [h8, h6, decVal, decVal, ofDigitChars_append]

/-- A successful parse of an index that moved forward consumed an index token. -/
theorem parseUint_inv {p e : Ptr} {v : UInt32} (h : parseUint p = .ok (v, e)) (hne : e.length ≠ p.length) :
    ∃ tok, p = tok ++ e ∧ UintTok tok v := by
  unfold parseUint at h
  obtain ⟨p1, h1, h⟩ := Res.bind_eq_ok.1 h
  obtain ⟨c, hc, h⟩ := Res.bind_eq_ok.1 h
  split at h
  · simp at h; exact absurd (by rw [h.2]) hne
  obtain ⟨⟨a1, p3⟩, h3, h⟩ := Res.bind_eq_ok.1 h
  obtain ⟨⟨a2, k, p4⟩, h4, h⟩ := Res.bind_eq_ok.1 h
  obtain ⟨⟨x, p5⟩, h5, h⟩ := Res.bind_eq_ok.1 h
  dsimp only at h3 h4 h5 h
  obtain ⟨ws, w1, rfl⟩ := stripLine_inv h1
  obtain ⟨ds, d1, rfl, rfl⟩ := uintDigits_inv (acc := 0) h3
  obtain ⟨ft, fs, f1, rfl, rfl, rfl⟩ := uintFraction_inv h4
  obtain ⟨et, es, e1, rfl, rfl⟩ := intExponent_inv h5
  split at h
  · simp at h; exact absurd (by rw [h.2]) hne
  · rename_i hle
    obtain ⟨a3, h6, h⟩ := Res.bind_eq_ok.1 h
    obtain ⟨p6, h7, h⟩ := Res.bind_eq_ok.1 h
    simp only [Res.ok.injEq, Prod.mk.injEq] at h
    obtain ⟨rfl, rfl⟩ := h
    obtain ⟨ws', w2, rfl⟩ := stripLine_inv h7
    have hle' : fs.length ≤ decVal es := by omega
    have h6 := scaleUint_inv hle' h6
    refine ⟨ws ++ (ds ++ (ft ++ (et ++ ws'))), by simp, ws, ds, ft, fs, et, es, ws', w1, d1, f1,
      e1, w2, rfl, hle', ?_⟩
    rw [h6, decVal, decVal, ofDigitChars_append]

/-- A successful parse of a value that moved forward consumed a value token. -/
theorem parseFloat_inv {p e : Ptr} {v : Dec} (h : parseFloat p = .ok (v, e)) (hne : e.length ≠ p.length) :
    ∃ tok, p = tok ++ e ∧ FloatTok tok v := by
  unfold parseFloat at h
  obtain ⟨p1, h1, h⟩ := Res.bind_eq_ok.1 h
  obtain ⟨c, hc, h⟩ := Res.bind_eq_ok.1 h
  split at h
  · simp at h; exact absurd (by rw [h.2]) hne
  obtain ⟨⟨s, p2⟩, h2, h⟩ := Res.bind_eq_ok.1 h
  obtain ⟨⟨a1, p3⟩, h3, h⟩ := Res.bind_eq_ok.1 h
  obtain ⟨⟨a2, k, p4⟩, h4, h⟩ := Res.bind_eq_ok.1 h
  obtain ⟨⟨x, p5⟩, h5, h⟩ := Res.bind_eq_ok.1 h
  dsimp only at h3 h4 h5 h
  obtain ⟨x2, h6, h⟩ := Res.bind_eq_ok.1 h
  obtain ⟨p6, h7, h⟩ := Res.bind_eq_ok.1 h
  obtain ⟨y, h8, h⟩ := Res.bind_eq_ok.1 h
  simp only [Res.ok.injEq, Prod.mk.injEq] at h
  obtain ⟨rfl, rfl⟩ := h
  obtain ⟨ws, w1, rfl⟩ := stripLine_inv h1
  obtain ⟨sgn, s1, rfl⟩ := floatSign_inv h2
  obtain ⟨ds, d1, rfl, rfl⟩ := intDigits_inv (acc := 0) h3
  obtain ⟨ft, fs, f1, rfl, rfl, rfl⟩ := floatFraction_inv h4
  obtain ⟨et, sx, es, e1, rfl, rfl⟩ := floatExponent_inv h5
  obtain ⟨ws', w2, rfl⟩ := stripLine_inv h7
  have h6 := chkInt_inv h6
  have h8 := chkInt_inv h8
  refine ⟨ws ++ (sgn ++ (ds ++ (ft ++ (et ++ ws')))), by simp, ws, sgn, s, ds, ft, fs, et, sx, es, ws', w1, s1, d1, f1,
    e1, w2, rfl, ?_⟩
  rw [h6, h8]
  simp only [decVal, ofDigitChars_append]

end Sol.NumericParser
