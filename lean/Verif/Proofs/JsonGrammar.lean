import Verif.Proofs.JsonText
/-!
# The JSON reader reads JSON text
-/

namespace Sol.Json
open Sol.FloatText Sol.Text Sol.TextWriters Sol.Spec Sol.Props
open Sol.NumericParser hiding isDigit

/-! ### Tokens -/

theorem gap_isBlank {w : List Char} (h : Gap w) : ∀ c ∈ w, isBlank c = true := by
  intro c hc
  rcases h c hc with rfl | rfl | rfl | rfl <;> decide

theorem drop_gap {w : List Char} (h : Gap w) (s : List Char) : (w ++ s).dropWhile isBlank = s.dropWhile isBlank :=
  List.dropWhile_append_of_pos (gap_isBlank h)

theorem readToken_gap {w : List Char} (h : Gap w) (s : List Char) : readToken (w ++ s) = readToken s := by
  unfold readToken
  rw [drop_gap h]

theorem readToken_at {c : Char} (h : isBlank c = false) (s : List Char) : readToken (c :: s) = tokenFrom c s := by
  unfold readToken
  rw [List.dropWhile_cons, h]
  rfl

theorem readToken_drop (s : List Char) : readToken (s.dropWhile isBlank) = readToken s := by
  induction s with
  | nil => rfl
  | cons c s ih =>
    by_cases h : isBlank c = true
    · have e : readToken (c :: s) = readToken s := by
        unfold readToken
        rw [List.dropWhile_cons, if_pos h]
      rw [List.dropWhile_cons, if_pos h, ih, e]
    · rw [List.dropWhile_cons, if_neg h]

theorem skip_drop (n : Nat) (s : List Char) : skipComments n (s.dropWhile isBlank) = skipComments n s := by
  cases n with
  | zero => rfl
  | succ n =>
    unfold skipComments
    rw [readToken_drop]

theorem readValue_drop (n d : Nat) (s : List Char) : readValue n d (s.dropWhile isBlank) = readValue n d s := by
  cases n with
  | zero => simp [readValue]
  | succ n =>
    unfold readValue
    rw [skip_drop]

theorem readArray_drop (n d : Nat) (l : Elems) (s : List Char) : readArray n d l (s.dropWhile isBlank) = readArray n d l s := by
  cases n with
  | zero => simp [readArray]
  | succ n =>
    unfold readArray
    rw [readValue_drop]

theorem skip_token {n : Nat} {s : List Char} (hn : 1 ≤ n) {t : Token} {r : List Char} (h : readToken s = (t, r)) (ht : t ≠ .comment) :
    skipComments n s = some (t, r) := by
  cases n with
  | zero => omega
  | succ n =>
    unfold skipComments
    rw [h, if_neg ht]

theorem stop_gap {w : List Char} (h : Gap w) {r : List Char} (hr : Stop r) : Stop (w ++ r) := by
  cases w with
  | nil => exact hr
  | cons c w =>
    intro d hd
    simp only [List.cons_append, List.head?_cons, Option.mem_def, Option.some.injEq] at hd
    subst hd
    rcases h c List.mem_cons_self with rfl | rfl | rfl | rfl <;> decide

theorem stop_cons {c : Char} (h : c = ',' ∨ c = ']' ∨ c = '}') (r : List Char) : Stop (c :: r) := by
  intro d hd
  simp only [List.head?_cons, Option.mem_def, Option.some.injEq] at hd
  subst hd
  rcases h with rfl | rfl | rfl <;> decide

/-! ### Numbers -/

theorem fracPart_text {ft fs : List Char} (h : FracText ft fs) {u : List Char} (hu : ∀ c ∈ u.head?, c.isDigit = false ∧ c ≠ '.') :
    fracPart (ft ++ u) = (ft, u) := by
  cases h with
  | none =>
    cases u with
    | nil => rfl
    | cons c t => simp [fracPart, (hu c (by simp)).2]
  | some _ h =>
    rw [List.cons_append]
    unfold fracPart
    dsimp only
    rw [if_pos rfl, Sol.PreProcess.takeWhile_app (digits_isDigit h) (stop_isDigit fun c hc => (hu c hc).1),
      Sol.PreProcess.dropWhile_app (digits_isDigit h) (stop_isDigit fun c hc => (hu c hc).1)]

theorem expPart_text {et es : List Char} {sx : Int} (h : ExpText et sx es) {rest : List Char} (hr : Stop rest) :
    expPart (et ++ rest) = (et, rest) := by
  cases h with
  | none =>
    cases rest with
    | nil => rfl
    | cons c t =>
      have := hr c (by simp)
      simp [expPart, this.2.2.1, this.2.2.2]
  | some m hm sgn s' hs _ h hne =>
    have h1 := Sol.PreProcess.takeWhile_app (digits_isDigit h) (stop_isDigit fun c hc => (hr c hc).1)
    have h2 := Sol.PreProcess.dropWhile_app (digits_isDigit h) (stop_isDigit fun c hc => (hr c hc).1)
    rw [List.cons_append, List.append_assoc]
    unfold expPart
    dsimp only
    rw [if_pos hm]
    cases hs with
    | none =>
      cases es with
      | nil => exact absurd rfl hne
      | cons e es =>
        have := Sol.PreProcess.digit_plain (h e List.mem_cons_self)
        simp only [List.nil_append, List.cons_append] at h1 h2 ⊢
        rw [if_neg (by rw [not_or]; exact ⟨this.2.2.1, this.2.1⟩), h1, h2]
    | plus =>
      show (if _ then _ else _) = _
      rw [if_pos (show ('+' : Char) = '+' ∨ ('+' : Char) = '-' from .inl rfl), show [].append (es ++ rest) = es ++ rest from rfl, h1, h2]
      rfl
    | minus =>
      show (if _ then _ else _) = _
      rw [if_pos (show ('-' : Char) = '+' ∨ ('-' : Char) = '-' from .inr rfl), show [].append (es ++ rest) = es ++ rest from rfl, h1, h2]
      rfl

theorem readNumber_text {ds ft fs et es rest : List Char} {sx : Int} (hd : Digits ds) (hf : FracText ft fs) (he : ExpText et sx es)
    (hr : Stop rest) : readNumber (ds ++ (ft ++ (et ++ rest))) = (ds ++ (ft ++ et), rest) := by
  have h0 := expText_head he hr
  have h1 := fracText_head hf h0
  unfold readNumber
  dsimp only
  rw [Sol.PreProcess.takeWhile_app (digits_isDigit hd) (stop_isDigit h1), Sol.PreProcess.dropWhile_app (digits_isDigit hd) (stop_isDigit h1),
    fracPart_text hf h0]
  dsimp only
  rw [expPart_text he hr]

theorem minus_sign {sgn : List Char} {s : Int} (h : Minus sgn s) : SignText sgn s := by
  cases h
  · exact .none
  · exact .minus

theorem whole_ne {ds : List Char} (h : WholePart ds) : ds ≠ [] := by
  rcases h.2 with rfl | ⟨c, r, rfl, _⟩ <;> simp

theorem tokenFrom_num {c : Char} (h : isDigit c = true ∨ c = '-') (s : List Char) :
    tokenFrom c s = (.num (c :: (readNumber s).1), (readNumber s).2) := by
  have hne : ∀ d : Char, isDigit d = false → d ≠ '-' → c ≠ d := by
    rintro d h1 h2 rfl
    rcases h with h | h
    · rw [h1] at h
      cases h
    · exact h2 h
  unfold tokenFrom
  rw [if_neg (hne '{' (by decide) (by decide)), if_neg (hne '}' (by decide) (by decide)), if_neg (hne '[' (by decide) (by decide)),
    if_neg (hne ']' (by decide) (by decide)), if_neg (hne '"' (by decide) (by decide)), if_neg (hne '/' (by decide) (by decide)),
    if_pos h]

theorem readToken_literal {sgn ds ft fs et es rest : List Char} {s sx : Int} (hs : Minus sgn s) (hd : WholePart ds) (hf : FracText ft fs)
    (he : ExpText et sx es) (hr : Stop rest) :
    readToken (sgn ++ (ds ++ (ft ++ (et ++ rest)))) = (.num (sgn ++ (ds ++ (ft ++ et))), rest) := by
  have hne := whole_ne hd
  cases hs with
  | none =>
    cases ds with
    | nil => exact absurd rfl hne
    | cons c ds =>
      have hc := digits_isDigit hd.1 c List.mem_cons_self
      have hb : isBlank c = false := by
        unfold isBlank
        have : ∀ d : Char, isDigit d = false → c ≠ d := by
          rintro d h1 rfl
          rw [h1] at hc
          cases hc
        simp [this ' ' (by decide), this '\t' (by decide), this '\r' (by decide), this '\n' (by decide)]
      simp only [List.nil_append, List.cons_append]
      rw [readToken_at hb, tokenFrom_num (.inl hc),
        readNumber_text (fun c hc => hd.1 c (List.mem_cons_of_mem _ hc)) hf he hr]
  | minus =>
    simp only [List.cons_append, List.nil_append]
    rw [readToken_at (by decide), tokenFrom_num (.inr rfl), readNumber_text hd.1 hf he hr]

theorem decodeDigits_big {max v : Nat} {ds : List Char} (hd : Digits ds) (h : max < Nat.ofDigitChars 10 ds v) (hv : v ≤ max) :
    decodeDigits max v ds = none := by
  induction ds generalizing v with
  | nil =>
    simp [Nat.ofDigitChars] at h
    omega
  | cons c ds ih =>
    have hr := digit_range (hd c List.mem_cons_self)
    rw [ofDigitChars_cons] at h
    unfold decodeDigits
    rw [if_pos (digits_isDigit hd c List.mem_cons_self)]
    split_ifs with hc
    · rfl
    · rw [Nat.mul_comm v 10]
      refine ih (fun c hc => hd c (List.mem_cons_of_mem _ hc)) h ?_
      rw [not_and_or, not_le, not_or, not_or, not_lt, not_lt] at hc
      omega

theorem scanDec_whole {sgn ds ft fs et es : List Char} {s sx : Int} (hs : Minus sgn s) (hd : WholePart ds) (hf : FracText ft fs)
    (he : ExpText et sx es) : scanDec (sgn ++ (ds ++ (ft ++ et))) =
      some (s * ((decVal ds : ℚ) + (decVal fs : ℚ) / 10 ^ fs.length) * 10 ^ (sx * (decVal es : Int)), []) := by
  have := scanDec_literal (rest := []) (minus_sign hs) hd.1 (whole_ne hd) hf he (by simp [Stop])
  rw [List.append_nil] at this
  rw [this]
  rfl

theorem nondigit_of {ft fs et es : List Char} {sx : Int} (hf : FracText ft fs) (he : ExpText et sx es) (h : ft ++ et ≠ []) (ds : List Char) :
    ∃ c ∈ ds ++ (ft ++ et), isDigit c = false := by
  cases hf with
  | some => exact ⟨'.', by simp, by decide⟩
  | none =>
    cases he with
    | none => simp at h
    | some m hm => exact ⟨m, by simp, by rcases hm with rfl | rfl <;> decide⟩

/-- The text of a number is decoded to its value. -/
theorem decodeNumber_text {t : List Char} {v : Value} (h : NumText t v) : decodeNumber t = some v := by
  have pos : ∀ (ds r : List Char), WholePart ds → (ds ++ r).head? ≠ some '-' := by
    intro ds r hd hh
    cases ds with
    | nil => exact absurd rfl (whole_ne hd)
    | cons c ds =>
      simp only [List.cons_append, List.head?_cons, Option.some.injEq] at hh
      have := hd.1 c List.mem_cons_self
      rw [hh] at this
      revert this
      decide
  cases h with
  | @int sgn ds s hs hd h1 h2 =>
    cases hs with
    | none =>
      have := pos ds [] hd
      rw [List.append_nil] at this
      rw [List.nil_append, decodeNumber_pos this, decodeDigits_some (by decide) hd.1 (show decVal ds ≤ _ by omega)]
      simp
    | minus =>
      show (match decodeDigits (2 ^ 63) 0 ds with
        | some v => some (Value.int (-v))
        | none => decodeDouble _) = _
      rw [decodeDigits_some (by decide) hd.1 (show decVal ds ≤ _ by omega)]
      simp
  | @real sgn ds ft fs et es s sx r hs hd hf hf' he hk hr =>
    have hdbl : decodeDouble (sgn ++ (ds ++ (ft ++ et))) = some (.real (.fin r)) := by
      unfold decodeDouble
      rw [scanDec_whole hs hd hf he]
      simp only [hr, Option.map_some]
    have none_of : ∀ max, (ft ++ et = [] → max < decVal ds) → decodeDigits max 0 (ds ++ (ft ++ et)) = none := by
      intro max hmax
      by_cases he' : ft ++ et = []
      · rw [he', List.append_nil]
        exact decodeDigits_big hd.1 (hmax he') (Nat.zero_le _)
      · exact decodeDigits_none (nondigit_of hf he he' ds)
    cases hs with
    | none =>
      rw [List.nil_append] at hdbl ⊢
      rw [decodeNumber_pos (pos _ _ hd), none_of]
      · exact hdbl
      · intro he'
        rcases hk with hk | hk | hk
        · exact absurd he' hk
        · omega
        · omega
    | minus =>
      show (match decodeDigits (2 ^ 63) 0 (ds ++ (ft ++ et)) with
        | some v => some (Value.int (-v))
        | none => decodeDouble _) = _
      rw [none_of]
      · exact hdbl
      · intro he'
        rcases hk with hk | hk | hk
        · exact absurd he' hk
        · omega
        · omega

theorem readToken_num {t rest : List Char} {v : Value} (h : NumText t v) (hr : Stop rest) : readToken (t ++ rest) = (.num t, rest) := by
  cases h with
  | int hs hd =>
    have := readToken_literal hs hd .none .none hr
    simpa using this
  | real hs hd hf _ he =>
    have := readToken_literal hs hd hf he hr
    simpa using this

/-! ### Values -/

/-- The value at the start of the text is read. -/
def ReadsVal (k : Nat) (t : List Char) (v : Value) : Prop :=
  ∀ n d w rest, t.length + 2 ≤ n → d + k ≤ 1000 → Gap w → Stop rest → readValue n d (w ++ (t ++ rest)) = .ok v rest

/-- Elements at the end. -/
def Elems.app : Elems → Elems → Elems
  | .nil, m => m
  | .cons v l, m => .cons v (l.app m)

theorem app_snoc : ∀ (l : Elems) (v : Value) (m : Elems), (l.snoc v).app m = l.app (.cons v m)
  | .nil, _, _ => rfl
  | .cons u l, v, m => by
    have := app_snoc l v m
    simp only [Elems.snoc, Elems.app, this]

theorem app_nil : ∀ (l : Elems), l.app .nil = l
  | .nil => rfl
  | .cons u l => by rw [Elems.app, app_nil l]

def ReadsElems (k : Nat) (t : List Char) (l : Elems) : Prop :=
  ∀ n d acc rest, t.length + 3 ≤ n → d + k ≤ 1000 → readArray n d acc (t ++ (']' :: rest)) = .ok (acc.app l) rest

def ReadsPairs (k : Nat) (t : List Char) (ps : List (List Char × Value)) : Prop :=
  ∀ n d acc last rest, t.length + 3 ≤ n → d + k ≤ 1000 → readObject n d acc last (t ++ ('}' :: rest)) = .ok (insertAll acc ps) rest

theorem head_val {k : Nat} {t : List Char} {v : Value} (h : ValText k t v) : ∃ c r, t = c :: r ∧ isBlank c = false ∧ c ≠ ']' := by
  have num : ∀ sgn s ds r, Minus sgn s → WholePart ds → ∃ c r', sgn ++ (ds ++ r) = c :: r' ∧ isBlank c = false ∧ c ≠ ']' := by
    intro sgn s ds r hs hd
    cases hs with
    | minus => exact ⟨'-', _, rfl, by decide, by decide⟩
    | none =>
      cases ds with
      | nil => exact absurd rfl (whole_ne hd)
      | cons c ds =>
        have hc := digits_isDigit hd.1 c List.mem_cons_self
        have : ∀ d : Char, isDigit d = false → c ≠ d := by
          rintro d h1 rfl
          rw [h1] at hc
          cases hc
        refine ⟨c, _, rfl, ?_, this ']' (by decide)⟩
        unfold isBlank
        simp [this ' ' (by decide), this '\t' (by decide), this '\r' (by decide), this '\n' (by decide)]
  cases h with
  | null => exact ⟨'n', _, rfl, by decide, by decide⟩
  | yes => exact ⟨'t', _, rfl, by decide, by decide⟩
  | no => exact ⟨'f', _, rfl, by decide, by decide⟩
  | num h =>
    cases h with
    | int hs hd => simpa using num _ _ _ [] hs hd
    | real hs hd => exact num _ _ _ _ hs hd
  | str => exact ⟨'"', _, rfl, by decide, by decide⟩
  | arrNil => exact ⟨'[', _, rfl, by decide, by decide⟩
  | arr => exact ⟨'[', _, rfl, by decide, by decide⟩
  | objNil => exact ⟨'{', _, rfl, by decide, by decide⟩
  | obj => exact ⟨'{', _, rfl, by decide, by decide⟩

theorem head_elems {k : Nat} {t : List Char} {l : Elems} (h : ElemsText k t l) (x : List Char) :
    ∃ c r, (t ++ x).dropWhile isBlank = c :: r ∧ c ≠ ']' := by
  cases h with
  | one h1 h h2 =>
    obtain ⟨c, r, rfl, hb, hc⟩ := head_val h
    rw [List.append_assoc, drop_gap h1]
    exact ⟨c, _, by simp only [List.cons_append, List.dropWhile_cons, hb]; rfl, hc⟩
  | more h1 h h2 hr =>
    obtain ⟨c, r, rfl, hb, hc⟩ := head_val h
    rw [List.append_assoc, drop_gap h1]
    exact ⟨c, _, by simp only [List.cons_append, List.dropWhile_cons, hb]; rfl, hc⟩

theorem token_quote {k key : List Char} (h : StrText k key) (s : List Char) : readToken ('"' :: (k ++ ('"' :: s))) = (.str k, s) := by
  rw [readToken_at (by decide)]
  unfold tokenFrom
  rw [if_neg (by decide), if_neg (by decide), if_neg (by decide), if_neg (by decide), if_pos rfl, readString_text h]

theorem reads_token {k : Nat} {t : List Char} {v : Value} {tok : Token} (hk : 1 ≤ k) (hc : tok ≠ .comment)
    (ht : ∀ rest, Stop rest → readToken (t ++ rest) = (tok, rest))
    (hv : ∀ n d s rest, d < stackLimit → skipComments n s = some (tok, rest) → readValue (n + 1) d s = .ok v rest) : ReadsVal k t v := by
  refine fun n d w rest hn hd hw hr => ?_
  obtain ⟨m, rfl⟩ : ∃ m, n = m + 1 := ⟨n - 1, by omega⟩
  exact hv m d _ rest (by simp only [stackLimit]; omega) (skip_token (by omega) (by rw [readToken_gap hw, ht rest hr]) hc)

mutual
theorem reads_val : ∀ {k : Nat} {t : List Char} {v : Value}, ValText k t v → ReadsVal k t v
  | _, _, _, .null => reads_token (tok := .null) (by omega) (by simp) (fun _ _ => rfl) fun n d s rest hd hs => by
      rw [readValue, if_neg (by omega), hs]
  | _, _, _, .yes => reads_token (tok := .yes) (by omega) (by simp) (fun _ _ => rfl) fun n d s rest hd hs => by
      rw [readValue, if_neg (by omega), hs]
  | _, _, _, .no => reads_token (tok := .no) (by omega) (by simp) (fun _ _ => rfl) fun n d s rest hd hs => by
      rw [readValue, if_neg (by omega), hs]
  | _, t, _, .num h => reads_token (tok := .num t) (by omega) (by simp) (fun _ hr => readToken_num h hr) fun n d s rest hd hs => by
      rw [readValue, if_neg (by omega), hs]
      dsimp only
      rw [decodeNumber_text h]
  | _, _, _, .str (t := t) h => reads_token (tok := .str t) (by omega) (by simp)
      (fun rest _ => by
        rw [List.cons_append, List.append_assoc]
        exact token_quote h rest)
      fun n d s rest hd hs => by
        rw [readValue, if_neg (by omega), hs]
        dsimp only
        rw [decodeString_text h]
  | _, _, _, .arrNil hg => by
    refine fun n d w rest hn hd hw hr => ?_
    simp only [List.length_cons, List.length_append, List.length_nil] at hn
    obtain ⟨m, rfl⟩ : ∃ m, n = m + 1 := ⟨n - 1, by omega⟩
    rw [readValue, if_neg (by simp only [stackLimit]; omega), List.cons_append, List.append_assoc,
      skip_token (t := .arrBegin) (by omega) (by rw [readToken_gap hw]; rfl) (by simp)]
    dsimp only
    rw [drop_gap hg]
    rfl
  | _, _, _, .arr (t := t) h => by
    have hN := reads_elems h
    refine fun n d w rest hn hd hw hr => ?_
    simp only [List.length_cons, List.length_append, List.length_nil] at hn
    obtain ⟨m, rfl⟩ : ∃ m, n = m + 1 := ⟨n - 1, by omega⟩
    rw [readValue, if_neg (by simp only [stackLimit]; omega), List.cons_append, List.append_assoc,
      skip_token (t := .arrBegin) (by omega) (by rw [readToken_gap hw]; rfl) (by simp)]
    dsimp only
    have hgo := hN m (d + 1) .nil rest (by omega) (by omega)
    obtain ⟨c, r, hc, hne⟩ := head_elems h ([']'] ++ rest)
    rw [← readArray_drop] at hgo
    rw [List.singleton_append] at hc ⊢
    rw [hc] at hgo ⊢
    split
    · rename_i heq
      simp only [List.cons.injEq] at heq
      exact absurd heq.1 hne
    · rw [hgo]
      rfl
  | _, _, _, .objNil hg => by
    refine fun n d w rest hn hd hw hr => ?_
    simp only [List.length_cons, List.length_append, List.length_nil] at hn
    obtain ⟨m, rfl⟩ : ∃ m, n = m + 2 := ⟨n - 2, by omega⟩
    rw [readValue, if_neg (by simp only [stackLimit]; omega), List.cons_append, List.append_assoc,
      skip_token (t := .objBegin) (by omega) (by rw [readToken_gap hw]; rfl) (by simp)]
    dsimp only
    rw [readObject, skip_token (t := .objEnd) (by omega) (by rw [readToken_gap hg]; rfl) (by simp)]
    rfl
  | _, _, _, .obj (t := t) h hl => by
    have hN := reads_pairs h
    refine fun n d w rest hn hd hw hr => ?_
    simp only [List.length_cons, List.length_append, List.length_nil] at hn
    obtain ⟨m, rfl⟩ : ∃ m, n = m + 1 := ⟨n - 1, by omega⟩
    rw [readValue, if_neg (by simp only [stackLimit]; omega), List.cons_append, List.append_assoc,
      skip_token (t := .objBegin) (by omega) (by rw [readToken_gap hw]; rfl) (by simp)]
    dsimp only
    rw [List.singleton_append, hN m (d + 1) .nil [] rest (by omega) (by omega), insertAll_object hl]

theorem reads_elems : ∀ {k : Nat} {t : List Char} {l : Elems}, ElemsText k t l → ReadsElems k t l
  | _, _, _, .one h1 h h2 => by
    have hN := reads_val h
    refine fun n d acc rest hn hd => ?_
    simp only [List.length_cons, List.length_append, List.length_nil] at hn
    obtain ⟨m, rfl⟩ : ∃ m, n = m + 1 := ⟨n - 1, by omega⟩
    rw [readArray, List.append_assoc, List.append_assoc,
      hN m d _ _ (by omega) hd h1 (stop_gap h2 (stop_cons (.inr (.inl rfl)) rest))]
    dsimp only
    rw [skip_token (t := .arrEnd) (by omega) (by rw [readToken_gap h2]; rfl) (by simp)]
    dsimp only
    rw [← app_snoc, app_nil]
  | _, _, _, .more h1 h h2 hr => by
    have hN := reads_val h
    have hM := reads_elems hr
    refine fun n d acc rest hn hd => ?_
    simp only [List.length_cons, List.length_append, List.length_nil] at hn
    obtain ⟨m, rfl⟩ : ∃ m, n = m + 1 := ⟨n - 1, by omega⟩
    rw [readArray, List.append_assoc, List.append_assoc, List.append_assoc, List.cons_append,
      hN m d _ _ (by omega) hd h1 (stop_gap h2 (stop_cons (.inl rfl) _))]
    dsimp only
    rw [skip_token (t := .comma) (by omega) (by rw [readToken_gap h2]; rfl) (by simp)]
    dsimp only
    rw [hM m d _ rest (by omega) hd, app_snoc]

theorem reads_pairs : ∀ {k : Nat} {t : List Char} {ps : List (List Char × Value)}, PairsText k t ps → ReadsPairs k t ps
  | _, _, _, .one h1 hk h2 h3 h h4 => by
    have hN := reads_val h
    refine fun n d acc last rest hn hd => ?_
    simp only [List.length_cons, List.length_append, List.length_nil] at hn
    obtain ⟨m, rfl⟩ : ∃ m, n = m + 1 := ⟨n - 1, by omega⟩
    simp only [List.append_assoc, List.cons_append]
    rw [readObject, skip_token (by omega) (by rw [readToken_gap h1, token_quote hk]) (by simp)]
    dsimp only
    rw [decodeString_text hk]
    dsimp only
    rw [readToken_gap h2, show ∀ s, readToken (':' :: s) = (.colon, s) from fun _ => rfl]
    dsimp only
    rw [hN m d _ _ (by omega) hd h3 (stop_gap h4 (stop_cons (.inr (.inr rfl)) rest))]
    dsimp only
    rw [readToken_gap h4, show ∀ s, readToken ('}' :: s) = (.objEnd, s) from fun _ => rfl]
    rfl
  | _, _, _, .more h1 hk h2 h3 h h4 hr => by
    have hN := reads_val h
    have hM := reads_pairs hr
    refine fun n d acc last rest hn hd => ?_
    simp only [List.length_cons, List.length_append, List.length_nil] at hn
    obtain ⟨m, rfl⟩ : ∃ m, n = m + 1 := ⟨n - 1, by omega⟩
    simp only [List.append_assoc, List.cons_append]
    rw [readObject, skip_token (by omega) (by rw [readToken_gap h1, token_quote hk]) (by simp)]
    dsimp only
    rw [decodeString_text hk]
    dsimp only
    rw [readToken_gap h2, show ∀ s, readToken (':' :: s) = (.colon, s) from fun _ => rfl]
    dsimp only
    rw [hN m d _ _ (by omega) hd h3 (stop_gap h4 (stop_cons (.inl rfl) _))]
    dsimp only
    rw [readToken_gap h4, show ∀ s, readToken (',' :: s) = (.comma, s) from fun _ => rfl]
    dsimp only
    rw [hM m d _ _ rest (by omega) hd]
    rfl
end

/-- The text of a value, nested at most 1000 deep, is parsed to the value, whatever comes after it. -/
theorem parse_value {n : Nat} {text junk w t rest : List Char} {v : Value} (hw : Gap w) (ht : ValText 1000 t v) (hr : Stop rest)
    (e : text ++ junk = w ++ (t ++ rest)) (hn : 2 * (text ++ junk).length + 2 ≤ n) : parse n text junk = some (.value v) := by
  have hv := reads_val ht n 0 w rest (by rw [e] at hn; simp only [List.length_append] at hn; omega) (by omega) hw hr
  obtain ⟨r, hp⟩ := parse_ends hn
  unfold parse at hp ⊢
  rw [e, hv] at hp ⊢
  dsimp only at hp ⊢
  cases hk : skipComments n rest with
  | none =>
    rw [hk] at hp
    cases hp
  | some => rfl

theorem parse_text {n : Nat} {text junk : List Char} {v : Value} (h : JsonText 1000 text v) (hj : Stop junk)
    (hn : 2 * (text ++ junk).length + 2 ≤ n) : parse n text junk = some (.value v) := by
  obtain ⟨w1, t, w2, h1, ht, h2, rfl⟩ := h
  exact parse_value h1 ht (stop_gap h2 hj) (by simp) hn

mutual
/-- A deeper nesting is allowed as well. -/
theorem val_more : ∀ {n k : Nat} {t : List Char} {v : Value}, ValText n t v → n ≤ k → ValText k t v
  | _, 0, _, _, h, hk => by cases h <;> omega
  | _, k + 1, _, _, .null, _ => .null
  | _, k + 1, _, _, .yes, _ => .yes
  | _, k + 1, _, _, .no, _ => .no
  | _, k + 1, _, _, .num h, _ => .num h
  | _, k + 1, _, _, .str h, _ => .str h
  | _, k + 1, _, _, .arrNil h, _ => .arrNil h
  | _, k + 1, _, _, .arr h, hk => .arr (elems_more h (by omega))
  | _, k + 1, _, _, .objNil h, _ => .objNil h
  | _, k + 1, _, _, .obj h hl, hk => .obj (pairs_more h (by omega)) hl

theorem elems_more : ∀ {n k : Nat} {t : List Char} {l : Elems}, ElemsText n t l → n ≤ k → ElemsText k t l
  | _, _, _, _, .one h1 h h2, hk => .one h1 (val_more h hk) h2
  | _, _, _, _, .more h1 h h2 hr, hk => .more h1 (val_more h hk) h2 (elems_more hr hk)

theorem pairs_more : ∀ {n k : Nat} {t : List Char} {ps : List (List Char × Value)}, PairsText n t ps → n ≤ k → PairsText k t ps
  | _, _, _, _, .one h1 hk' h2 h3 h h4, hk => .one h1 hk' h2 h3 (val_more h hk) h4
  | _, _, _, _, .more h1 hk' h2 h3 h h4 hr, hk => .more h1 hk' h2 h3 (val_more h hk) h4 (pairs_more hr hk)
end

end Sol.Json
