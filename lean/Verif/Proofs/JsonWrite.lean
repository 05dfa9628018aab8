import Verif.Proofs.JsonGrammar
/-!
# The text that the JSON writer prints
-/

namespace Sol.Json
open Sol.FloatText Sol.Text Sol.TextWriters Sol.Spec Sol.Props
open Sol.NumericParser hiding isDigit
open Sol.Spec (decText digits_decText decVal_decText)

/-! ### Numbers -/

theorem whole_take {m k : Nat} (h1 : 10 ^ 5 ≤ m) (h2 : m < 10 ^ 6) : WholePart ((decText m).take (k + 1)) := by
  refine ⟨Digits.take (digits_decText m) _, .inr ?_⟩
  have hl := length_six h1 h2
  cases hd : decText m with
  | nil =>
    rw [hd] at hl
    cases hl
  | cons c r =>
    refine ⟨c, r.take k, rfl, ?_⟩
    rintro rfl
    have hv := decVal_decText m
    have hr : Digits r := fun c hc => digits_decText m c (by rw [hd]; exact List.mem_cons_of_mem _ hc)
    rw [hd, decVal_cons] at hv
    rw [hd, List.length_cons] at hl
    have := decVal_lt r hr
    rw [show r.length = 5 by omega] at this
    simp at hv
    omega

theorem fracOf_ne (fs : List Char) : fracOf fs ≠ ['.'] := by
  unfold fracOf
  split
  · simp
  · rename_i h
    simpa using h

theorem minus_signOf (neg : Bool) : Minus (signOf neg) (if neg then -1 else 1) := by
  cases neg
  · exact .none
  · exact .minus

/-- The text of a number has the form of a JSON number. -/
theorem gText_json {neg : Bool} {m : Nat} {x : Int} (h1 : 10 ^ 5 ≤ m) (h2 : m < 10 ^ 6) :
    ∃ ds ft fs et sx es, gText (.num neg m x) = signOf neg ++ (ds ++ (ft ++ et)) ∧ WholePart ds ∧ ds.length ≤ 6 ∧ FracText ft fs ∧
      ft ≠ ['.'] ∧ ExpText et sx es := by
  have hl := length_six h1 h2
  have ht : ∀ k, ((decText m).take k).length ≤ 6 := fun k => by rw [List.length_take, hl]; omega
  by_cases c1 : x < -4 ∨ 6 ≤ x
  · have hsx : ∃ sx, SignText [if x < 0 then '-' else '+'] sx := by
      split
      · exact ⟨-1, .minus⟩
      · exact ⟨1, .plus⟩
    obtain ⟨sx, hs⟩ := hsx
    obtain ⟨p1, _, p3⟩ := pad2_spec x.natAbs
    refine ⟨(decText m).take 1, fracOf ((decText m).drop 1), _, 'e' :: (if x < 0 then '-' else '+') :: pad2 (decText x.natAbs), sx, _,
      ?_, whole_take h1 h2, ht _, fracText_fracOf (Digits.drop (digits_decText m) 1), fracOf_ne _,
      ExpText.some 'e' (.inl rfl) [if x < 0 then '-' else '+'] sx hs _ p1 p3⟩
    simp [gText, c1]
  · by_cases c2 : 0 ≤ x
    · refine ⟨(decText m).take (x.toNat + 1), fracOf ((decText m).drop (x.toNat + 1)), _, [], 1, [],
        ?_, whole_take h1 h2, ht _, fracText_fracOf (Digits.drop (digits_decText m) _), fracOf_ne _, .none⟩
      simp only [gText, if_neg c1, if_pos c2, List.append_nil]
    · refine ⟨['0'], fracOf (List.replicate ((-x).toNat - 1) '0' ++ decText m), _, [], 1, [],
        ?_, ⟨by decide, .inl rfl⟩, by decide, fracText_fracOf (Digits.append (digits_replicate _) (digits_decText m)), fracOf_ne _, .none⟩
      simp only [gText, if_neg c1, if_neg c2, List.append_nil, List.cons_append, List.nil_append]

/-- A printed number is a JSON number. -/
theorem num_put {q : ℚ} (h : Single q) : ∃ v, NumText (put (.fin q)) v ∧ Rounded q v := by
  have hp := six_printable h
  have hsix := six_digits q
  rcases six_zero_or_num q with hz | ⟨neg, m, x, e⟩
  · have : put (.fin q) = [] ++ ['0'] := by
      show gText (six q) = _
      rw [hz]
      rfl
    rw [this]
    rw [hz] at hsix
    exact ⟨.int (1 * (decVal ['0'] : Int)), .int .none ⟨by decide, .inl rfl⟩ (by decide) (by decide), _, hsix, .inl ⟨_, by simp [gRat, decVal, Nat.ofDigitChars], rfl⟩⟩
  · have hput : put (.fin q) = gText (.num neg m x) := by
      show gText (six q) = _
      rw [e]
    have hscan := scanDec_put h (rest := []) (by simp [Stop])
    rw [List.append_nil] at hscan
    rw [e] at hp
    obtain ⟨ds, ft, fs, et, sx, es, g1, g2, g3, g4, g5, g6⟩ := gText_json (neg := neg) (x := x) hp.1 hp.2.1
    have hval := scanDec_whole (minus_signOf neg) g2 g4 g6
    rw [hput, g1, hval, Option.some.injEq, Prod.mk.injEq] at hscan
    have hval2 := hscan.1
    rw [hput, g1]
    by_cases he : ft ++ et = []
    · rw [List.append_eq_nil_iff] at he
      obtain ⟨rfl, rfl⟩ := he
      have hes : es = [] := by cases g6; rfl
      have hfs : fs = [] := by cases g4; rfl
      subst hes hfs
      have hlt := decVal_lt ds g2.1
      have : decVal ds < 10 ^ 6 := lt_of_lt_of_le hlt (Nat.pow_le_pow_right (by decide) g3)
      rw [List.append_nil, List.append_nil]
      refine ⟨_, .int (minus_signOf neg) g2 ?_ ?_, _, hsix, .inl ⟨_, ?_, rfl⟩⟩
      · cases neg <;> simp <;> omega
      · cases neg <;> simp <;> omega
      · rw [← hval2]
        have : decVal [] = 0 := rfl
        rw [this]
        simp
    · obtain ⟨r, hr, _⟩ := six_round h
      exact ⟨_, .real (minus_signOf neg) g2 g4 g5 g6 (.inl he) (by rw [hval2]; exact hr), _, hsix, .inr ⟨r, hr, rfl⟩⟩

theorem decText_first {n : Nat} (h : n ≠ 0) : ∃ c r, decText n = c :: r ∧ c ≠ '0' := by
  induction n using Nat.strongRecOn with
  | ind n ih =>
    unfold decText
    by_cases hn : n < 10
    · rw [Nat.toDigits_of_lt_base hn]
      refine ⟨_, [], rfl, ?_⟩
      interval_cases n <;> first | exact absurd rfl h | decide
    · obtain ⟨c, r, e, hc⟩ := ih (n / 10) (by omega) (by omega)
      unfold decText at e
      rw [Nat.toDigits_of_base_le (by decide) (by omega), e]
      exact ⟨c, _, rfl, hc⟩

theorem num_int {n : Int} (h1 : -2 ^ 63 ≤ n) (h2 : n ≤ 2 ^ 64 - 1) : NumText (intText n) (.int n) := by
  have hw : WholePart (decText n.natAbs) := by
    refine ⟨digits_decText _, ?_⟩
    by_cases h0 : n.natAbs = 0
    · left
      rw [h0]
      rfl
    · right
      exact decText_first h0
  have hd := decVal_decText n.natAbs
  unfold intText
  by_cases hn : n < 0
  · rw [if_pos hn]
    have := NumText.int .minus hw (by rw [hd]; omega) (by rw [hd]; omega)
    rw [hd] at this
    rw [show (-1 : Int) * (n.natAbs : Int) = n by omega] at this
    exact this
  · rw [if_neg hn]
    have := NumText.int .none hw (by rw [hd]; omega) (by rw [hd]; omega)
    rw [hd] at this
    rw [show (1 : Int) * (n.natAbs : Int) = n by omega] at this
    exact this

/-! ### Strings -/

theorem control_hex : ∀ n < 32, Hex4 ['0', '0', hexDigit (n / 16), hexDigit (n % 16)] n ∧ encode n = [Char.ofNat n] ∧
    '\n' ∉ [hexDigit (n / 16), hexDigit (n % 16)] := by
  unfold Hex4 encode
  decide +kernel

theorem escape_text (c : Char) {t s : List Char} (h : StrText t s) (hn : '\n' ∉ t) :
    StrText (escape c ++ t) (c :: s) ∧ '\n' ∉ escape c ++ t := by
  have plain : ∀ e : Char, e ≠ '\n' → '\n' ∉ ['\\', e] ++ t := by
    intro e he hc
    simp only [List.cons_append, List.nil_append, List.mem_cons] at hc
    rcases hc with hc | hc | hc
    · exact absurd hc (by decide)
    · exact he hc.symm
    · exact hn hc
  unfold escape
  by_cases h1 : c = '"'
  · subst h1
    exact ⟨.short .quote h, plain _ (by decide)⟩
  rw [if_neg h1]
  by_cases h2 : c = '\\'
  · subst h2
    exact ⟨.short .backslash h, plain _ (by decide)⟩
  rw [if_neg h2]
  by_cases h3 : c = '\x08'
  · subst h3
    exact ⟨.short .b h, plain _ (by decide)⟩
  rw [if_neg h3]
  by_cases h4 : c = '\x0c'
  · subst h4
    exact ⟨.short .f h, plain _ (by decide)⟩
  rw [if_neg h4]
  by_cases h5 : c = '\n'
  · subst h5
    exact ⟨.short .n h, plain _ (by decide)⟩
  rw [if_neg h5]
  by_cases h6 : c = '\r'
  · subst h6
    exact ⟨.short .r h, plain _ (by decide)⟩
  rw [if_neg h6]
  by_cases h7 : c = '\t'
  · subst h7
    exact ⟨.short .t h, plain _ (by decide)⟩
  rw [if_neg h7]
  by_cases h8 : isControl c = true
  · rw [if_pos h8]
    have hc : c.toNat < 32 := by
      simp only [isControl, decide_eq_true_eq] at h8
      omega
    obtain ⟨g1, g2, g3⟩ := control_hex c.toNat hc
    rw [Char.ofNat_toNat] at g2
    refine ⟨?_, ?_⟩
    · have := StrText.unicode g1 (.inl (by omega)) h
      rw [g2] at this
      exact this
    · intro hm
      simp only [List.cons_append, List.nil_append, List.mem_cons] at hm g3
      rcases hm with hm | hm | hm | hm | hm | hm | hm
      · exact absurd hm (by decide)
      · exact absurd hm (by decide)
      · exact absurd hm (by decide)
      · exact absurd hm (by decide)
      · exact g3 (.inl hm)
      · exact g3 (.inr (.inl hm))
      · exact hn hm
  · rw [if_neg h8]
    have hc : 32 ≤ c.toNat := by
      simp only [isControl, decide_eq_true_eq] at h8
      omega
    refine ⟨.char hc h1 h2 h, ?_⟩
    intro hm
    rcases List.mem_cons.1 hm with hm | hm
    · exact h5 hm.symm
    · exact hn hm

theorem plain_text {s : List Char} (h : ∀ c ∈ s, (c ≠ '"' && c ≠ '\\' && !isControl c) = true) : StrText s s ∧ '\n' ∉ s := by
  induction s with
  | nil => exact ⟨.nil, by simp⟩
  | cons c s ih =>
    obtain ⟨i1, i2⟩ := ih fun c hc => h c (List.mem_cons_of_mem _ hc)
    have hc := h c List.mem_cons_self
    simp only [Bool.and_eq_true, decide_eq_true_eq, Bool.not_eq_true', isControl, decide_eq_false_iff_not] at hc
    refine ⟨.char (by omega) hc.1.1 hc.1.2 i1, ?_⟩
    intro hm
    rcases List.mem_cons.1 hm with hm | hm
    · rw [← hm] at hc
      exact absurd hc.2 (by decide)
    · exact i2 hm

theorem escaped_text (s : List Char) : StrText (s.flatMap escape) s ∧ '\n' ∉ s.flatMap escape := by
  induction s with
  | nil => exact ⟨.nil, by simp⟩
  | cons c s ih =>
    rw [List.flatMap_cons]
    exact escape_text c ih.1 ih.2

theorem quoted_text (s : List Char) : ∃ t, quoted s = '"' :: (t ++ ['"']) ∧ StrText t s ∧ '\n' ∉ t := by
  unfold quoted
  split
  · rename_i h
    rw [List.all_eq_true] at h
    exact ⟨s, rfl, plain_text h⟩
  · exact ⟨_, rfl, escaped_text s⟩

/-! ### Values -/

mutual
/-- The value that is read after a value was written. -/
def again : Value → Value
  | .null => .null
  | .bool b => .bool b
  | .int n => .int n
  | .real (.fin q) => (decodeNumber (put (.fin q))).getD .null
  | .real _ => .null
  | .str s => .str s
  | .arr l => .arr l
  | .obj l => .obj (againAll l)

def againAll : Members → Members
  | .nil => .nil
  | .cons k v l => .cons k (again v) (againAll l)
end

theorem again_real {q : ℚ} (h : Single q) : NumText (put (.fin q)) (again (.real (.fin q))) ∧ Rounded q (again (.real (.fin q))) ∧
    asString (again (.real (.fin q))) = some (put (.fin q)) := by
  obtain ⟨v, h1, h2⟩ := num_put h
  have hd := decodeNumber_text h1
  have e : again (.real (.fin q)) = v := by
    rw [again, hd]
    rfl
  obtain ⟨u, hu, hs⟩ := decodeNumber_put h
  rw [hd] at hu
  cases hu
  rw [e]
  exact ⟨h1, h2, hs⟩

mutual
theorem kept_again : ∀ {n : Nat} {v : Value}, Writable n v → Kept v (again v)
  | _, _, .null => .null
  | _, _, .bool => .bool
  | _, _, .int _ _ => .int
  | _, _, .real h => .real (again_real h).2.1
  | _, _, .nan => .nan
  | _, _, .str => .str
  | _, _, .obj h _ => .obj (kept_againAll h)

theorem kept_againAll : ∀ {n : Nat} {l : Members}, WritableAll n l → KeptAll l (againAll l)
  | _, _, .nil => .nil
  | _, _, .cons _ h hl => .cons (kept_again h) (kept_againAll hl)
end

mutual
theorem same_of_kept : ∀ {v v' : Value}, Kept v v' → NoReals v → v' = v
  | _, _, .null, _ => rfl
  | _, _, .bool, _ => rfl
  | _, _, .int, _ => rfl
  | _, _, .real _, h => absurd h (by simp [NoReals])
  | _, _, .nan, h => absurd h (by simp [NoReals])
  | _, _, .str, _ => rfl
  | _, _, .obj hl, h => by rw [same_of_keptAll hl (by simpa [NoReals] using h)]

theorem same_of_keptAll : ∀ {l l' : Members}, KeptAll l l' → NoRealsIn l → l' = l
  | _, _, .nil, _ => rfl
  | _, _, .cons h hl, hn => by
    rw [NoRealsIn] at hn
    rw [same_of_kept h hn.1, same_of_keptAll hl hn.2]
end

theorem names_again : ∀ l : Members, (entries (againAll l)).map (fun p => p.1) = (entries l).map (fun p => p.1)
  | .nil => rfl
  | .cons k v l => by
    rw [againAll, entries, entries, List.map_cons, List.map_cons, names_again l]

theorem ordered_again {l : Members} (h : (entries l).Pairwise (fun a b => a.1 < b.1)) :
    (entries (againAll l)).Pairwise (fun a b => a.1 < b.1) := by
  have := (List.pairwise_map (f := fun p : List Char × Value => p.1) (R := fun a b => a < b)).2 h
  rw [← names_again] at this
  exact List.pairwise_map.1 this

theorem lookup_reverse {ps : List (List Char × Value)} (h : ps.Pairwise (fun a b => a.1 < b.1)) (k : List Char) :
    ps.lookup k = ps.reverse.lookup k := by
  induction ps with
  | nil => rfl
  | cons p ps ih =>
    obtain ⟨a, v⟩ := p
    rw [List.pairwise_cons] at h
    rw [List.reverse_cons, List.lookup_append, ← ih h.2]
    by_cases hk : k = a
    · subst hk
      have : ps.lookup k = none := by
        rw [List.lookup_eq_none_iff]
        intro p hp
        have := h.1 p hp
        rw [bne_iff_ne]
        intro e
        rw [← e] at this
        exact key_irrefl _ this
      rw [this]
      simp
    · have : (k == a) = false := by simpa using hk
      simp only [List.lookup_cons, this, List.lookup_nil]
      simp

theorem object_of {l : Members} (h : (entries l).Pairwise (fun a b => a.1 < b.1)) : Object (entries l) l := ⟨h, lookup_reverse h⟩

/-- What is left of the text if some newlines are left out. -/
def Keeps (f : Char → Bool) : Prop := ∀ c, c ≠ '\n' → f c = true

theorem filter_plain {f : Char → Bool} (hf : Keeps f) {t : List Char} (h : '\n' ∉ t) : t.filter f = t := by
  rw [List.filter_eq_self]
  intro c hc
  refine hf c ?_
  rintro rfl
  exact h hc

theorem gap_filter {f : Char → Bool} {w : List Char} (h : Gap w) : Gap (w.filter f) := fun c hc => h c (List.mem_of_mem_filter hc)

theorem gap_append {a b : List Char} (ha : Gap a) (hb : Gap b) : Gap (a ++ b) := by
  intro c hc
  rcases List.mem_append.1 hc with h | h
  · exact ha c h
  · exact hb c h

theorem gap_cons {c : Char} {w : List Char} (hc : c = ' ' ∨ c = '\t' ∨ c = '\n' ∨ c = '\r') (h : Gap w) : Gap (c :: w) := by
  intro d hd
  rcases List.mem_cons.1 hd with rfl | hd
  · exact hc
  · exact h d hd

theorem noNewline_num {t : List Char} {v : Value} (h : NumText t v) : '\n' ∉ t := by
  have digits : ∀ ds : List Char, Digits ds → '\n' ∉ ds := by
    intro ds hd hc
    have := hd _ hc
    revert this
    decide
  have sign : ∀ sgn s, SignText sgn s → '\n' ∉ sgn := by
    intro sgn s h
    cases h <;> decide
  cases h with
  | int hs hd =>
    rw [List.mem_append, not_or]
    exact ⟨sign _ _ (minus_sign hs), digits _ hd.1⟩
  | real hs hd hf _ he =>
    simp only [List.mem_append, not_or]
    refine ⟨sign _ _ (minus_sign hs), digits _ hd.1, ?_, ?_⟩
    · cases hf with
      | none => simp
      | some _ h =>
        rw [List.mem_cons, not_or]
        exact ⟨by decide, digits _ h⟩
    · cases he with
      | none => simp
      | some m hm sgn s hs es h =>
        rw [List.mem_cons, List.mem_append, not_or, not_or]
        exact ⟨by rcases hm with rfl | rfl <;> decide, sign _ _ hs, digits _ h⟩

mutual
/-- The text of a value is JSON text, also without (some of) its newlines. -/
theorem write_text : ∀ {n : Nat} {v : Value}, Writable n v → ∀ (f : Char → Bool), Keeps f → ∀ (here : Bool) (ind : List Char), Gap ind →
    ∃ w t, (writeValue here ind v).filter f = w ++ t ∧ Gap w ∧ ValText n t (again v)
  | _, _, .null, f, hf, _, _, _ => ⟨[], "null".toList, filter_plain hf (t := "null".toList) (by decide), by simp [Gap], .null⟩
  | _, _, .bool (b := true), f, hf, _, _, _ => ⟨[], "true".toList, filter_plain hf (t := "true".toList) (by decide), by simp [Gap], .yes⟩
  | _, _, .bool (b := false), f, hf, _, _, _ => ⟨[], "false".toList, filter_plain hf (t := "false".toList) (by decide), by simp [Gap], .no⟩
  | _, _, .int h1 h2, f, hf, _, _, _ => ⟨[], _, filter_plain hf (noNewline_num (num_int h1 h2)), by simp [Gap], .num (num_int h1 h2)⟩
  | _, _, .real h, f, hf, _, _, _ =>
    ⟨[], _, filter_plain hf (noNewline_num (again_real h).1), by simp [Gap], .num (again_real h).1⟩
  | _, _, .nan, f, hf, _, _, _ => ⟨[], "null".toList, filter_plain hf (t := "null".toList) (by decide), by simp [Gap], .null⟩
  | _, _, .str (s := s), f, hf, _, _, _ => by
    obtain ⟨t, h1, h2, h3⟩ := quoted_text s
    refine ⟨[], '"' :: (t ++ ['"']), ?_, by simp [Gap], .str h2⟩
    rw [writeValue, h1, List.nil_append]
    exact filter_plain hf (by simp [h3])
  | _, _, .obj (l := .nil) _ _, f, hf, _, _, _ => ⟨[], "{}".toList, filter_plain hf (t := "{}".toList) (by decide), by simp [Gap], .objNil (w := []) (by simp [Gap])⟩
  | _, _, .obj (l := .cons k v l) h ho, f, hf, here, ind, hi => by
    have hp := write_pairs h f hf ('\t' :: ind) (gap_cons (.inr (.inl rfl)) hi) (by simp) (('\n' :: ind).filter f)
      (gap_filter (gap_cons (.inr (.inr (.inl rfl))) hi))
    refine ⟨(if here then [] else '\n' :: ind).filter f, _, ?_, ?_, .obj hp (object_of (ordered_again ho))⟩
    · rw [writeValue, List.filter_append]
      congr 1
      rw [List.filter_cons, if_pos (hf _ (by decide)), List.filter_append, ← List.cons_append (a := '\n'), List.filter_append (l₁ := '\n' :: ind),
        filter_plain hf (t := ['}']) (by decide), List.append_assoc]
    · refine gap_filter ?_
      split
      · simp [Gap]
      · exact gap_cons (.inr (.inr (.inl rfl))) hi

theorem write_pairs : ∀ {n : Nat} {l : Members}, WritableAll n l → ∀ (f : Char → Bool), Keeps f → ∀ (ind : List Char), Gap ind →
    l ≠ .nil → ∀ g, Gap g → PairsText n ((writeMembers ind l).filter f ++ g) (entries (againAll l))
  | _, _, .nil, _, _, _, _, hne, _, _ => absurd rfl hne
  | _, _, .cons (k := k) (v := v) (l := l) hk h hl, f, hf, ind, hi, _, g, hg => by
    obtain ⟨kt, q1, q2, q3⟩ := quoted_text k
    obtain ⟨w, t, e, hw, ht⟩ := write_text h f hf false ind hi
    have hkey : k.takeWhile (fun c => c != '\x00') = k := by
      have := Sol.PreProcess.takeWhile_app (p := fun c => c != '\x00') (a := k) (b := []) (fun c hc => by
        simp only [bne_iff_ne, ne_eq]
        rintro rfl
        exact hk hc) (by simp)
      rwa [List.append_nil] at this
    have hqf : (quoted k).filter f = quoted k := filter_plain hf (by rw [q1]; simp [q3])
    have h1 : Gap (('\n' :: ind).filter f) := gap_filter (gap_cons (.inr (.inr (.inl rfl))) hi)
    have h2 : Gap ([' '] : List Char) := by simp [Gap]
    have h3 : Gap (' ' :: w) := gap_cons (.inl rfl) hw
    have hs : f ' ' = true := hf _ (by decide)
    have hc : f ':' = true := hf _ (by decide)
    have hcomma : f ',' = true := hf _ (by decide)
    cases l with
    | nil =>
      have := PairsText.one h1 q2 h2 h3 ht hg
      rw [writeMembers, hkey]
      simp only [againAll, entries]
      refine cast (congrArg (fun t => PairsText _ t _) ?_) this
      by_cases hnl : f '\n' = true <;>
        simp only [List.filter_append, List.filter_cons, hnl, hs, hc, hcomma, if_true, if_false, Bool.false_eq_true, hqf, e] <;> simp [q1]
    | cons k' v' l' =>
      have hr := write_pairs hl f hf ind hi (by simp) g hg
      have := PairsText.more h1 q2 h2 h3 ht (show Gap [] by simp [Gap]) hr
      rw [writeMembers.eq_def]
      dsimp only
      rw [hkey]
      simp only [againAll, entries] at this ⊢
      refine cast (congrArg (fun t => PairsText _ t _) ?_) this
      by_cases hnl : f '\n' = true <;>
        simp only [List.filter_append, List.filter_cons, hnl, hs, hc, hcomma, if_true, if_false, Bool.false_eq_true, hqf, e] <;> simp [q1]
end

end Sol.Json
