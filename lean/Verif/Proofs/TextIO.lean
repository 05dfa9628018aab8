import Verif.Model.TextReaders
import Verif.Model.TextWriters
import Verif.Proofs.NumericParserInv
import Verif.Proofs.GText
import Verif.Proofs.ReadLine
/-!
# Lemmas about the svm and csv readers and writers
-/

namespace Sol.TextReaders
open Sol.Spec Sol.NumericParser Sol.TextWriters

/-! ### svm -/

theorem svmFeats_end (r : Ptr) (idx : List UInt32) (vals : List Dec) :
    svmFeats ('\x00' :: r) idx vals = .ok (some (idx, vals)) := by
  rw [svmFeats, if_pos rfl]

theorem svmFeats_step {c : Char} {iter e' e'' : Ptr} {i : UInt32} {d : Dec} (idx : List UInt32) (vals : List Dec)
    (hc : c ≠ '\x00') (hu : parseUint (c :: iter) = .ok (i, ':' :: e'))
    (hl : (':' :: e').length ≠ (c :: iter).length) (hf : parseFloat e' = .ok (d, e''))
    (hl2 : e''.length ≠ e'.length) :
    svmFeats (c :: iter) idx vals = svmFeats e'' (idx ++ [i]) (vals ++ [d]) := by
  conv_lhs => rw [svmFeats]
  rw [if_neg hc]
  split
  · rename_i h; rw [hu] at h; cases h
  · rename_i h; rw [hu] at h
    simp only [Res.ok.injEq, Prod.mk.injEq] at h
    obtain ⟨rfl, rfl⟩ := h
    rw [if_neg hl]
    dsimp only
    rw [if_neg (by simp)]
    split
    · rename_i h; rw [hf] at h; cases h
    · rename_i h; rw [hf] at h
      simp only [Res.ok.injEq, Prod.mk.injEq] at h
      obtain ⟨rfl, rfl⟩ := h
      rw [if_neg hl2]

/-- The rest of a written line after the label, in the read buffer. -/
def svmTail (feats : List (UInt32 × GVal)) : List Char := feats.flatMap svmFeat ++ ['\n', '\x00']

theorem svmTail_ends (feats : List (UInt32 × GVal)) : EndsNumber (svmTail feats) := by
  cases feats with
  | nil => exact ⟨'\n', ['\x00'], rfl, by decide⟩
  | cons f fs => exact ⟨' ', _, rfl, by decide⟩

theorem svmTail_zero (feats : List (UInt32 × GVal)) : '\x00' ∈ svmTail feats := by simp [svmTail]

theorem indexText_small {i : UInt32} (h : i.toNat < 2 ^ 31) : indexText i = decText i.toNat := by
  have h1 : (Int32.ofBitVec i.toBitVec).toInt = i.toNat := by
    rw [Int32.toInt, Int32.toBitVec_ofBitVec, BitVec.toInt_eq_toNat_of_lt]
    · rfl
    · have : i.toBitVec.toNat = i.toNat := rfl
      rw [this]; omega
  unfold indexText intText
  rw [h1, if_neg (by omega)]
  rfl

theorem indexText_large {i : UInt32} (h : 2 ^ 31 ≤ i.toNat) : ∃ t, indexText i = '-' :: t := by
  have h1 : (Int32.ofBitVec i.toBitVec).toInt < 0 := by
    rw [Int32.toInt, Int32.toBitVec_ofBitVec, BitVec.toInt_eq_toNat_cond]
    have : i.toBitVec.toNat = i.toNat := rfl
    have hlt := i.toNat_lt
    rw [this, if_neg (by omega)]
    omega
  unfold indexText intText
  rw [if_pos h1]
  exact ⟨_, rfl⟩

/-- The features that can be written and read back: index below 2^31, value printed as a number. -/
def Writable (f : UInt32 × GVal) : Prop := f.1.toNat < 2 ^ 31 ∧ Printable f.2

theorem dropWhile_decText (n : Nat) (r : List Char) : (decText n ++ r).dropWhile blank = decText n ++ r := by
  obtain ⟨c, t, h, _, _, _, hb⟩ := bodyStart_digits (r := r) (digits_decText n) Nat.toDigits_ne_nil
  rw [h, List.dropWhile_cons, if_neg (by simp [hb])]

/-- Reading back written features, whatever follows them. -/
theorem svmFeats_prefix (feats : List (UInt32 × GVal)) (hw : ∀ f ∈ feats, Writable f) (k : List Char)
    (hk : EndsNumber k) (hk0 : '\x00' ∈ k) (idx : List UInt32) (vals : List Dec) :
    ∃ ds, svmFeats ((feats.flatMap svmFeat ++ k).dropWhile blank) idx vals =
        svmFeats (k.dropWhile blank) (idx ++ feats.map (·.1)) (vals ++ ds) ∧
      List.Forall₂ (fun f d => Close f.2 d) feats ds := by
  induction feats generalizing idx vals with
  | nil => exact ⟨[], by simp, .nil⟩
  | cons f feats ih =>
    obtain ⟨i, v⟩ := f
    obtain ⟨hi, hv⟩ := hw _ (List.mem_cons_self ..)
    dsimp only at hi hv
    generalize hT : feats.flatMap svmFeat ++ k = T at ih
    have hTe : EndsNumber T := by
      rw [← hT]
      cases feats with
      | nil => exact hk
      | cons g gs => exact ⟨' ', _, rfl, by decide⟩
    have hT0 : '\x00' ∈ T := by rw [← hT]; simp [hk0]
    have hcons : ((i, v) :: feats).flatMap svmFeat ++ k = ' ' :: (indexText i ++ ':' :: (gText v ++ T)) := by
      rw [← hT]; simp [svmFeat]
    have hdrop : (((i, v) :: feats).flatMap svmFeat ++ k).dropWhile blank = decText i.toNat ++ ':' :: (gText v ++ T) := by
      rw [hcons, List.dropWhile_cons, if_pos (by decide), indexText_small hi, dropWhile_decText]
    obtain ⟨c, t, hct, hc0, _⟩ := bodyStart_digits (r := ':' :: (gText v ++ T)) (digits_decText i.toNat)
      Nat.toDigits_ne_nil
    have hu := Props.C06_index_parses [] (':' :: (gText v ++ T)) i (by simp) ⟨':', _, rfl, by decide⟩
      (by simp [hT0])
    rw [List.nil_append, List.dropWhile_cons, if_neg (by decide)] at hu
    obtain ⟨d, hd, hcl⟩ := parseFloat_gText v hv T hTe hT0
    obtain ⟨ds, h1, h2⟩ := ih (fun f hf => hw f (List.mem_cons_of_mem _ hf)) (idx ++ [i]) (vals ++ [d])
    refine ⟨d :: ds, ?_, .cons hcl h2⟩
    have hlu : (':' :: (gText v ++ T)).length ≠ (c :: t).length := by
      rw [← hct, List.length_append]
      have := Nat.length_toDigits_pos (b := 10) (n := i.toNat)
      unfold decText
      omega
    have hlf : (T.dropWhile blank).length ≠ (gText v ++ T).length := by
      have h1 := (List.dropWhile_suffix blank (l := T)).length_le
      have h2 := List.length_pos_iff.2 (gText_ne_nil v)
      rw [List.length_append]
      omega
    rw [hct] at hu
    rw [hdrop, hct, svmFeats_step idx vals hc0 hu hlu hd hlf, h1]
    simp

theorem svmFeats_spec (feats : List (UInt32 × GVal)) (hw : ∀ f ∈ feats, Writable f) (idx : List UInt32)
    (vals : List Dec) :
    ∃ ds, svmFeats ((svmTail feats).dropWhile blank) idx vals = .ok (some (idx ++ feats.map (·.1), vals ++ ds)) ∧
      List.Forall₂ (fun f d => Close f.2 d) feats ds := by
  obtain ⟨ds, h1, h2⟩ := svmFeats_prefix feats hw ['\n', '\x00'] ⟨'\n', _, rfl, by decide⟩ (by decide) idx vals
  refine ⟨ds, ?_, h2⟩
  rw [svmTail, h1]
  have : (['\n', '\x00'] : List Char).dropWhile blank = ['\x00'] := by decide
  rw [this, svmFeats_end]

/-- A character that cannot start an index: the parser does not move. -/
theorem parseUint_stuck {c : Char} {t : List Char} (h0 : c ≠ '\x00') (hb : blank c = false) (hd : c.isDigit = false)
    (hp : c ≠ '.') (he : c ≠ 'e') (hE : c ≠ 'E') : parseUint (c :: t) = .ok (0, c :: t) := by
  have hs : stripLine (c :: t) = .ok (c :: t) := by rw [stripLine, isSpace_eq, hb]; rfl
  unfold parseUint
  rw [hs, Res.bind_ok]
  simp [peek, h0, uintDigits, isDigit_eq, hd, uintFraction, hp, intExponent, he, hE, scaleUint, hs]

/-- A character that cannot start a value: the parser does not move. -/
theorem parseFloat_stuck {c : Char} {t : List Char} (h0 : c ≠ '\x00') (hb : blank c = false) (hd : c.isDigit = false)
    (hp : c ≠ '.') (he : c ≠ 'e') (hE : c ≠ 'E') (h1 : c ≠ '+') (h2 : c ≠ '-') :
    parseFloat (c :: t) = .ok (⟨0, 0⟩, c :: t) := by
  have hs : stripLine (c :: t) = .ok (c :: t) := by rw [stripLine, isSpace_eq, hb]; rfl
  unfold parseFloat
  rw [hs, Res.bind_ok]
  simp [peek, h0, floatSign, skipChar, h1, h2, intDigits, isDigit_eq, hd, floatFraction, hp, floatExponent, he, hE,
    chkInt, hs]

/-- After a minus sign too. -/
theorem parseFloat_minus_stuck {c : Char} {t : List Char} (hb : blank c = false) (hd : c.isDigit = false)
    (hp : c ≠ '.') (he : c ≠ 'e') (hE : c ≠ 'E') :
    parseFloat ('-' :: c :: t) = .ok (⟨0, 0⟩, c :: t) := by
  have hs0 : stripLine ('-' :: c :: t) = .ok ('-' :: c :: t) := by rw [stripLine]; rfl
  have hs : stripLine (c :: t) = .ok (c :: t) := by rw [stripLine, isSpace_eq, hb]; rfl
  unfold parseFloat
  rw [hs0, Res.bind_ok]
  simp [peek, floatSign, skipChar, intDigits, isDigit_eq, hd, floatFraction, hp, floatExponent, he, hE,
    chkInt, hs]

theorem svmFeats_stuck {c : Char} {t : List Char} (idx : List UInt32) (vals : List Dec) (h0 : c ≠ '\x00')
    (hb : blank c = false) (hd : c.isDigit = false) (hp : c ≠ '.') (he : c ≠ 'e') (hE : c ≠ 'E') :
    svmFeats (c :: t) idx vals = .ok none := by
  have hu := parseUint_stuck (t := t) h0 hb hd hp he hE
  rw [svmFeats, if_neg h0]
  split
  · rename_i h; rw [hu] at h; cases h
  · rename_i h; rw [hu] at h; cases h
    rw [if_pos rfl]

theorem svmFeats_badval {c : Char} {iter e' e'' : Ptr} {i : UInt32} {d : Dec} (idx : List UInt32) (vals : List Dec)
    (hc : c ≠ '\x00') (hu : parseUint (c :: iter) = .ok (i, ':' :: e'))
    (hl : (':' :: e').length ≠ (c :: iter).length) (hf : parseFloat e' = .ok (d, e''))
    (hl2 : e''.length = e'.length) :
    svmFeats (c :: iter) idx vals = .ok none := by
  rw [svmFeats, if_neg hc]
  split
  · rename_i h; rw [hu] at h; cases h
  · rename_i h; rw [hu] at h
    simp only [Res.ok.injEq, Prod.mk.injEq] at h
    obtain ⟨rfl, rfl⟩ := h
    rw [if_neg hl]
    dsimp only
    rw [if_neg (by simp)]
    split
    · rename_i h; rw [hf] at h; cases h
    · rename_i h; rw [hf] at h
      simp only [Res.ok.injEq, Prod.mk.injEq] at h
      obtain ⟨rfl, rfl⟩ := h
      rw [if_pos hl2]

/-- Features that the writer prints but the reader refuses: an index of 2^31 or more, or a value that is not finite. -/
def Unreadable (f : UInt32 × GVal) : Prop :=
  2 ^ 31 ≤ f.1.toNat ∨ (∃ neg, f.2 = .inf neg) ∨ (∃ neg, f.2 = .nan neg)

theorem svmFeats_unreadable (f : UInt32 × GVal) (hf : Unreadable f) (k : List Char) (hk0 : '\x00' ∈ k)
    (idx : List UInt32) (vals : List Dec) : svmFeats ((svmFeat f ++ k).dropWhile blank) idx vals = .ok none := by
  obtain ⟨i, v⟩ := f
  by_cases hi : 2 ^ 31 ≤ i.toNat
  · obtain ⟨t, ht⟩ := indexText_large hi
    have : (svmFeat (i, v) ++ k).dropWhile blank = '-' :: (t ++ (':' :: gText v) ++ k) := by
      simp only [svmFeat, ht, List.cons_append]
      rw [List.dropWhile_cons, if_pos (by decide), List.dropWhile_cons, if_neg (by decide)]
    rw [this]
    exact svmFeats_stuck _ _ (by decide) (by decide) (by decide) (by decide) (by decide) (by decide)
  · have hdrop : (svmFeat (i, v) ++ k).dropWhile blank = decText i.toNat ++ ':' :: (gText v ++ k) := by
      simp only [svmFeat, List.cons_append, List.append_assoc]
      rw [List.dropWhile_cons, if_pos (by decide), indexText_small (by omega), dropWhile_decText]
    obtain ⟨c, t, hct, hc0, _⟩ := bodyStart_digits (r := ':' :: (gText v ++ k)) (digits_decText i.toNat)
      Nat.toDigits_ne_nil
    have hu := Props.C06_index_parses [] (':' :: (gText v ++ k)) i (by simp) ⟨':', _, rfl, by decide⟩
      (by simp [hk0])
    rw [List.nil_append, List.dropWhile_cons, if_neg (by decide)] at hu
    have hlu : (':' :: (gText v ++ k)).length ≠ (c :: t).length := by
      rw [← hct, List.length_append]
      have := Nat.length_toDigits_pos (b := 10) (n := i.toNat)
      unfold decText
      omega
    rw [hct] at hu
    rw [hdrop, hct]
    have key : ∃ neg x y, (x = 'i' ∨ x = 'n') ∧ gText v = signOf neg ++ x :: y := by
      rcases hf with h | ⟨neg, h⟩ | ⟨neg, h⟩
      · exact absurd h hi
      · dsimp only at h; subst h; exact ⟨neg, 'i', ['n', 'f'], .inl rfl, rfl⟩
      · dsimp only at h; subst h; exact ⟨neg, 'n', ['a', 'n'], .inr rfl, rfl⟩
    obtain ⟨neg, x, y, hx, hg⟩ := key
    have hx0 : x ≠ '\x00' ∧ blank x = false ∧ x.isDigit = false ∧ x ≠ '.' ∧ x ≠ 'e' ∧ x ≠ 'E' ∧ x ≠ '+' ∧ x ≠ '-' := by
      rcases hx with rfl | rfl <;> decide
    obtain ⟨x0, x1, x2, x3, x4, x5, x6, x7⟩ := hx0
    cases neg with
    | false =>
      have hgv : gText v ++ k = x :: (y ++ k) := by rw [hg]; rfl
      have hp := parseFloat_stuck (t := y ++ k) x0 x1 x2 x3 x4 x5 x6 x7
      rw [← hgv] at hp
      exact svmFeats_badval idx vals hc0 hu hlu hp rfl
    | true =>
      have hgv : gText v ++ k = '-' :: x :: (y ++ k) := by rw [hg]; rfl
      have hp := parseFloat_minus_stuck (t := y ++ k) x1 x2 x3 x4 x5
      rw [← hgv] at hp
      rw [svmFeats_step idx vals hc0 hu hlu hp (by rw [hgv]; simp)]
      exact svmFeats_stuck _ _ x0 x1 x2 x3 x4 x5

theorem intText_head (v : Int) (r : List Char) : ∃ c t, intText v ++ r = c :: t ∧ c ≠ '\x00' := by
  unfold intText
  split
  · exact ⟨'-', _, rfl, by decide⟩
  · obtain ⟨c, t, h, h0, _⟩ := bodyStart_digits (r := r) (digits_decText v.natAbs) Nat.toDigits_ne_nil
    exact ⟨c, t, h, h0⟩

theorem intText_ne_nil (v : Int) : intText v ≠ [] := by
  unfold intText
  split
  · simp
  · exact Nat.toDigits_ne_nil

theorem svmLine_spec (p : OutPoint) (hl : p.label.natAbs ≤ 2147483599) (hw : ∀ f ∈ p.feats, Writable f) :
    ∃ ds, List.Forall₂ (fun f d => Close f.2 d) p.feats ds ∧
      svmLine (svmWrite p ++ ['\x00']) =
        (do let (a, b) ← Sort.sort (p.feats.map (·.1)).toArray ds.toArray
            .ok (.ok, ⟨p.label, a.toList, b.toList⟩)) := by
  obtain ⟨ds, h1, h2⟩ := svmFeats_spec p.feats hw [] []
  refine ⟨ds, h2, ?_⟩
  have he : svmWrite p ++ ['\x00'] = intText p.label ++ svmTail p.feats := by simp [svmWrite, svmTail]
  obtain ⟨c, t, hct, hc0⟩ := intText_head p.label (svmTail p.feats)
  have hp := Props.C06_label_parses_partial [] (svmTail p.feats) p.label hl (by simp) (svmTail_ends _) (svmTail_zero _)
  rw [List.nil_append] at hp
  unfold svmLine
  rw [he, show peek (intText p.label ++ svmTail p.feats) = .ok c by rw [hct]; rfl, Res.bind_ok, if_neg hc0, hp,
    Res.bind_ok]
  dsimp only
  rw [if_neg, h1, Res.bind_ok]
  · simp
  · have h1 := (List.dropWhile_suffix blank (l := svmTail p.feats)).length_le
    have h2 := List.length_pos_iff.2 (intText_ne_nil p.label)
    rw [List.length_append]
    omega

theorem digits_no_nl {ds : List Char} (h : Digits ds) : '\n' ∉ ds ∧ '\x00' ∉ ds ∧ ',' ∉ ds := by
  refine ⟨fun hm => ?_, fun hm => ?_, fun hm => ?_⟩ <;> (have := h _ hm; revert this; decide)

theorem intText_clean (v : Int) : '\n' ∉ intText v ∧ '\x00' ∉ intText v ∧ ',' ∉ intText v := by
  have := digits_no_nl (digits_decText v.natAbs)
  unfold intText
  split
  · simp [this]
  · exact this

theorem gText_clean (v : GVal) : '\n' ∉ gText v ∧ '\x00' ∉ gText v := by
  have frac : ∀ fs, Digits fs → '\n' ∉ fracOf fs ∧ '\x00' ∉ fracOf fs := by
    intro fs h
    have := digits_no_nl (Digits.strip h)
    unfold fracOf
    split <;> simp [this]
  have sg : ∀ neg, '\n' ∉ signOf neg ∧ '\x00' ∉ signOf neg := by decide
  cases v with
  | zero neg => simp [gText, sg]
  | inf neg => simp [gText, sg]
  | nan neg => simp [gText, sg]
  | num neg m x =>
    have hdm := digits_decText m
    have h1 := fun k => digits_no_nl (Digits.take hdm k)
    have h2 := fun k => frac _ (Digits.drop hdm k)
    have h3 := digits_no_nl (pad2_spec x.natAbs).1
    have h4 := fun k => frac _ (Digits.append (digits_replicate k) hdm)
    have h5 : '\n' ≠ (if x < 0 then '-' else '+') ∧ '\x00' ≠ (if x < 0 then '-' else '+') := by split <;> decide
    simp only [gText]
    split
    · simp only [List.mem_append, List.mem_cons, sg, h1, h2, h3, h5, not_or, not_false_eq_true, and_self, true_and,
        and_true]
      decide
    · split
      · simp only [List.mem_append, sg, h1, h2, not_or, not_false_eq_true, and_self]
      · simp only [List.mem_append, List.mem_cons, sg, h4, not_or, not_false_eq_true, and_self, and_true, true_and]
        decide

theorem svmWrite_line (p : OutPoint) (r : List Char) :
    FirstLine (svmWrite p) r ∧ '\x00' ∉ svmWrite p := by
  have h1 := intText_clean p.label
  have h2 : '\n' ∉ p.feats.flatMap svmFeat ∧ '\x00' ∉ p.feats.flatMap svmFeat := by
    constructor <;>
    · rw [List.mem_flatMap]
      rintro ⟨f, _, hf⟩
      have h3 : '\n' ∉ indexText f.1 ∧ '\x00' ∉ indexText f.1 ∧ ',' ∉ indexText f.1 := intText_clean _
      have h4 := gText_clean f.2
      simp [svmFeat, h3, h4] at hf
  refine ⟨⟨by simp [svmWrite], .inl ⟨_, rfl, by simp [h1, h2]⟩⟩, by simp [svmWrite, h1, h2]⟩

/-- What a successful feature loop says about the text. -/
theorem svmFeats_inv (n : Nat) : ∀ (iter : Ptr) (idx : List UInt32) (vals : List Dec) (idx' : List UInt32)
    (vals' : List Dec), iter.length = n → svmFeats iter idx vals = .ok (some (idx', vals')) →
    ∃ txt rest pairs, iter = txt ++ '\x00' :: rest ∧ FeatsTok txt pairs ∧
      idx' = idx ++ pairs.map (·.1) ∧ vals' = vals ++ pairs.map (·.2) := by
  induction n using Nat.strongRecOn with
  | ind n ih =>
    intro iter idx vals idx' vals' hn h
    rw [svmFeats.eq_def] at h
    split at h
    · simp at h
    · rename_i c iter'
      split at h
      · rename_i hc
        simp only [Res.ok.injEq, Option.some.injEq, Prod.mk.injEq] at h
        exact ⟨[], iter', [], by rw [hc]; rfl, .nil, by simp [h.1], by simp [h.2]⟩
      · split at h
        · simp at h
        · rename_i i e hu
          split at h
          · simp at h
          · rename_i hl
            split at h
            · simp at h
            · rename_i d e' _
              split at h
              · simp at h
              · rename_i hd
                have hd : d = ':' := Decidable.not_not.1 hd
                split at h
                · simp at h
                · rename_i feat e'' hf
                  split at h
                  · simp at h
                  · rename_i hl2
                    obtain ⟨it, hit, hiv⟩ := parseUint_inv hu hl
                    obtain ⟨vt, hvt, hvv⟩ := parseFloat_inv hf hl2
                    have hlen1 := parseUint_length hu
                    have hlen2 := parseFloat_length hf
                    simp only [List.length_cons] at hlen1 hn
                    obtain ⟨txt, rest, pairs, h1, h2, h3, h4⟩ :=
                      ih e''.length (by omega) e'' _ _ _ _ rfl h
                    refine ⟨it ++ ':' :: (vt ++ txt), rest, (i, feat) :: pairs, ?_, .cons hiv ?_ hvv ?_ h2, ?_, ?_⟩
                    · rw [hit, hvt, h1, hd]; simp
                    · rintro rfl; exact hl (by rw [hit]; rfl)
                    · rintro rfl; exact hl2 (by rw [hvt]; rfl)
                    · rw [h3]; simp
                    · rw [h4]; simp

end Sol.TextReaders
