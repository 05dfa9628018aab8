import Verif.Spec.Vw
import Verif.Proofs.Predictions
import Verif.Proofs.DataSet
/-! Lemmas about the experiments with Vowpal Wabbit. -/

namespace Sol.Vw
open Sol.Spec
open Sol.DataSet (space Files Out DataSet)
open Sol.DataFile (File chars ofChars)

/-! ### Lines -/

theorem cut_line {l : List Char} (h : '\n' ∉ l) (rest : List Char) : cut (l ++ '\n' :: rest) = l :: cut rest := by
  induction l with
  | nil => simp [cut]
  | cons c l ih =>
    have hc : c ≠ '\n' := fun e => h (by rw [e]; exact List.mem_cons_self)
    rw [List.cons_append, cut, if_neg hc, ih fun h' => h (List.mem_cons_of_mem _ h')]

theorem cut_lines (ls : List (List Char)) (h : ∀ l ∈ ls, '\n' ∉ l) : cut (ls.map (· ++ ['\n'])).flatten = ls ++ [[]] := by
  induction ls with
  | nil => simp [cut]
  | cons l ls ih =>
    rw [List.map_cons, List.flatten_cons, List.append_assoc, List.singleton_append, cut_line (h l List.mem_cons_self),
      ih fun l' hl => h l' (List.mem_cons_of_mem _ hl)]
    rfl

theorem space_spaces {s : List Char} (h : Spaces s) : ∀ c ∈ s, space c = true := by
  intro c hc
  rcases h c hc with rfl | rfl | rfl <;> decide

theorem space_visible {c : Char} (h : 32 < c.toNat) : space c = false := by
  have h1 : ∀ d : Char, d.toNat ≤ 32 → c ≠ d := by
    rintro d hd rfl
    omega
  simp only [space, decide_eq_false_iff_not, not_or]
  exact ⟨h1 _ (by decide), h1 _ (by decide), h1 _ (by decide), h1 _ (by decide), by omega, by omega⟩

/-- Removing the spaces on both sides. -/
theorem strip_between {a m b : List Char} (ha : ∀ c ∈ a, space c = true) (hb : ∀ c ∈ b, space c = true) {x y : Char}
    (hx : m.head? = some x) (hx' : space x = false) (hy : m.getLast? = some y) (hy' : space y = false) : strip (a ++ m ++ b) = m := by
  obtain ⟨m', rfl⟩ : ∃ m', m = x :: m' := by
    cases m with
    | nil => simp at hx
    | cons z m' => exact ⟨m', by simpa using hx⟩
  unfold strip
  have h1 : (a ++ (x :: m') ++ b).dropWhile space = (x :: m') ++ b := by
    rw [List.append_assoc, List.dropWhile_append_of_pos ha, List.cons_append, List.dropWhile_cons_of_neg (by simp [hx'])]
  rw [h1, List.reverse_append, List.dropWhile_append_of_pos fun c hc => hb c (List.mem_reverse.1 hc)]
  have h2 : (x :: m').reverse.head? = some y := by rw [List.head?_reverse]; exact hy
  generalize hr : (x :: m').reverse = r at h2
  cases r with
  | nil => simp at h2
  | cons z r =>
    obtain rfl : z = y := by simpa using h2
    rw [List.dropWhile_cons_of_neg (by simp [hy']), ← hr, List.reverse_reverse]

theorem strip_visible {m : List Char} (h : ∀ c ∈ m, 32 < c.toNat) : strip m = m := by
  cases hm : m with
  | nil => rfl
  | cons x m' =>
    obtain ⟨y, hy⟩ : ∃ y, m.getLast? = some y := by
      rw [hm]
      exact ⟨_, List.getLast?_cons⟩
    have := strip_between (a := []) (b := []) (m := m) (by simp) (by simp) (x := x) (by rw [hm]; rfl) (space_visible (h _ (by rw [hm]; simp))) hy
      (space_visible (h _ (List.mem_of_getLast? hy)))
    rw [← hm]
    simpa using this

/-! ### Numbers -/

theorem digit_visible {c : Char} (h : c.isDigit = true) : 32 < c.toNat ∧ c ≠ '-' ∧ c ≠ '+' ∧ c ≠ '|' := by
  have h1 : 48 ≤ c.toNat := by
    have := (Char.isDigit_iff_toNat).1 h
    simpa using this.1
  have h2 : ∀ d : Char, d.toNat < 48 → c ≠ d := by
    rintro d hd rfl
    omega
  refine ⟨by omega, h2 _ (by decide), h2 _ (by decide), ?_⟩
  rintro rfl
  exact absurd h (by decide)

theorem number_visible {s : List Char} {l : Int} (h : NumberText s l) : s ≠ [] ∧ (∀ c ∈ s, 32 < c.toNat ∧ c ≠ '|') := by
  obtain ⟨ds, h0, hd, ⟨rfl | rfl, -⟩ | ⟨rfl, -⟩⟩ := h
  · exact ⟨h0, fun c hc => ⟨(digit_visible (hd c hc)).1, (digit_visible (hd c hc)).2.2.2⟩⟩
  · refine ⟨by simp, fun c hc => ?_⟩
    rcases List.mem_cons.1 hc with rfl | hc
    · decide
    · exact ⟨(digit_visible (hd c hc)).1, (digit_visible (hd c hc)).2.2.2⟩
  · refine ⟨by simp, fun c hc => ?_⟩
    rcases List.mem_cons.1 hc with rfl | hc
    · decide
    · exact ⟨(digit_visible (hd c hc)).1, (digit_visible (hd c hc)).2.2.2⟩

theorem digits_ok {ds : List Char} (h0 : ds ≠ []) (hd : Digits ds) : digits ds = some (decVal ds) := by
  unfold digits
  rw [if_pos ⟨h0, List.all_eq_true.2 hd⟩]

theorem pyInt_ok {s : List Char} {l : Int} (h : NumberText s l) : pyInt s = some l := by
  have hs := strip_visible fun c hc => ((number_visible h).2 c hc).1
  unfold pyInt
  rw [hs]
  obtain ⟨ds, h0, hd, ⟨rfl | rfl, rfl⟩ | ⟨rfl, rfl⟩⟩ := h
  · cases s with
    | nil => exact absurd rfl h0
    | cons c t =>
      have hc := digit_visible (hd c List.mem_cons_self)
      split
      · rename_i e; cases e; exact absurd rfl hc.2.1
      · rename_i e; cases e; exact absurd rfl hc.2.2.1
      · rw [digits_ok h0 hd]; rfl
  · simp only [digits_ok h0 hd, Option.map_some]
  · simp only [digits_ok h0 hd, Option.map_some]

/-- `int` also takes the spaces behind the number. -/
theorem pyInt_space {s : List Char} {l : Int} (h : NumberText s l) {b : List Char} (hb : Spaces b) : pyInt (s ++ b) = some l := by
  have hv := number_visible h
  have hs := strip_visible fun c hc => (hv.2 c hc).1
  obtain ⟨x, t, e⟩ := List.exists_cons_of_ne_nil hv.1
  obtain ⟨y, hy⟩ : ∃ y, s.getLast? = some y := by
    rw [e]
    exact ⟨_, List.getLast?_cons⟩
  have h1 : strip (s ++ b) = strip s := by
    have := strip_between (a := []) (m := s) (b := b) (by simp) (space_spaces hb) (x := x) (by rw [e]; rfl)
      (space_visible (hv.2 x (by rw [e]; simp)).1) hy (space_visible (hv.2 y (List.mem_of_getLast? hy)).1)
    rw [List.nil_append] at this
    rw [this, hs]
  rw [← pyInt_ok h]
  unfold pyInt
  rw [h1]

theorem showInt_eq (v : Int) : showInt v = intText v := rfl

theorem decText_some (n : Nat) : decText n ≠ [] := by
  intro h
  have h1 := decVal_decText n
  rw [h] at h1
  obtain rfl : n = 0 := h1.symm
  exact absurd h (by decide)

theorem number_intText (v : Int) : NumberText (intText v) v := by
  refine ⟨decText v.natAbs, decText_some _, digits_decText _, ?_⟩
  unfold intText
  rw [decVal_decText]
  split_ifs with h
  · exact .inr ⟨rfl, by omega⟩
  · exact .inl ⟨.inl rfl, by omega⟩

/-! ### Translating -/

theorem sep_of_visible {c : Char} (h : 32 < c.toNat) : (decide (c ≠ ' ' ∧ c ≠ '\t')) = true := by
  rw [decide_eq_true_eq]
  constructor <;> rintro rfl <;> exact absurd h (by decide)

theorem feature_ends {t : List Char} (h : FeatureText t) : ∃ sep t' last, t = sep :: t' ∧ (sep = ' ' ∨ sep = '\t') ∧ t.getLast? = some last ∧
    space last = false ∧ '\n' ∉ t := by
  obtain ⟨sep, mid, last, rfl, h1, h2, h3, h4⟩ := h
  refine ⟨sep, _, last, rfl, h1, ?_, space_visible h4, ?_⟩
  · rw [← List.cons_append, List.getLast?_append]
    rfl
  simp only [List.mem_cons, List.mem_append, List.not_mem_nil, or_false, not_or]
  refine ⟨?_, h2, fun e => h3 e.symm⟩
  rcases h1 with rfl | rfl <;> decide

theorem newline_number {s : List Char} {l : Int} (h : NumberText s l) : '\n' ∉ s := fun hc => absurd ((number_visible h).2 _ hc).1 (by decide)

theorem newline_spaces {s : List Char} (h : Spaces s) : '\n' ∉ s := fun hc => by
  rcases h _ hc with e | e | e <;> exact absurd e (by decide)

/-- A line of libsvm text without the spaces around it. -/
theorem svm_strip {line : List Char} {r : Int × List Char} (h : SvmLine line r) : ∃ s, NumberText s r.1 ∧ FeatureText r.2 ∧ strip line = s ++ r.2 ∧
    '\n' ∉ line := by
  obtain ⟨a, s, b, rfl, ha, hb, hn, hf⟩ := h
  obtain ⟨sep, t', last, ht, h1, h2, h3, h4⟩ := feature_ends hf
  have hv := number_visible hn
  obtain ⟨x, s', e⟩ := List.exists_cons_of_ne_nil hv.1
  refine ⟨s, hn, hf, ?_, ?_⟩
  · rw [List.append_assoc a s]
    refine strip_between (x := x) (y := last) (space_spaces ha) (space_spaces hb) (by rw [e]; rfl) (space_visible (hv.2 x (by rw [e]; simp)).1) ?_ h3
    rw [List.getLast?_append, h2]
    rfl
  · simp only [List.mem_append, not_or]
    exact ⟨⟨⟨newline_spaces ha, newline_number hn⟩, h4⟩, newline_spaces hb⟩

theorem split_sep {s t : List Char} {l : Int} (hn : NumberText s l) (hf : FeatureText t) :
    (s ++ t).takeWhile (fun c => decide (c ≠ ' ' ∧ c ≠ '\t')) = s ∧ (s ++ t).dropWhile (fun c => decide (c ≠ ' ' ∧ c ≠ '\t')) = t := by
  obtain ⟨sep, t', last, rfl, h1, -⟩ := feature_ends hf
  have hs : ∀ c ∈ s, (fun c => decide (c ≠ ' ' ∧ c ≠ '\t')) c = true := fun c hc => sep_of_visible ((number_visible hn).2 c hc).1
  have hsep : ¬ ((fun c => decide (c ≠ ' ' ∧ c ≠ '\t')) sep = true) := by
    rcases h1 with rfl | rfl <;> decide
  constructor
  · rw [List.takeWhile_append_of_pos hs, List.takeWhile_cons_of_neg (p := fun c => decide (c ≠ ' ' ∧ c ≠ '\t')) hsep, List.append_nil]
  · rw [List.dropWhile_append_of_pos hs, List.dropWhile_cons_of_neg (p := fun c => decide (c ≠ ' ' ∧ c ≠ '\t')) hsep]

theorem convertLine_ok {line : List Char} {r : Int × List Char} (h : SvmLine line r) (c : Nat) :
    convertLine c (strip line) = some (intText (if c = 2 then r.1 else r.1 + 1) ++ " |".toList ++ r.2 ++ ['\n']) := by
  obtain ⟨s, hn, hf, hs, -⟩ := svm_strip h
  obtain ⟨h1, h2⟩ := split_sep hn hf
  unfold convertLine
  dsimp only
  rw [hs, h1, h2, if_neg, pyInt_ok hn, Option.map_some, showInt_eq]
  · by_cases hc : c = 2
    · rw [if_neg (not_not.2 hc), if_pos hc]
    · rw [if_pos hc, if_neg hc]
  · obtain ⟨sep, t', last, e, -⟩ := feature_ends hf
    rw [e]
    simp

theorem lines_ok (ls : List (List Char)) (h : ∀ l ∈ ls, '\n' ∉ l ∧ strip l ≠ []) : lines (ls.map (· ++ ['\n'])).flatten = ls.map strip := by
  unfold lines
  rw [cut_lines ls fun l hl => (h l hl).1, List.map_append, List.takeWhile_append_of_pos]
  · have : strip [] = [] := rfl
    simp [this]
  · intro l hl
    obtain ⟨l', hl', rfl⟩ := List.mem_map.1 hl
    exact decide_eq_true (h l' hl').2

theorem svm_lines {text : List Char} {rows : List (Int × List Char)} (h : SvmText text rows) (c : Nat) :
    convertToVw c text = (vwText (fromOne c rows), true) := by
  obtain ⟨ls, rfl, hr⟩ := h
  have hl : ∀ l ∈ ls, '\n' ∉ l ∧ strip l ≠ [] := by
    intro l hl
    obtain ⟨i, hi, rfl⟩ := List.getElem_of_mem hl
    obtain ⟨s, hn, -, hs, h4⟩ := svm_strip ((List.forall₂_iff_get.1 hr).2 i hi (by rw [← hr.length_eq]; exact hi))
    refine ⟨h4, ?_⟩
    have hs : strip ls[i] = _ := hs
    rw [hs]
    simp [(number_visible hn).1]
  unfold convertToVw
  rw [lines_ok ls hl]
  clear hl
  induction hr with
  | nil => unfold fromOne; split_ifs <;> rfl
  | @cons l r ls rows h1 _ ih =>
    rw [List.map_cons, convertLines, convertLine_ok h1]
    dsimp only
    rw [ih]
    unfold fromOne vwText
    split_ifs <;> simp

theorem convertLines_stop (c : Nat) (ls : List (List Char)) (rows : List (Int × List Char)) (hr : List.Forall₂ SvmLine ls rows) (rest : List (List Char))
    (h : convertLines c rest = ([], false)) : convertLines c (ls.map strip ++ rest) = (vwText (fromOne c rows), false) := by
  induction hr with
  | nil =>
    rw [List.map_nil, List.nil_append, h]
    unfold fromOne
    split_ifs <;> rfl
  | @cons l r ls rows h1 _ ih =>
    rw [List.map_cons, List.cons_append, convertLines, convertLine_ok h1]
    dsimp only
    rw [ih]
    unfold fromOne vwText
    split_ifs <;> simp

theorem cut_before (ls : List (List Char)) (h : ∀ l ∈ ls, '\n' ∉ l) (rest : List Char) : cut ((ls.map (· ++ ['\n'])).flatten ++ rest) = ls ++ cut rest := by
  induction ls with
  | nil => rfl
  | cons l ls ih =>
    rw [List.map_cons, List.flatten_cons, List.append_assoc, List.append_assoc, List.singleton_append, cut_line (h l List.mem_cons_self),
      ih fun l hl => h l (List.mem_cons_of_mem _ hl)]
    rfl

/-- A line without a space or tabulator. -/
theorem stops_ok {c : Nat} {text line rest : List Char} {rows : List (Int × List Char)} (h : SvmText text rows) (hne : line ≠ [])
    (hl : ∀ ch ∈ line, 32 < ch.toNat) : convertToVw c (text ++ line ++ '\n' :: rest) = (vwText (fromOne c rows), false) := by
  obtain ⟨ls, rfl, hr⟩ := h
  have hls : ∀ l ∈ ls, '\n' ∉ l ∧ strip l ≠ [] := by
    intro l hl
    obtain ⟨i, hi, rfl⟩ := List.getElem_of_mem hl
    obtain ⟨s, hn, -, hs, h4⟩ := svm_strip ((List.forall₂_iff_get.1 hr).2 i hi (by rw [← hr.length_eq]; exact hi))
    refine ⟨h4, ?_⟩
    have hs : strip ls[i] = _ := hs
    rw [hs]
    simp [(number_visible hn).1]
  unfold convertToVw lines
  rw [List.append_assoc, cut_before ls fun l h => (hls l h).1, cut_line fun hc => absurd (hl _ hc) (by decide), List.map_append,
    List.takeWhile_append_of_pos, List.map_cons, strip_visible hl, List.takeWhile_cons_of_pos (p := fun x : List Char => decide (x ≠ [])) (decide_eq_true hne)]
  · refine convertLines_stop c ls rows hr _ ?_
    rw [convertLines]
    have : convertLine c line = none := by
      unfold convertLine
      dsimp only
      rw [if_pos]
      exact List.dropWhile_eq_nil_iff.2 fun ch hch => sep_of_visible (hl ch hch)
    rw [this]
  · intro l hl
    obtain ⟨l', hl', rfl⟩ := List.mem_map.1 hl
    exact decide_eq_true (hls l' hl').2

/-! ### Counting -/

theorem vw_line (r : Int × List Char) (hf : FeatureText r.2) : strip (intText r.1 ++ " |".toList ++ r.2) = intText r.1 ++ " |".toList ++ r.2 ∧
    '\n' ∉ intText r.1 ++ " |".toList ++ r.2 ∧ labelOf (intText r.1 ++ " |".toList ++ r.2) = some (if r.1 = 0 then -1 else r.1) := by
  have hn := number_intText r.1
  have hv := number_visible hn
  obtain ⟨sep, t', last, ht, h1, h2, h3, h4⟩ := feature_ends hf
  obtain ⟨x, s', e⟩ := List.exists_cons_of_ne_nil hv.1
  refine ⟨?_, ?_, ?_⟩
  · have := strip_between (a := []) (b := []) (m := intText r.1 ++ " |".toList ++ r.2) (by simp) (by simp) (x := x) (y := last) (by rw [e]; rfl)
      (space_visible (hv.2 x (by rw [e]; simp)).1) (by rw [List.getLast?_append, h2]; rfl) h3
    simpa using this
  · simp only [List.mem_append, not_or]
    exact ⟨⟨newline_number hn, by decide⟩, h4⟩
  · unfold labelOf
    have : (intText r.1 ++ " |".toList ++ r.2).takeWhile (· ≠ '|') = intText r.1 ++ [' '] := by
      rw [show intText r.1 ++ " |".toList ++ r.2 = (intText r.1 ++ [' ']) ++ '|' :: r.2 by simp, List.takeWhile_append_of_pos,
        List.takeWhile_cons_of_neg (by simp), List.append_nil]
      intro c hc
      rcases List.mem_append.1 hc with hc | hc
      · exact decide_eq_true (hv.2 c hc).2
      · obtain rfl := List.mem_singleton.1 hc
        decide
    rw [this, pyInt_space hn (b := [' ']) (by intro c hc; exact .inl (List.mem_singleton.1 hc))]
    rfl

theorem vw_labels (rows : List (Int × List Char)) (hf : ∀ r ∈ rows, FeatureText r.2) :
    (lines (vwText rows)).mapM labelOf = some (rows.map fun r => if r.1 = 0 then -1 else r.1) := by
  have h1 : vwText rows = ((rows.map fun r => intText r.1 ++ " |".toList ++ r.2).map (· ++ ['\n'])).flatten := by
    unfold vwText
    rw [List.map_map]
    rfl
  rw [h1, lines_ok, List.map_map]
  · have h2 : rows.map (strip ∘ fun r => intText r.1 ++ " |".toList ++ r.2) = rows.map fun r => intText r.1 ++ " |".toList ++ r.2 :=
      List.map_congr_left fun r hr => (vw_line r (hf r hr)).1
    rw [h2]
    clear h1 h2
    induction rows with
    | nil => rfl
    | cons r rows ih =>
      rw [List.map_cons, List.mapM_cons, (vw_line r (hf r List.mem_cons_self)).2.2, ih fun r' hr => hf r' (List.mem_cons_of_mem _ hr)]
      rfl
  · intro l hl
    obtain ⟨r, hr, rfl⟩ := List.mem_map.1 hl
    refine ⟨(vw_line r (hf r hr)).2.1, ?_⟩
    rw [(vw_line r (hf r hr)).1]
    simp

theorem predicts_ok {positive : List Char → Option Bool} {c : Nat} {text : List Char} {vs : List Int} (h : Predictions positive c text vs) :
    (if c = 2 then (((cut text).map strip).filter (· ≠ [])).mapM fun v => (positive v).map fun b => if b then (1 : Int) else -1
      else (((cut text).map strip).filter (· ≠ [])).mapM pyInt) = some vs := by
  obtain ⟨ps, rfl, hr⟩ := h
  have hp : ∀ p ∈ ps, p ≠ [] ∧ ∀ c ∈ p, 32 < c.toNat := by
    intro p hp
    obtain ⟨i, hi, rfl⟩ := List.getElem_of_mem hp
    have := (List.forall₂_iff_get.1 hr).2 i hi (by rw [← hr.length_eq]; exact hi)
    exact ⟨this.1, this.2.1⟩
  have h1 : ((cut (ps.map (· ++ ['\n'])).flatten).map strip).filter (· ≠ []) = ps := by
    rw [cut_lines ps fun p h hc => absurd ((hp p h).2 _ hc) (by decide), List.map_append, List.filter_append]
    have h2 : ps.map strip = ps := by
      conv_rhs => rw [← List.map_id ps]
      exact List.map_congr_left fun p h => strip_visible (hp p h).2
    have h3 : strip [] = [] := rfl
    rw [h2, List.filter_eq_self.2 fun p h => decide_eq_true (hp p h).1]
    simp [h3]
  rw [h1]
  clear h1 hp
  split_ifs with hc
  · induction hr with
    | nil => rfl
    | @cons p v ps vs h1 _ ih =>
      obtain ⟨-, -, h2⟩ := h1
      rw [if_pos hc] at h2
      obtain ⟨b, h2, rfl⟩ := h2
      rw [List.mapM_cons, h2, ih]
      rfl
  · induction hr with
    | nil => rfl
    | @cons p v ps vs h1 _ ih =>
      obtain ⟨-, -, h2⟩ := h1
      rw [if_neg hc] at h2
      rw [List.mapM_cons, pyInt_ok h2, ih]
      rfl

theorem calc_ok {positive : List Char → Option Bool} {c : Nat} {rows : List (Int × List Char)} {text : List Char} {vs : List Int}
    (hf : ∀ r ∈ rows, FeatureText r.2) (h0 : c ≠ 2 → ∀ r ∈ rows, r.1 ≠ 0) (hne : rows ≠ []) (h : Predictions positive c text vs)
    (hlen : vs.length = rows.length) : calcAccuracy positive c (vwText rows) text = some (share c rows vs) := by
  have h1 := predicts_ok h
  unfold calcAccuracy
  dsimp only
  rw [vw_labels rows hf]
  show (if c = 2 then _ else _) = _
  have h2 : ∀ (k : List Int → Option ℚ) (a b : Option (List Int)), (if c = 2 then a else b) = some vs → (if c = 2 then a >>= k else b >>= k) = k vs := by
    intro k a b e
    split_ifs at e ⊢ <;> rw [e] <;> rfl
  rw [h2 _ _ _ h1]
  rw [if_pos ⟨by rw [List.length_map, hlen], by simpa using hne⟩, List.length_map]
  unfold share
  congr 3
  clear h h1 h2 hne
  induction rows generalizing vs with
  | nil => rfl
  | cons r rows ih =>
    obtain ⟨v, vs, rfl⟩ : ∃ v vs', vs = v :: vs' := List.exists_cons_of_ne_nil (by rintro rfl; simp at hlen)
    rw [List.map_cons, List.zip_cons_cons, List.zip_cons_cons, List.countP_cons, List.countP_cons,
      ih (fun r hr => hf r (List.mem_cons_of_mem _ hr)) (fun hc r hr => h0 hc r (List.mem_cons_of_mem _ hr)) (by simpa using hlen)]
    congr 1
    by_cases hc : c = 2
    · by_cases hr : r.1 = 0 <;> simp [hc, hr, eq_comm]
    · have hr := h0 hc r List.mem_cons_self
      simp [hc, hr, eq_comm]

theorem svm_features {text : List Char} {rows : List (Int × List Char)} (h : SvmText text rows) (c : Nat) :
    ∀ r ∈ fromOne c rows, FeatureText r.2 := by
  obtain ⟨ls, -, hr⟩ := h
  have h1 : ∀ r ∈ rows, FeatureText r.2 := by
    intro r hm
    obtain ⟨i, hi, rfl⟩ := List.getElem_of_mem hm
    obtain ⟨a, s, b, -, -, -, -, hf⟩ := (List.forall₂_iff_get.1 hr).2 i (by rw [hr.length_eq]; exact hi) hi
    exact hf
  intro r hm
  unfold fromOne at hm
  split_ifs at hm
  · exact h1 r hm
  · obtain ⟨r', hr', rfl⟩ := List.mem_map.1 hm
    exact h1 r' hr'

theorem svm_plain {text : List Char} {rows : List (Int × List Char)} (h : SvmText text rows) (ha : ∀ c ∈ text, c.toNat < 128) (c : Nat) :
    DataFile.Plain7 (vwText (fromOne c rows)) := by
  obtain ⟨ls, rfl, hr⟩ := h
  have h1 : ∀ r ∈ rows, DataFile.Plain7 r.2 := by
    intro r hm ch hch
    obtain ⟨i, hi, rfl⟩ := List.getElem_of_mem hm
    have hi' : i < ls.length := by rw [hr.length_eq]; exact hi
    obtain ⟨a, s, b, e, -, -, -, hf⟩ := (List.forall₂_iff_get.1 hr).2 i hi' hi
    have e : ls[i] = _ := e
    refine ha ch (List.mem_flatten.2 ⟨_, List.mem_map.2 ⟨ls[i], List.getElem_mem hi', rfl⟩, ?_⟩)
    rw [e]
    have hch : ch ∈ (rows.get ⟨i, hi⟩).2 := hch
    simp only [List.mem_append]
    exact .inl (.inl (.inr hch))
  have h2 : ∀ r ∈ fromOne c rows, DataFile.Plain7 r.2 := by
    intro r hm
    unfold fromOne at hm
    split_ifs at hm
    · exact h1 r hm
    · obtain ⟨r', hr', rfl⟩ := List.mem_map.1 hm
      exact h1 r' hr'
  intro ch hch
  unfold vwText at hch
  obtain ⟨l, hl, hch⟩ := List.mem_flatten.1 hch
  obtain ⟨r, hr, rfl⟩ := List.mem_map.1 hl
  exact (((DataFile.plain7_intText r.1).append (by unfold DataFile.Plain7; decide)).append (h2 r hr)).append (by unfold DataFile.Plain7; decide) ch hch

theorem share_fromOne_length (c : Nat) (rows : List (Int × List Char)) : (fromOne c rows).length = rows.length := by
  unfold fromOne
  split_ifs
  · rfl
  · exact List.length_map _

/-! ### The whole script -/

section
variable {S : Type} {pw : Int → F32} {writes : List Char → Bool} {positive : List Char → Option Bool} {vw : Program S}

theorem after_one (fs : Files) (p : List Char) (f : File) : fs.after [(p, f)] p = some f :=
  DataSet.after_written (by simp) (by simp)

theorem after_one_other (fs : Files) {p q : List Char} (f : File) (h : q ≠ p) : fs.after [(p, f)] q = fs q :=
  DataSet.after_other (by simpa using h)

theorem convertFile_ok {c : Nat} {src dst : List Char} {fs : Files} {f : File} {rows : List (Int × List Char)} (hw : writes dst = true)
    (hne : src ≠ dst) (hf : fs src = some f) (ht : SvmText (chars f) rows) :
    convertFile writes c src dst fs = .gives () (fs.after [(dst, ofChars (vwText (fromOne c rows)))]) := by
  unfold convertFile
  rw [if_pos hw, after_one_other fs [] hne, hf]
  dsimp only
  rw [svm_lines ht c]
  rfl

theorem translated_ok {c : Nat} {src dst : List Char} {fs : Files} {f : File} {rows : List (Int × List Char)} {source : Files → Res (Out (List Char))}
    (hs : source fs = .ok (.gives src fs)) (hw : writes dst = true)
    (hne : src ≠ dst) (hf : fs src = some f) (ht : SvmText (chars f) rows) (hd : fs dst = none) :
    translated writes c source dst fs = .ok (.gives () (fs.after [(dst, ofChars (vwText (fromOne c rows)))])) := by
  unfold translated
  rw [if_neg (by simp [hd]), hs]
  show Res.ok (convertFile writes c src dst fs) = _
  rw [convertFile_ok hw hne hf ht]

/-- A test with libsvm data that are not yet translated. -/
theorem test_ok {ds : DataSet} {fs : Files} {f m : File} {rows : List (Int × List Char)} {p : List Char} {vs : List Int}
    (htype : ds.dtype = "svm".toList) (hf : fs ds.dataPath = some f) (ht : SvmText (chars f) rows) (ha : ∀ c ∈ chars f, c.toNat < 128)
    (hne : rows ≠ []) (h0 : ds.classNum ≠ 2 → ∀ r ∈ rows, 0 ≤ r.1) (hd : fs (testPath ds) = none) (hm : fs (modelPath ds) = some m)
    (hw1 : writes (testPath ds) = true) (hw2 : writes (predictPath ds) = true)
    (hp : vw.predict m (vwText (fromOne ds.classNum rows)) = some p) (hv : Predictions positive ds.classNum p vs) (hlen : vs.length = rows.length) :
    test pw writes positive vw ds fs = .ok (.gives (share ds.classNum (fromOne ds.classNum rows) vs)
      ((fs.after [(testPath ds, ofChars (vwText (fromOne ds.classNum rows)))]).after [(predictPath ds, ofChars p)])) := by
  have hsrc : ds.convert pw writes "svm".toList fs = .ok (.gives ds.dataPath fs) := by
    unfold DataSet.DataSet.convert
    rw [if_pos htype]
  have hn1 : ds.dataPath ≠ testPath ds := by
    intro e
    rw [e, hd] at hf
    cases hf
  have hn2 : modelPath ds ≠ testPath ds := by
    intro e
    rw [e, hd] at hm
    cases hm
  unfold test
  rw [translated_ok hsrc hw1 hn1 hf ht hd]
  show Res.ok _ = _
  dsimp only
  rw [after_one_other fs _ hn2, hm, after_one]
  dsimp only
  rw [DataFile.chars_ofChars (svm_plain ht ha _), hp]
  dsimp only
  rw [if_pos hw2, calc_ok (svm_features ht _) ?_ ?_ hv (by rw [share_fromOne_length, hlen])]
  · intro hc r hr
    unfold fromOne at hr
    rw [if_neg hc] at hr
    obtain ⟨r', hr', rfl⟩ := List.mem_map.1 hr
    have := h0 hc r' hr'
    show r'.1 + 1 ≠ 0
    omega
  · intro e
    have := congrArg List.length e
    rw [share_fromOne_length] at this
    exact hne (List.length_eq_zero_iff.1 this)

theorem after_four (fs : Files) {a b c d p : List Char} (w x y z : File) (ha : p ≠ a) (hb : p ≠ b) (hc : p ≠ c) (hd : p ≠ d) :
    (((fs.after [(a, w)]).after [(b, x)]).after [(c, y)]).after [(d, z)] p = fs p := by
  rw [after_one_other _ _ hd, after_one_other _ _ hc, after_one_other _ _ hb, after_one_other _ _ ha]

/-- A training with a shuffled file that is not yet translated. -/
theorem train_ok {choice : Nat → Nat} {ds : DataSet} {s : S} {fs : Files} {fS f m : File} {rowsS rows : List (Int × List Char)} {p : List Char} {vs : List Int}
    (htype : ds.dtype = "svm".toList) (hS : fs (ds.shufflePath "svm".toList) = some fS) (htS : SvmText (chars fS) rowsS)
    (haS : ∀ c ∈ chars fS, c.toNat < 128) (hdS : fs (trainPath ds) = none) (hw0 : writes (trainPath ds) = true)
    (hl : vw.learn (if ds.classNum ≠ 2 then some ds.classNum else none) s (vwText (fromOne ds.classNum rowsS)) = some m)
    (hw3 : writes (modelPath ds) = true)
    (hf : fs ds.dataPath = some f) (ht : SvmText (chars f) rows) (ha : ∀ c ∈ chars f, c.toNat < 128)
    (hne : rows ≠ []) (h0 : ds.classNum ≠ 2 → ∀ r ∈ rows, 0 ≤ r.1) (hd : fs (testPath ds) = none)
    (hw1 : writes (testPath ds) = true) (hw2 : writes (predictPath ds) = true)
    (hp : vw.predict m (vwText (fromOne ds.classNum rows)) = some p) (hv : Predictions positive ds.classNum p vs) (hlen : vs.length = rows.length)
    (hx1 : testPath ds ≠ trainPath ds) (hx2 : testPath ds ≠ modelPath ds) (hx3 : ds.dataPath ≠ modelPath ds) :
    train pw writes positive vw choice ds s fs = .ok (.gives (share ds.classNum (fromOne ds.classNum rows) vs)
      ((((fs.after [(trainPath ds, ofChars (vwText (fromOne ds.classNum rowsS)))]).after [(modelPath ds, m)]).after
        [(testPath ds, ofChars (vwText (fromOne ds.classNum rows)))]).after [(predictPath ds, ofChars p)])) := by
  have hsrc : ds.randPath pw writes (some "svm".toList) false choice fs = .ok (.gives (ds.shufflePath "svm".toList) fs) := by
    unfold DataSet.DataSet.randPath
    dsimp only
    rw [Option.getD_some, hS]
    rfl
  have hn1 : ds.shufflePath "svm".toList ≠ trainPath ds := by
    intro e
    rw [e, hdS] at hS
    cases hS
  have hn2 : ds.dataPath ≠ trainPath ds := by
    intro e
    rw [e, hdS] at hf
    cases hf
  unfold train
  rw [hsrc]
  show Res.bind (translated writes ds.classNum _ (trainPath ds) fs) _ = _
  rw [translated_ok hsrc hw0 hn1 hS htS hdS]
  show (match (fs.after _) (trainPath ds) with | none => _ | some f => _) = _
  rw [after_one]
  dsimp only
  rw [DataFile.chars_ofChars (svm_plain htS haS _), hl]
  dsimp only
  rw [if_pos hw3]
  refine test_ok htype ?_ ht ha hne h0 ?_ (after_one _ _ _) hw1 hw2 hp hv hlen
  · rw [after_one_other _ _ hx3, after_one_other _ _ hn2, hf]
  · rw [after_one_other _ _ hx2, after_one_other _ _ hx1, hd]

/-- Training and testing. -/
theorem trainTest_ok {choice : Nat → Nat} {ds dt : DataSet} {s : S} {fs : Files} {fS f fT m : File} {rowsS rows rowsT : List (Int × List Char)}
    {p pT : List Char} {vs vsT : List Int}
    (hdir : dt.workDir = ds.workDir)
    (htype : ds.dtype = "svm".toList) (htypeT : dt.dtype = "svm".toList)
    (hS : fs (ds.shufflePath "svm".toList) = some fS) (htS : SvmText (chars fS) rowsS) (haS : ∀ c ∈ chars fS, c.toNat < 128)
    (hf : fs ds.dataPath = some f) (ht : SvmText (chars f) rows) (ha : ∀ c ∈ chars f, c.toNat < 128) (hne : rows ≠ [])
    (h0 : ds.classNum ≠ 2 → ∀ r ∈ rows, 0 ≤ r.1)
    (hfT : fs dt.dataPath = some fT) (htT : SvmText (chars fT) rowsT) (haT : ∀ c ∈ chars fT, c.toNat < 128) (hneT : rowsT ≠ [])
    (h0T : dt.classNum ≠ 2 → ∀ r ∈ rowsT, 0 ≤ r.1)
    (hd : ∀ q ∈ [trainPath ds, testPath ds, testPath dt], fs q = none)
    (hw : ∀ q ∈ [trainPath ds, modelPath ds, testPath ds, testPath dt, predictPath ds], writes q = true)
    (hnd : [trainPath ds, modelPath ds, testPath ds, testPath dt, predictPath ds].Nodup)
    (hown : ∀ q ∈ [ds.dataPath, dt.dataPath], q ≠ modelPath ds ∧ q ≠ predictPath ds)
    (hl : vw.learn (if ds.classNum ≠ 2 then some ds.classNum else none) s (vwText (fromOne ds.classNum rowsS)) = some m)
    (hp : vw.predict m (vwText (fromOne ds.classNum rows)) = some p) (hv : Predictions positive ds.classNum p vs) (hlen : vs.length = rows.length)
    (hpT : vw.predict m (vwText (fromOne dt.classNum rowsT)) = some pT) (hvT : Predictions positive dt.classNum pT vsT)
    (hlenT : vsT.length = rowsT.length) :
    ∃ fs', trainTest pw writes positive vw choice ds dt s fs =
        .ok (.gives (share dt.classNum (fromOne dt.classNum rowsT) vsT, share ds.classNum (fromOne ds.classNum rows) vs) fs') ∧
      fs' (modelPath ds) = some m ∧
      ∀ q, q ∉ [trainPath ds, modelPath ds, testPath ds, testPath dt, predictPath ds] → fs' q = fs q := by
  have em : modelPath dt = modelPath ds := by unfold modelPath; rw [hdir]
  have ep : predictPath dt = predictPath ds := by unfold predictPath; rw [hdir]
  simp only [List.mem_cons, List.not_mem_nil, or_false, forall_eq_or_imp, forall_eq] at hd hw hown
  simp only [List.nodup_cons, List.mem_cons, List.not_mem_nil, or_false, not_or, not_false_iff, and_true, List.nodup_nil] at hnd
  obtain ⟨hd1, hd2, hd3⟩ := hd
  obtain ⟨hw1, hw2, hw3, hw4, hw5⟩ := hw
  obtain ⟨⟨n1, n2, n3, n4⟩, ⟨n5, n6, n7⟩, ⟨n8, n9⟩, n10⟩ := hnd
  obtain ⟨⟨o1, o2⟩, o3, o4⟩ := hown
  unfold trainTest
  rw [train_ok htype hS htS haS hd1 hw1 hl hw2 hf ht ha hne h0 hd2 hw3 hw5 hp hv hlen (Ne.symm n2) (Ne.symm n5) o1]
  show ∃ fs', Res.bind (test pw writes positive vw dt _) _ = _ ∧ _
  have away : ∀ q, fs q ≠ none → q ≠ modelPath ds → q ≠ predictPath ds → q ≠ trainPath ds ∧ q ≠ testPath ds := by
    intro q hq _ _
    exact ⟨by rintro rfl; exact hq hd1, by rintro rfl; exact hq hd2⟩
  obtain ⟨a1, a2⟩ := away dt.dataPath (by rw [hfT]; exact Option.some_ne_none _) o3 o4
  rw [test_ok htypeT ?_ htT haT hneT h0T ?_ (m := m) ?_ hw4 (by rw [ep]; exact hw5) hpT hvT hlenT]
  · refine ⟨_, rfl, ?_, ?_⟩
    · rw [ep, after_one_other _ _ n7, after_one_other _ _ n6, after_one_other _ _ n7, after_one_other _ _ n5, after_one]
    · intro q hq
      simp only [List.mem_cons, List.not_mem_nil, or_false, not_or] at hq
      obtain ⟨q1, q2, q3, q4, q5⟩ := hq
      rw [ep, after_one_other _ _ q5, after_one_other _ _ q4, after_four _ _ _ _ _ q1 q2 q3 q5]
  · rw [after_four _ _ _ _ _ a1 o3 a2 o4, hfT]
  · rw [after_four _ _ _ _ _ (Ne.symm n3) (Ne.symm n6) (Ne.symm n8) n10, hd3]
  · rw [em, after_one_other _ _ n7, after_one_other _ _ n5, after_one]

end

/-! ### Columns -/

theorem columnsL1_cols (n : Nat) (x : Mat) : (columnsL1 n x).cols = n := by
  unfold columnsL1
  split_ifs with h1 h2
  · show x.cols + (n - x.cols) = n
    omega
  · rfl
  · omega

theorem dot_zeros (w : List ℚ) (k : Nat) : (List.zipWith (· * ·) w (List.replicate k (0 : ℚ))).sum = 0 := by
  induction w generalizing k with
  | nil => simp
  | cons b w ih => cases k <;> simp [List.replicate_succ, ih]

theorem dot_pad (w r : List ℚ) (k : Nat) : (List.zipWith (· * ·) w (r ++ List.replicate k 0)).sum = (List.zipWith (· * ·) w r).sum := by
  induction w generalizing r with
  | nil => simp
  | cons a w ih =>
    cases r with
    | nil =>
      rw [List.nil_append, dot_zeros]
      rfl
    | cons b r => simp [ih]

theorem dot_take (w r : List ℚ) : (List.zipWith (· * ·) w (r.take w.length)).sum = (List.zipWith (· * ·) w r).sum := by
  induction w generalizing r with
  | nil => simp
  | cons a w ih => cases r <;> simp [ih]

theorem scores_columnsL1 (w : List ℚ) (x : Mat) : scores w (columnsL1 w.length x) = some (x.rows.map fun r => (List.zipWith (· * ·) w r).sum) := by
  unfold scores
  rw [if_pos (columnsL1_cols _ x)]
  unfold columnsL1
  split_ifs
  · simp only [List.map_map]
    congr 1
    exact List.map_congr_left fun r _ => dot_pad w r _
  · simp only [List.map_map]
    congr 1
    exact List.map_congr_left fun r _ => dot_take w r
  · rfl

theorem scores_columnsL2 (w : List ℚ) (x : Mat) (h : w.length ≤ x.cols) :
    scores w (columnsL2 w.length x) = some (x.rows.map fun r => (List.zipWith (· * ·) w r).sum) := by
  have : columnsL2 w.length x = columnsL1 w.length x := by
    unfold columnsL2 columnsL1
    rw [if_neg (Nat.not_lt.2 h), if_neg (Nat.not_lt.2 h)]
  rw [this, scores_columnsL1]

theorem scores_columnsL2_none (w : List ℚ) (x : Mat) (h : x.cols < w.length) : scores w (columnsL2 w.length x) = none := by
  unfold scores columnsL2
  rw [if_pos h, if_neg]
  show ¬ x.cols + (w.length - w.length) = w.length
  omega

end Sol.Vw
