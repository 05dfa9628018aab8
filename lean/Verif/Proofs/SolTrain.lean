import Verif.Proofs.PyCv
import Verif.Spec.SolTrain
import Mathlib.Data.List.Infix
/-! Lemmas for C88. -/

namespace Sol.SolTrain
open Sol.Params Sol.Spec Sol.Cv

/-! ### Reading results back -/

theorem mark_eq : mark = ['B', 'e', 's', 't', ' ', 'R', 'e', 's', 'u', 'l', 't', ':', ' ', '{'] := by decide

theorem best_eq : "Best Result: ".toList = ['B', 'e', 's', 't', ' ', 'R', 'e', 's', 'u', 'l', 't', ':', ' '] := by decide

/-- No match begins in `a`. -/
def Quiet (a rest : List Char) : Prop := ∀ t, t <:+ a → t ≠ [] → ¬ mark <+: t ++ rest

theorem findBest_quiet {a rest : List Char} (h : Quiet a rest) : findBest 0 (a ++ rest) = findBest 0 rest := by
  induction a with
  | nil => rfl
  | cons c a ih =>
    have h1 : matchBest (c :: (a ++ rest)) = none := by
      unfold matchBest
      rw [if_neg]
      intro hp
      exact h (c :: a) List.suffix_rfl (by simp) (List.isPrefixOf_iff_prefix.1 hp)
    rw [List.cons_append, findBest, h1]
    exact ih fun t ht h0 => h t (ht.trans (List.suffix_cons c a)) h0

theorem quiet_noB {a : List Char} (h : 'B' ∉ a) (rest : List Char) : Quiet a rest := by
  rintro t ⟨b, rfl⟩ h0 hp
  obtain ⟨c, t, rfl⟩ := List.exists_cons_of_ne_nil h0
  obtain ⟨s, hs⟩ := hp
  have : 'B' = c := by
    have := congrArg List.head? hs
    rw [mark_eq] at this
    simpa using this
  exact h (by rw [this]; simp)

theorem quiet_last {a : List Char} {z : Char} (hz : z ∉ mark) (h : ¬ mark <:+: a) (rest : List Char) : Quiet (a ++ [z]) rest := by
  intro t ht h0 hp
  obtain ⟨t, rfl, hs⟩ : ∃ t₀, t = t₀ ++ [z] ∧ t₀ <:+ a := by
    rcases List.suffix_concat_iff.1 ht with h | ⟨t₀, h1, h2⟩
    · exact absurd h h0
    · exact ⟨t₀, by simpa using h1, h2⟩
  rcases List.prefix_or_prefix_of_prefix hp (List.prefix_append (t ++ [z]) rest) with h1 | h1
  · rcases List.prefix_concat_iff.1 h1 with h2 | h2
    · exact hz (by rw [h2]; simp)
    · exact h (h2.isInfix.trans hs.isInfix)
  · exact hz (h1.subset (by simp))

theorem findBest_skip (a rest : List Char) : findBest a.length (a ++ rest) = findBest 0 rest := by
  induction a with
  | nil => rfl
  | cons c a ih => rw [List.length_cons, List.cons_append, findBest]; exact ih

theorem greedy_none {w : List Char} (h : '}' ∉ w) : greedy w = none := by
  induction w with
  | nil => rfl
  | cons c w ih =>
    rw [List.mem_cons, not_or] at h
    rw [greedy, ih h.2]
    exact if_neg fun e => h.1 e.1.symm

theorem greedy_some (b : List Char) {w : List Char} (h : '}' ∉ w) : greedy (b ++ '}' :: ':' :: w) = some b := by
  induction b with
  | nil =>
    rw [List.nil_append, greedy, greedy_none (by simp [h])]
    exact if_pos ⟨rfl, rfl⟩
  | cons c b ih => rw [List.cons_append, greedy, ih]

theorem takeWhile_line {a : List Char} (h : '\n' ∉ a) (rest : List Char) : (a ++ '\n' :: rest).takeWhile (· ≠ '\n') = a := by
  induction a with
  | nil => simp
  | cons c a ih =>
    rw [List.mem_cons, not_or] at h
    rw [List.cons_append, List.takeWhile_cons, if_pos (by simpa using Ne.symm h.1), ih h.2]

/-- The line with the best result. -/
theorem findBest_best {b w : List Char} (hb : '\n' ∉ b) (hw : '\n' ∉ w) (h : '}' ∉ w) (rest : List Char) :
    findBest 0 ("Best Result: ".toList ++ ('{' :: (b ++ ['}']) ++ ':' :: (w ++ '\n' :: rest))) =
      ('{' :: (b ++ ['}'])) :: findBest 0 rest := by
  have e : "Best Result: ".toList ++ ('{' :: (b ++ ['}']) ++ ':' :: (w ++ '\n' :: rest)) =
      mark ++ ((b ++ '}' :: ':' :: w) ++ '\n' :: rest) := by rw [mark_eq, best_eq]; simp
  have e2 : mark ++ ((b ++ '}' :: ':' :: w) ++ '\n' :: rest) = 'B' :: ((['e', 's', 't', ' ', 'R', 'e', 's', 'u', 'l', 't', ':', ' ', '{'] ++ (b ++ '}' :: ':' :: w)) ++ '\n' :: rest) := by
    rw [mark_eq]; simp
  have hl : '\n' ∉ b ++ '}' :: ':' :: w := by simp [hb, hw]
  have h1 : matchBest (mark ++ ((b ++ '}' :: ':' :: w) ++ '\n' :: rest)) = some ('{' :: (b ++ ['}'])) := by
    unfold matchBest
    rw [if_pos (List.isPrefixOf_iff_prefix.2 (List.prefix_append _ _)), List.drop_left, takeWhile_line hl, greedy_some b h]
    rfl
  rw [e]
  rw [e2] at h1 ⊢
  rw [findBest, h1, takeWhile_line (by simp [hb, hw]), findBest_skip]
  congr 1

variable {V : Type} {st : Style V} {g : List (String × List V)} {P : Dict V → Prop}

theorem num_clean (hl : Legible st g P) (x : ℚ) : ∀ c ∈ st.num x, c ≠ 'B' ∧ c ≠ '\n' ∧ c ≠ '}' := by
  intro c hc
  rcases hl.nums x c hc with h | rfl | rfl
  · refine ⟨?_, ?_, ?_⟩ <;> rintro rfl <;> exact absurd h (by decide)
  · decide
  · decide

theorem ascii_num (hl : Legible st g P) (x : ℚ) : DataFile.Plain7 (st.num x) := by
  intro c hc
  rcases hl.nums x c hc with h | rfl | rfl
  · simp only [Char.isDigit, Bool.and_eq_true, decide_eq_true_eq] at h
    have := UInt32.le_iff_toNat_le.1 h.2
    exact lt_of_le_of_lt this (by decide)
  · decide
  · decide

theorem findBest_dict (hl : Legible st g P) (p : Dict V) (hP : P p) (rest : List Char) :
    findBest 0 (st.dict p ++ rest) = findBest 0 rest := by
  obtain ⟨b, hb⟩ := hl.braces p hP
  have e : st.dict p = ('{' :: b) ++ ['}'] := by rw [hb]; rfl
  rw [e]
  refine findBest_quiet (quiet_last (by decide) ?_ _)
  intro h
  exact hl.unlike p hP (by rw [e]; exact h.trans (List.prefix_append _ _).isInfix)

theorem findBest_line {a : List Char} (hu : Unlike a) (rest : List Char) : findBest 0 (a ++ '\n' :: rest) = findBest 0 rest := by
  rw [show a ++ '\n' :: rest = (a ++ ['\n']) ++ rest by simp]
  exact findBest_quiet (quiet_last (by decide) hu _)

theorem findBest_table (hl : Legible st g P) (space : List (Dict V)) (hu : ∀ p ∈ space, P p) (rows : List (List ℚ)) (rest : List Char) :
    findBest 0 (tableText st space rows ++ rest) = findBest 0 rest := by
  unfold tableText
  induction space generalizing rows with
  | nil => rfl
  | cons p space ih =>
    cases rows with
    | nil => rfl
    | cons r rows =>
      rw [List.zipWith_cons_cons, List.flatten_cons, List.append_assoc, List.append_assoc,
        findBest_dict hl p (hu p List.mem_cons_self)]
      rw [findBest_quiet (quiet_noB ?_ _)]
      · exact ih (fun q hq => hu q (List.mem_cons_of_mem _ hq)) rows
      · simp only [List.mem_cons, List.mem_append, List.mem_flatten, List.mem_map, not_or, not_exists, not_and]
        refine ⟨by decide, ?_, by decide, by simp⟩
        rintro _ ⟨x, -, rfl⟩ h
        rcases List.mem_cons.1 h with h | h
        · exact absurd h (by decide)
        · exact (num_clean hl x _ h).1 rfl

theorem best_index {cv : CV V ℚ} {p : Dict V} {i : Nat} (h : cv.best = some (p, i)) : cv.space[i]? = some p := by
  simp only [CV.best, Option.bind_eq_bind, Option.bind_eq_some_iff, Option.some.injEq, Prod.mk.injEq] at h
  obtain ⟨_, -, j, -, q, h, rfl, rfl⟩ := h
  exact h

theorem best_space {cv : CV V ℚ} {p : Dict V} {i : Nat} (h : cv.best = some (p, i)) : p ∈ cv.space :=
  List.mem_of_getElem? (best_index h)

/-- What is written is read back. -/
theorem load_results (hl : Legible st g P) {cv : CV V ℚ} (he : P cv.extra) (hs : ∀ p ∈ cv.space, P p) {text : List Char} (h : resultsText st g cv = some text) :
    ∃ p i, cv.best = some (p, i) ∧ loadResults st text = some p := by
  simp only [resultsText, Option.bind_eq_bind, Option.bind_eq_some_iff, Option.some.injEq] at h
  obtain ⟨⟨p, i⟩, h1, _, -, tr, -, _, -, va, -, rfl⟩ := h
  refine ⟨p, i, h1, ?_⟩
  have hP : P p := hs p (best_space h1)
  obtain ⟨b, hb⟩ := hl.braces p hP
  have hbl : '\n' ∉ b := by
    have := hl.line p hP
    rw [hb] at this
    simp only [List.mem_cons, List.mem_append, not_or] at this
    exact this.2.1
  have key : findBest 0 ("Cross Validation Parameters: ".toList ++ (st.grid g ++ '\n' :: ("Extra Model Parameters: ".toList ++ (st.dict cv.extra ++ '\n' ::
    ("Best Result: ".toList ++ (st.dict p ++ ':' :: '\t' :: (st.num tr ++ '\t' :: (st.num va ++ '\n' ::
      ("Validation Accuracies\n".toList ++ (tableText st cv.space cv.val ++ ("Train Accuracies\n".toList ++ tableText st cv.space cv.train))))))))))) =
      [st.dict p] := by
    rw [findBest_quiet (quiet_noB (by decide) _), findBest_line hl.unlikeGrid, findBest_quiet (quiet_noB (by decide) _), findBest_line (hl.unlike _ he), hb]
    have e : ':' :: '\t' :: (st.num tr ++ '\t' :: (st.num va ++ '\n' ::
      ("Validation Accuracies\n".toList ++ (tableText st cv.space cv.val ++ ("Train Accuracies\n".toList ++ tableText st cv.space cv.train))))) =
      ':' :: (('\t' :: (st.num tr ++ '\t' :: st.num va)) ++ '\n' ::
      ("Validation Accuracies\n".toList ++ (tableText st cv.space cv.val ++ ("Train Accuracies\n".toList ++ tableText st cv.space cv.train)))) := by
      simp only [List.cons_append, List.append_assoc]
    have hw : ∀ z, z = '\n' ∨ z = '}' → z ∉ '\t' :: (st.num tr ++ '\t' :: st.num va) := by
      intro z hz
      simp only [List.mem_cons, List.mem_append, not_or]
      refine ⟨by rcases hz with rfl | rfl <;> decide, fun h => ?_, by rcases hz with rfl | rfl <;> decide, fun h => ?_⟩
      · have := num_clean hl tr _ h
        rcases hz with rfl | rfl
        · exact this.2.1 rfl
        · exact this.2.2 rfl
      · have := num_clean hl va _ h
        rcases hz with rfl | rfl
        · exact this.2.1 rfl
        · exact this.2.2 rfl
    rw [e, findBest_best hbl (hw _ (.inl rfl)) (hw _ (.inr rfl)), findBest_quiet (quiet_noB (by decide) _), findBest_table hl cv.space hs,
      findBest_quiet (quiet_noB (by decide) _)]
    have := findBest_table hl cv.space hs cv.train []
    rw [List.append_nil] at this
    rw [this]
    rfl
  unfold loadResults
  rw [key]
  exact hl.back p hP

theorem ascii_table (hl : Legible st g P) (space : List (Dict V)) (hu : ∀ p ∈ space, P p) (rows : List (List ℚ)) :
    DataFile.Plain7 (tableText st space rows) := by
  unfold tableText
  induction space generalizing rows with
  | nil => exact DataFile.plain7_nil
  | cons p space ih =>
    cases rows with
    | nil => exact DataFile.plain7_nil
    | cons r rows =>
      rw [List.zipWith_cons_cons, List.flatten_cons]
      refine DataFile.Plain7.append ?_ (ih (fun q hq => hu q (List.mem_cons_of_mem _ hq)) rows)
      refine DataFile.Plain7.append (hl.ascii p (hu p List.mem_cons_self)) (.cons (by decide) (.append ?_ (.cons (by decide) DataFile.plain7_nil)))
      intro c hc
      obtain ⟨l, hl', hc⟩ := List.mem_flatten.1 hc
      obtain ⟨x, -, rfl⟩ := List.mem_map.1 hl'
      exact DataFile.Plain7.cons (by decide) (ascii_num hl x) c hc

theorem ascii_results (hl : Legible st g P) {cv : CV V ℚ} (he : P cv.extra) (hs : ∀ p ∈ cv.space, P p) {text : List Char}
    (h : resultsText st g cv = some text) : DataFile.Plain7 text := by
  simp only [resultsText, Option.bind_eq_bind, Option.bind_eq_some_iff, Option.some.injEq] at h
  obtain ⟨⟨p, i⟩, h1, _, -, tr, -, _, -, va, -, rfl⟩ := h
  have hP : P p := hs p (best_space h1)
  have lit : ∀ s : String, Ascii s.toList → DataFile.Plain7 s.toList := fun _ h => h
  exact .append (lit _ (by decide)) (.append hl.asciiGrid (.cons (by decide) (.append (lit _ (by decide)) (.append (hl.ascii _ he) (.cons (by decide)
    (.append (lit _ (by decide)) (.append (hl.ascii _ hP) (.cons (by decide) (.cons (by decide) (.append (ascii_num hl _) (.cons (by decide)
      (.append (ascii_num hl _) (.cons (by decide) (.append (lit _ (by decide)) (.append (ascii_table hl _ hs _) (.append (lit _ (by decide))
        (ascii_table hl _ hs _)))))))))))))))))

/-! ### Results that can be written -/

theorem oneFold_length {A : Type} {size procs : Nat} {zero : A} {run : Nat → Option A} {l : List A} (h : OneFold size procs zero run l) :
    l.length = size := by
  obtain ⟨s, h1, -, rfl⟩ := h
  induction h1 with
  | refl => simp [start]
  | tail _ h2 ih => cases h2 <;> simpa using ih

/-- So many rows of that length. -/
def Table (n k : Nat) (rows : List (List ℚ)) : Prop := rows.length = n ∧ ∀ r ∈ rows, r.length = k

theorem table_column {n k v : Nat} {rows : List (List ℚ)} {l : List ℚ} (h : Table n k rows) (hl : l.length = n) : Table n k (setColumn v rows l) := by
  refine ⟨by simp [setColumn, h.1, hl], fun r hr => ?_⟩
  obtain ⟨i, hi, rfl⟩ := List.mem_iff_getElem.1 hr
  simp only [setColumn, List.getElem_zipWith, List.length_set]
  exact h.2 _ (List.getElem_mem _)

universe u

theorem table_rounds {M : Type u} {cv : CV V ℚ} {lib : Lib V M ℚ} {passes k : Nat} {vs : List Nat} {tr va tr' va' : List (List ℚ)}
    (h : Rounds cv lib passes vs tr va tr' va') (ht : Table cv.space.length k tr) (hv : Table cv.space.length k va) :
    Table cv.space.length k tr' ∧ Table cv.space.length k va' := by
  induction h with
  | nil => exact ⟨ht, hv⟩
  | cons v vs tr va tr' va' l h1 _ ih =>
    exact ih (table_column ht (by simpa using oneFold_length h1)) (table_column hv (by simpa using oneFold_length h1))

theorem trainVal_shape {M : Type u} {folds procs passes : Nat} {extra : Dict V} {cv cv' : CV V ℚ} {lib : Lib V M ℚ}
    (hn : CV.new folds g extra procs = some cv) (h : CV.TrainVal cv lib passes cv') :
    searchSpace g = some cv'.space ∧ cv'.extra = extra ∧ cv'.folds = folds ∧ Table cv'.space.length (folds + 1) cv'.train ∧
      Table cv'.space.length (folds + 1) cv'.val := by
  obtain ⟨tr, va, h1, rfl⟩ := h
  simp only [CV.new] at hn
  split at hn
  · cases hn
  simp only [Option.bind_eq_bind, Option.bind_eq_some_iff, Option.some.injEq] at hn
  obtain ⟨space, h2, rfl⟩ := hn
  have h0 : Table space.length (folds + 1) (List.replicate space.length (List.replicate (folds + 1) (0 : ℚ))) :=
    ⟨by simp, fun r hr => by rw [List.eq_of_mem_replicate hr]; simp⟩
  obtain ⟨h3, h4⟩ := table_rounds h1 h0 h0
  have key : ∀ {rows : List (List ℚ)}, Table space.length (folds + 1) rows → Table space.length (folds + 1) (rows.map (average folds)) := by
    intro rows h
    refine ⟨by simpa using h.1, fun r hr => ?_⟩
    obtain ⟨r, hr', rfl⟩ := List.mem_map.1 hr
    simpa [average] using h.2 r hr'
  exact ⟨h2, rfl, rfl, key h3, key h4⟩

theorem results_some {M : Type u} {folds procs passes : Nat} {extra : Dict V} {cv cv' : CV V ℚ} {lib : Lib V M ℚ}
    (hn : CV.new folds g extra procs = some cv) (h : CV.TrainVal cv lib passes cv') {p : Dict V} {i : Nat} (hb : cv'.best = some (p, i)) :
    ∃ text, resultsText st g cv' = some text := by
  obtain ⟨-, -, h1, h2, h3⟩ := trainVal_shape hn h
  have hi : i < cv'.space.length := (List.getElem?_eq_some_iff.1 (best_index hb)).1
  have e1 : i < cv'.train.length := by rw [h2.1]; exact hi
  have e2 : i < cv'.val.length := by rw [h3.1]; exact hi
  unfold resultsText
  rw [hb]
  simp only [Option.bind_eq_bind, Option.bind_some, List.getElem?_eq_getElem e1, List.getElem?_eq_getElem e2, h1]
  have l1 := h2.2 _ (List.getElem_mem e1)
  have l2 := h3.2 _ (List.getElem_mem e2)
  rw [List.getElem?_eq_getElem (by omega), Option.bind_some, List.getElem?_eq_getElem (by omega)]
  exact ⟨_, rfl⟩

/-! ### Settings -/

theorem assign_new {d : Dict V} {k : String} {v : V} (h : k ∉ d.map (·.1)) : assign d k v = d ++ [(k, v)] := by
  unfold assign
  rw [if_neg]
  simp only [List.any_eq_true, decide_eq_true_eq, not_exists, not_and]
  intro p hp e
  exact h (List.mem_map.2 ⟨p, hp, e⟩)

theorem update_append {d e : Dict V} (h : ((d ++ e).map (·.1)).Nodup) : update d e = d ++ e := by
  induction e generalizing d with
  | nil => simp [update]
  | cons p e ih =>
    have hk : p.1 ∉ d.map (·.1) := by
      rw [List.map_append, List.nodup_append] at h
      intro hp
      exact h.2.2 _ hp _ (by simp) rfl
    show update (assign d p.1 p.2) e = _
    rw [assign_new hk, ih (by simpa using h)]
    simp

theorem restored_eq {p : Dict V} (h : ∀ x ∈ p, x.1 ≠ "B" ∧ x.1 ≠ "lambda") : searched p = p ∧ restored p = p := by
  have h1 : remove p "B" = p := List.filter_eq_self.2 fun x hx => by simpa using (h x hx).1
  have h2 : remove p "lambda" = p := List.filter_eq_self.2 fun x hx => by simpa using (h x hx).2
  have h3 : searched p = p := by rw [searched, h1, h2]
  have h4 : ∀ k, (∀ x ∈ p, x.1 ≠ k) → p.lookup k = none := by
    intro k hk
    rw [List.lookup_eq_none_iff]
    intro x hx
    simpa using (hk x hx).symm
  refine ⟨h3, ?_⟩
  rw [restored, h3, h1, h4 "B" fun x hx => (h x hx).1, h4 "lambda" fun x hx => (h x hx).2]
  rfl

theorem combination_names {c : Dict V} (h : Combination g c) : c.map (·.1) = g.map (·.1) := by
  induction h with
  | nil => rfl
  | cons h _ ih => rw [List.map_cons, List.map_cons, ih, h.1]

end Sol.SolTrain
