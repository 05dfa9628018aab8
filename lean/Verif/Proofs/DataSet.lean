import Verif.Spec.DataSet
import Verif.Proofs.DataFile
/-! Lemmas about data sets: the report, paths, files written. -/

namespace Sol.DataSet
open Sol.Spec Sol.DataFile

/-! ### The report -/

theorem matchAt_head {d c : Char} {lit s : List Char} (h : d ≠ c) : matchAt (d :: lit) (c :: s) = none := by
  unfold matchAt
  rw [if_neg]
  simp [List.isPrefixOf, h]

theorem findAll_skip {d : Char} {lit : List Char} {p : List Char} (h : d ∉ p) (r : List Char) :
    findAll (d :: lit) 0 (p ++ r) = findAll (d :: lit) 0 r := by
  induction p with
  | nil => rfl
  | cons c p ih =>
    rw [List.cons_append, findAll, matchAt_head (by rintro rfl; exact h (by simp))]
    exact ih fun hc => h (by simp [hc])

theorem findAll_drop (lit : List Char) : ∀ (k : Nat) (s : List Char), findAll lit k s = findAll lit 0 (s.drop k)
  | 0, s => rfl
  | k + 1, [] => rfl
  | k + 1, c :: s => by
    rw [List.drop_succ_cons, ← findAll_drop lit k s]
    rfl

/-- A number is found. -/
theorem findAll_hit {c : Char} {lit : List Char} (sp : List Char) (hsp : ∀ x ∈ sp, space x = true) (n : Nat) (r : List Char) :
    findAll (c :: lit) 0 (c :: lit ++ sp ++ ": ".toList ++ decText n ++ '\n' :: r) = decText n :: findAll (c :: lit) 0 ('\n' :: r) := by
  have hd : ∀ x ∈ decText n, x.isDigit = true := fun x hx => digits_decText n x hx
  have hm : matchAt (c :: lit) (c :: lit ++ sp ++ ": ".toList ++ decText n ++ '\n' :: r) = some (decText n, '\n' :: r) := by
    unfold matchAt
    rw [if_pos (by simp [List.isPrefixOf_iff_prefix, List.append_assoc])]
    have h1 : (c :: lit ++ sp ++ ": ".toList ++ decText n ++ '\n' :: r).drop (c :: lit).length =
        sp ++ (": ".toList ++ decText n ++ '\n' :: r) := by
      simp only [List.append_assoc]
      exact List.drop_left ..
    have h2 : (sp ++ (": ".toList ++ decText n ++ '\n' :: r)).dropWhile space = ':' :: ((' ' :: decText n) ++ '\n' :: r) := by
      rw [List.dropWhile_append_of_pos hsp]
      rfl
    rw [h1, h2]
    obtain ⟨x, xs, hx⟩ : ∃ x xs, decText n = x :: xs := by
      cases h : decText n with
      | nil => exact absurd h Nat.toDigits_ne_nil
      | cons x xs => exact ⟨x, xs, rfl⟩
    have hxd : x.isDigit = true := hd x (by rw [hx]; simp)
    have h3 : ((' ' :: decText n) ++ '\n' :: r).dropWhile space = decText n ++ '\n' :: r := by
      rw [List.cons_append, List.dropWhile_cons_of_pos (by decide), hx, List.cons_append, List.dropWhile_cons_of_neg]
      intro hs
      unfold space at hs
      simp only [Bool.decide_or, Bool.or_eq_true, decide_eq_true_eq] at hs
      simp only [Char.isDigit, Bool.and_eq_true, decide_eq_true_eq] at hxd
      have h48 : 48 ≤ x.toNat := by
        have := hxd.1
        exact this
      rcases hs with rfl | rfl | rfl | rfl | h | h
      · simp at h48
      · simp at h48
      · simp at h48
      · simp at h48
      · omega
      · omega
    show (if (((' ' :: decText n) ++ '\n' :: r).dropWhile space).takeWhile Char.isDigit = [] then none else
      some ((((' ' :: decText n) ++ '\n' :: r).dropWhile space).takeWhile Char.isDigit,
        (((' ' :: decText n) ++ '\n' :: r).dropWhile space).dropWhile Char.isDigit)) = _
    rw [h3]
    have h4 : (decText n ++ '\n' :: r).takeWhile Char.isDigit = decText n := by
      rw [List.takeWhile_append_of_pos hd, List.takeWhile_cons_of_neg (by decide), List.append_nil]
    have h5 : (decText n ++ '\n' :: r).dropWhile Char.isDigit = '\n' :: r := by
      rw [List.dropWhile_append_of_pos hd, List.dropWhile_cons_of_neg (by decide)]
    rw [h4, h5, if_neg Nat.toDigits_ne_nil]
  have hne : c :: lit ++ sp ++ ": ".toList ++ decText n ++ '\n' :: r = c :: (lit ++ sp ++ ": ".toList ++ decText n ++ '\n' :: r) := by simp
  rw [hne] at hm ⊢
  rw [findAll, hm]
  dsimp only
  rw [findAll_drop]
  congr 2
  have : lit ++ sp ++ ": ".toList ++ decText n ++ '\n' :: r = (lit ++ sp ++ ": ".toList ++ decText n) ++ '\n' :: r := by simp
  rw [this, List.length_append]
  rw [Nat.add_sub_cancel]
  exact List.drop_left ..

theorem not_mem_decText {c : Char} (h : c.isDigit = false) (n : Nat) : c ∉ decText n := fun hc => by
  have : c.isDigit = true := digits_decText n c hc
  rw [h] at this
  cases this

theorem not_mem_intText {c : Char} (h : c.isDigit = false) (h2 : c ≠ '-') (v : Int) : c ∉ intText v := by
  unfold intText
  split_ifs
  · simp [h2, not_mem_decText h]
  · exact not_mem_decText h _

theorem not_mem_percent {c : Char} (h : c.isDigit = false) (h2 : c ≠ '.') {q : ℚ} {t : List Char} (ht : Percent q t) : c ∉ t := by
  obtain ⟨k, -, rfl⟩ := ht
  have hd : ∀ j, c ≠ Nat.digitChar (j % 10) := by
    rintro j rfl
    have : ∀ i < 10, (Nat.digitChar i).isDigit = true := by decide
    rw [this _ (Nat.mod_lt _ (by decide))] at h
    cases h
  simp [not_mem_decText h, h2, hd]

/-- The lines about the classes have no match. -/
theorem findAll_classes (lit : List Char) (h : lit ∈ ["data number".toList, "dimension".toList, "class num".toList]) (table : List (Int × Nat)) :
    findAll lit 0 (unlines (table.map fun c => "data number of class ".toList ++ intText c.1 ++ " : ".toList ++ decText c.2)) = [] := by
  induction table with
  | nil =>
    simp only [List.mem_cons, List.not_mem_nil, or_false] at h
    rcases h with rfl | rfl | rfl <;> rfl
  | cons c table ih =>
    rw [List.map_cons, unlines, List.flatMap_cons]
    change findAll lit 0 (_ ++ unlines _) = []
    generalize unlines (table.map fun c => "data number of class ".toList ++ intText c.1 ++ " : ".toList ++ decText c.2) = rest at ih
    have key : ∀ x : Char, x.isDigit = false → x ≠ '-' → x ≠ ' ' → x ≠ ':' → x ≠ '\n' →
        x ∉ intText c.1 ++ " : ".toList ++ decText c.2 ++ ['\n'] := by
      intro x h1 h2 h3 h4 h5
      simp [not_mem_intText h1 h2, not_mem_decText h1, h3, h4, h5]
    have e : "data number of class ".toList ++ intText c.1 ++ " : ".toList ++ decText c.2 ++ ['\n'] ++ rest =
        "data number of class ".toList ++ ((intText c.1 ++ " : ".toList ++ decText c.2 ++ ['\n']) ++ rest) := by simp
    rw [e]
    have hmid : intText c.1 ++ " : ".toList ++ decText c.2 ++ ['\n'] ≠ [] := by simp
    generalize intText c.1 ++ " : ".toList ++ decText c.2 ++ ['\n'] = mid at key hmid
    simp only [List.mem_cons, List.not_mem_nil, or_false] at h
    rcases h with rfl | rfl | rfl
    · refine Eq.trans ?_ ((findAll_skip (lit := "ata number".toList) (key 'd' (by decide) (by decide) (by decide) (by decide) (by decide)) rest).trans ih)
      rfl
    · refine Eq.trans ?_ ((findAll_skip (lit := "imension".toList) (key 'd' (by decide) (by decide) (by decide) (by decide) (by decide)) rest).trans ih)
      rfl
    · have hc := key 'c' (by decide) (by decide) (by decide) (by decide) (by decide)
      have hn := key 'n' (by decide) (by decide) (by decide) (by decide) (by decide)
      obtain ⟨x, xs, rfl⟩ := List.exists_cons_of_ne_nil hmid
      have hx : ('n' == x) = false := by
        rw [beq_eq_false_iff_ne]
        rintro rfl
        simp at hn
      rw [show "data number of class ".toList = "data number of ".toList ++ 'c' :: "lass ".toList by decide, List.append_assoc]
      rw [show "class num".toList = 'c' :: "lass num".toList by decide, findAll_skip (by decide), List.cons_append, findAll]
      have hm : matchAt ('c' :: "lass num".toList) ('c' :: ("lass ".toList ++ (x :: xs ++ rest))) = none := by
        unfold matchAt
        rw [if_neg]
        rw [show "lass num".toList = ['l', 'a', 's', 's', ' ', 'n', 'u', 'm'] by decide, show "lass ".toList = ['l', 'a', 's', 's', ' '] by decide]
        simp only [List.cons_append, List.nil_append, List.isPrefixOf, hx, Bool.false_and, Bool.and_false, Bool.false_eq_true, not_false_eq_true]
      rw [hm]
      dsimp only
      rw [← List.append_assoc, findAll_skip (by simpa using hc)]
      exact ih

theorem findAll_found {c : Char} {lit : List Char} (hc : c ≠ '\n') (sp : List Char) (hsp : ∀ x ∈ sp, space x = true) (n : Nat) (r : List Char) :
    findAll (c :: lit) 0 ((c :: lit ++ sp ++ ": ".toList ++ decText n ++ ['\n']) ++ r) = decText n :: findAll (c :: lit) 0 r := by
  rw [List.append_assoc, List.singleton_append, findAll_hit sp hsp]
  exact congrArg _ (findAll_skip (p := ['\n']) (by simpa using hc) r)

theorem findAll_pass {d : Char} {lit v : List Char} (hv : d ∉ v) (k : Nat) (hk : k ≤ lit.length + 1) (h : ¬ (d :: v).take k <+: d :: lit)
    (r : List Char) : findAll (d :: lit) 0 ((d :: v) ++ r) = findAll (d :: lit) 0 r := by
  rw [List.cons_append, findAll]
  have hm : matchAt (d :: lit) (d :: (v ++ r)) = none := by
    unfold matchAt
    rw [if_neg]
    intro hp
    rw [List.isPrefixOf_iff_prefix] at hp
    refine h (List.prefix_of_prefix_length_le ?_ hp ?_)
    · rw [← List.cons_append]
      exact (List.take_prefix _ _).trans (List.prefix_append _ _)
    · rw [List.length_take]
      exact (min_le_left _ _).trans (by simpa using hk)
  rw [hm]
  exact findAll_skip hv r

/-- The numbers in a report are read. -/
theorem parse_report {pts : List (Tools.Pt F32)} {m : Nat} {table : List (Int × Nat)} {q : ℚ} {s : List Char} (hs : Percent q s) :
    parse (unlines (reportLines pts m table s)) = some (pts.length, m, table.length) := by
  have hcl := fun lit h => findAll_classes lit h table
  have e : unlines (reportLines pts m table s) =
      ("data number".toList ++ "  ".toList ++ ": ".toList ++ decText pts.length ++ ['\n']) ++
      (("feat number  : ".toList ++ decText (indexesOf pts).length ++ ['\n']) ++
      (("dimension".toList ++ "    ".toList ++ ": ".toList ++ decText m ++ ['\n']) ++
      (("nonzero feat : ".toList ++ decText (distinct (indexesOf pts)) ++ ['\n']) ++
      (("class num".toList ++ "    ".toList ++ ": ".toList ++ decText table.length ++ ['\n']) ++
      (("data sparsity: ".toList ++ s ++ ['%', '\n']) ++
        unlines (table.map fun c => "data number of class ".toList ++ intText c.1 ++ " : ".toList ++ decText c.2)))))) := by
    simp [unlines, reportLines]
  rw [e]
  generalize unlines (table.map fun c => "data number of class ".toList ++ intText c.1 ++ " : ".toList ++ decText c.2) = rest at hcl
  have hd := fun n => not_mem_decText (c := 'd') (by decide) n
  have hc := fun n => not_mem_decText (c := 'c') (by decide) n
  have hsd := not_mem_percent (c := 'd') (by decide) (by decide) hs
  have hsc := not_mem_percent (c := 'c') (by decide) (by decide) hs
  have h1 : findAll "data number".toList 0 (("data number".toList ++ "  ".toList ++ ": ".toList ++ decText pts.length ++ ['\n']) ++
      (("feat number  : ".toList ++ decText (indexesOf pts).length ++ ['\n']) ++
      (("dimension".toList ++ "    ".toList ++ ": ".toList ++ decText m ++ ['\n']) ++
      (("nonzero feat : ".toList ++ decText (distinct (indexesOf pts)) ++ ['\n']) ++
      (("class num".toList ++ "    ".toList ++ ": ".toList ++ decText table.length ++ ['\n']) ++
      (("data sparsity: ".toList ++ s ++ ['%', '\n']) ++ rest)))))) = [decText pts.length] := by
    have := hcl "data number".toList (by simp)
    rw [show "data number".toList = 'd' :: "ata number".toList by decide] at this ⊢
    rw [findAll_found (by decide) _ (by decide), findAll_skip (by simp [hd])]
    rw [show "dimension".toList = 'd' :: "imension".toList by decide, List.cons_append, List.cons_append, List.cons_append, List.cons_append,
      findAll_pass (by simp [hd]) 2 (by decide) (by simp), findAll_skip (by simp [hd]), findAll_skip (by simp [hd])]
    rw [show "data sparsity: ".toList = 'd' :: "ata sparsity: ".toList by decide, List.cons_append, List.cons_append,
      findAll_pass (by simp [hsd]) 6 (by decide) (by simp), this]
  have h2 : findAll "dimension".toList 0 (("data number".toList ++ "  ".toList ++ ": ".toList ++ decText pts.length ++ ['\n']) ++
      (("feat number  : ".toList ++ decText (indexesOf pts).length ++ ['\n']) ++
      (("dimension".toList ++ "    ".toList ++ ": ".toList ++ decText m ++ ['\n']) ++
      (("nonzero feat : ".toList ++ decText (distinct (indexesOf pts)) ++ ['\n']) ++
      (("class num".toList ++ "    ".toList ++ ": ".toList ++ decText table.length ++ ['\n']) ++
      (("data sparsity: ".toList ++ s ++ ['%', '\n']) ++ rest)))))) = [decText m] := by
    have := hcl "dimension".toList (by simp)
    rw [show "dimension".toList = 'd' :: "imension".toList by decide] at this ⊢
    rw [show "data number".toList = 'd' :: "ata number".toList by decide, List.cons_append, List.cons_append, List.cons_append, List.cons_append,
      findAll_pass (by simp [hd]) 2 (by decide) (by simp), findAll_skip (by simp [hd])]
    rw [findAll_found (by decide) _ (by decide), findAll_skip (by simp [hd]), findAll_skip (by simp [hd])]
    rw [show "data sparsity: ".toList = 'd' :: "ata sparsity: ".toList by decide, List.cons_append, List.cons_append,
      findAll_pass (by simp [hsd]) 2 (by decide) (by simp), this]
  have h3 : findAll "class num".toList 0 (("data number".toList ++ "  ".toList ++ ": ".toList ++ decText pts.length ++ ['\n']) ++
      (("feat number  : ".toList ++ decText (indexesOf pts).length ++ ['\n']) ++
      (("dimension".toList ++ "    ".toList ++ ": ".toList ++ decText m ++ ['\n']) ++
      (("nonzero feat : ".toList ++ decText (distinct (indexesOf pts)) ++ ['\n']) ++
      (("class num".toList ++ "    ".toList ++ ": ".toList ++ decText table.length ++ ['\n']) ++
      (("data sparsity: ".toList ++ s ++ ['%', '\n']) ++ rest)))))) = [decText table.length] := by
    have := hcl "class num".toList (by simp)
    rw [show "class num".toList = 'c' :: "lass num".toList by decide] at this ⊢
    rw [findAll_skip (by simp [hc]), findAll_skip (by simp [hc]), findAll_skip (by simp [hc]), findAll_skip (by simp [hc])]
    rw [findAll_found (by decide) _ (by decide), findAll_skip (by simp [hsc]), this]
  unfold parse
  rw [h1, h2, h3]
  simp [single, decVal_decText]

theorem plain7_report {pts : List (Tools.Pt F32)} {m : Nat} {table : List (Int × Nat)} {q : ℚ} {s : List Char} (hs : Percent q s) :
    Plain7 (unlines (reportLines pts m table s)) := by
  refine plain7_flatMap fun l hl => Plain7.append ?_ (by unfold Plain7; decide)
  have hsp : Plain7 s := by
    obtain ⟨k, -, rfl⟩ := hs
    have hd : ∀ j, Plain7 [Nat.digitChar (j % 10)] := by
      intro j
      have : ∀ i < 10, Plain7 [Nat.digitChar i] := by unfold Plain7; decide
      exact this _ (Nat.mod_lt _ (by decide))
    exact (plain7_digits (digits_decText _)).append (.cons (by decide) ((hd _).append (hd _)))
  simp only [reportLines, List.mem_append, List.mem_cons, List.not_mem_nil, or_false, List.mem_map] at hl
  rcases hl with (rfl | rfl | rfl | rfl | rfl | rfl) | ⟨c, -, rfl⟩
  · exact Plain7.append (by unfold Plain7; decide) (plain7_digits (digits_decText _))
  · exact Plain7.append (by unfold Plain7; decide) (plain7_digits (digits_decText _))
  · exact Plain7.append (by unfold Plain7; decide) (plain7_digits (digits_decText _))
  · exact Plain7.append (by unfold Plain7; decide) (plain7_digits (digits_decText _))
  · exact Plain7.append (by unfold Plain7; decide) (plain7_digits (digits_decText _))
  · exact (Plain7.append (by unfold Plain7; decide) hsp).append (by unfold Plain7; decide)
  · exact ((Plain7.append (by unfold Plain7; decide) (plain7_intText _)).append (by unfold Plain7; decide)).append (plain7_digits (digits_decText _))

theorem histogram_length {labels : List Int} {table : List (Int × Nat)} (h : Histogram labels table) :
    table.length = labels.toFinset.card := by
  have hnd : (table.map (·.1)).Nodup := h.sorted.imp fun hlt => hlt.ne
  rw [← List.length_map (·.1), ← List.toFinset_card_of_nodup hnd]
  congr 1
  ext l
  simp only [List.mem_toFinset, List.mem_map]
  constructor
  · rintro ⟨⟨l', n⟩, hm, rfl⟩
    obtain ⟨rfl, h1⟩ := (h.exact _ _).1 hm
    exact List.count_pos_iff.1 h1
  · intro hl
    exact ⟨(l, labels.count l), (h.exact _ _).2 ⟨rfl, List.count_pos_iff.2 hl⟩, rfl⟩

/-! ### Paths -/

theorem join_inj {a b c : List Char} (hb : b.head? ≠ some '/') (hc : c.head? ≠ some '/') (h : join a b = join a c) : b = c := by
  unfold join at h
  rw [if_neg hb, if_neg hc] at h
  split_ifs at h
  · exact List.append_cancel_left h
  · simpa using h

theorem join_append {a b : List Char} (hb : b ≠ []) (c : List Char) : join a b ++ c = join a (b ++ c) := by
  obtain ⟨x, xs, rfl⟩ := List.exists_cons_of_ne_nil hb
  unfold join
  simp only [List.head?_cons, List.cons_append, Option.some.injEq]
  by_cases h1 : x = '/'
  · simp only [h1, if_true, List.cons_append]
  · simp only [h1, if_false]
    split_ifs <;> simp

/-- A file of the cache directory. -/
def cached (ds : DataSet) (s : List Char) : List Char := join ds.workDir (ds.dataName ++ s)

theorem cached_inj {ds : DataSet} (hn : '/' ∉ ds.dataName) {s s' : List Char} (h1 : s.head? ≠ some '/') (h2 : s'.head? ≠ some '/')
    (h : cached ds s = cached ds s') : s = s' := by
  have key : ∀ t : List Char, t.head? ≠ some '/' → (ds.dataName ++ t).head? ≠ some '/' := by
    intro t ht
    cases hd : ds.dataName with
    | nil => exact ht
    | cons c cs =>
      rw [hd] at hn
      simp only [List.cons_append, List.head?_cons, ne_eq, Option.some.injEq]
      rintro rfl
      simp at hn
  exact List.append_cancel_left (join_inj (key s h1) (key s' h2) h)

theorem fold_cached (ds : DataSet) (fmt : Format) (i : Nat) :
    foldAt ds.foldPrefix fmt i = cached ds (".split.".toList ++ decText i ++ '.' :: typeName fmt) := by
  unfold foldAt DataSet.foldPrefix cached
  rw [List.append_assoc, join_append (by simp)]
  simp

theorem convert_cached (ds : DataSet) (type : List Char) : ds.convertPath type = cached ds ('.' :: type) := rfl
theorem info_cached (ds : DataSet) : ds.infoPath = cached ds "_info.txt".toList := rfl
theorem binary_cached (ds : DataSet) (type : List Char) : ds.binaryPath type = cached ds ("-binary.".toList ++ type) := by
  unfold DataSet.binaryPath cached
  rw [List.append_assoc]
theorem shuffle_cached (ds : DataSet) (type : List Char) : ds.shufflePath type = cached ds (".shuffle.".toList ++ type) := by
  unfold DataSet.shufflePath cached
  rw [List.append_assoc]

theorem slash_name (name path dtype : List Char) : '/' ∉ (unread name path dtype).dataName := by
  have hb : '/' ∉ basename (pathOf name path) := by
    unfold basename
    rw [List.mem_reverse]
    intro h
    have := List.all_takeWhile (p := fun x : Char => decide (x ≠ '/')) (l := (pathOf name path).reverse)
    rw [List.all_eq_true] at this
    simpa using this _ h
  show '/' ∉ root (basename (pathOf name path))
  generalize basename (pathOf name path) = b at hb
  unfold root
  split
  · exact hb
  · rename_i c pre h
    split_ifs
    · exact hb
    · intro hm
      have h1 : '/' ∈ b.reverse.dropWhile (· ≠ '.') := by
        rw [h]
        exact List.mem_cons_of_mem _ (List.mem_reverse.1 hm)
      exact hb (List.mem_reverse.1 ((List.dropWhile_suffix _).subset h1))

/-- The numbers of folds and the formats are in the names. -/
theorem fold_suffix_inj {i j : Nat} {a b : List Char} (h : ".split.".toList ++ decText i ++ '.' :: a = ".split.".toList ++ decText j ++ '.' :: b) :
    i = j ∧ a = b := by
  rw [List.append_assoc, List.append_assoc] at h
  have h := List.append_cancel_left h
  have key : ∀ (xs ys : List Char), '.' ∉ xs → '.' ∉ ys → xs ++ '.' :: a = ys ++ '.' :: b → xs = ys ∧ a = b := by
    intro xs
    induction xs with
    | nil =>
      rintro ys - hy h
      cases ys with
      | nil => simpa using h
      | cons y ys =>
        simp only [List.nil_append, List.cons_append, List.cons.injEq] at h
        simp [← h.1] at hy
    | cons x xs ih =>
      rintro ys hx hy h
      cases ys with
      | nil =>
        simp only [List.nil_append, List.cons_append, List.cons.injEq] at h
        simp [h.1] at hx
      | cons y ys =>
        simp only [List.cons_append, List.cons.injEq] at h
        obtain ⟨rfl, h⟩ := h
        obtain ⟨rfl, h2⟩ := ih ys (fun hm => hx (by simp [hm])) (fun hm => hy (by simp [hm])) h
        exact ⟨rfl, h2⟩
  obtain ⟨h1, h2⟩ := key _ _ (not_mem_decText (by decide) i) (not_mem_decText (by decide) j) h
  refine ⟨?_, h2⟩
  rw [← decVal_decText i, ← decVal_decText j, h1]

theorem typeName_inj {f g : Format} (h : typeName f = typeName g) : f = g := by
  cases f <;> cases g <;> first | rfl | (exact absurd h (by decide))

/-- The files of a cache directory. -/
inductive Slot where
  | fold (fmt : Format) (i : Nat)
  | conv (fmt : Format)
  | bin (fmt : Format)
  | shuf (fmt : Format)
  | info

def Slot.suffix : Slot → List Char
  | .fold fmt i => ".split.".toList ++ decText i ++ '.' :: typeName fmt
  | .conv fmt => '.' :: typeName fmt
  | .bin fmt => "-binary.".toList ++ typeName fmt
  | .shuf fmt => ".shuffle.".toList ++ typeName fmt
  | .info => "_info.txt".toList

def Slot.at (ds : DataSet) (s : Slot) : List Char := cached ds s.suffix

theorem suffix_head (s : Slot) : s.suffix.head? ≠ some '/' := by
  cases s <;> (unfold Slot.suffix; first | decide | (rename_i fmt; cases fmt <;> decide) | simp)

theorem fold_other {f : Format} {i : Nat} {l : List Char} (h : l.take 3 ≠ ['.', 's', 'p']) : (Slot.fold f i).suffix ≠ l := by
  rintro rfl
  apply h
  show (".split.".toList ++ decText i ++ '.' :: typeName f).take 3 = _
  rw [List.append_assoc, List.take_append_of_le_length (by decide)]
  decide

theorem suffix_inj {s u : Slot} (h : s.suffix = u.suffix) : s = u := by
  cases s with
  | fold f i =>
    cases u with
    | fold g j =>
      obtain ⟨rfl, h2⟩ := fold_suffix_inj h
      rw [typeName_inj h2]
    | conv g => exact absurd h (fold_other (by cases g <;> decide))
    | bin g => exact absurd h (fold_other (by cases g <;> decide))
    | shuf g => exact absurd h (fold_other (by cases g <;> decide))
    | info => exact absurd h (fold_other (by decide))
  | conv f =>
    cases u with
    | fold g j => exact absurd h.symm (fold_other (by cases f <;> decide))
    | conv g => cases f <;> cases g <;> first | rfl | (exact absurd h (by decide))
    | bin g => cases f <;> cases g <;> exact absurd h (by decide)
    | shuf g => cases f <;> cases g <;> exact absurd h (by decide)
    | info => cases f <;> exact absurd h (by decide)
  | bin f =>
    cases u with
    | fold g j => exact absurd h.symm (fold_other (by cases f <;> decide))
    | conv g => cases f <;> cases g <;> exact absurd h (by decide)
    | bin g => cases f <;> cases g <;> first | rfl | (exact absurd h (by decide))
    | shuf g => cases f <;> cases g <;> exact absurd h (by decide)
    | info => cases f <;> exact absurd h (by decide)
  | shuf f =>
    cases u with
    | fold g j => exact absurd h.symm (fold_other (by cases f <;> decide))
    | conv g => cases f <;> cases g <;> exact absurd h (by decide)
    | bin g => cases f <;> cases g <;> exact absurd h (by decide)
    | shuf g => cases f <;> cases g <;> first | rfl | (exact absurd h (by decide))
    | info => cases f <;> exact absurd h (by decide)
  | info =>
    cases u with
    | fold g j => exact absurd h.symm (fold_other (by decide))
    | conv g => cases g <;> exact absurd h (by decide)
    | bin g => cases g <;> exact absurd h (by decide)
    | shuf g => cases g <;> exact absurd h (by decide)
    | info => rfl

theorem at_inj {ds : DataSet} (hn : '/' ∉ ds.dataName) {s u : Slot} (h : s.at ds = u.at ds) : s = u :=
  suffix_inj (cached_inj hn (suffix_head s) (suffix_head u) h)

/-! ### Files written -/

theorem after_other {fs : Files} {out : List (List Char × File)} {p : List Char} (h : p ∉ out.map (·.1)) : fs.after out p = fs p := by
  induction out generalizing fs with
  | nil => rfl
  | cons o out ih =>
    simp only [List.map_cons, List.mem_cons, not_or] at h
    show Files.after _ out p = _
    rw [ih h.2]
    exact if_neg h.1

theorem after_written {fs : Files} {out : List (List Char × File)} (hnd : (out.map (·.1)).Nodup) {p : List Char} {f : File} (h : (p, f) ∈ out) :
    fs.after out p = some f := by
  induction out generalizing fs with
  | nil => simp at h
  | cons o out ih =>
    rw [List.map_cons, List.nodup_cons] at hnd
    show Files.after _ out p = _
    rcases List.mem_cons.1 h with rfl | h
    · rw [after_other hnd.1]
      exact if_pos rfl
    · exact ih hnd.2 h

end Sol.DataSet
