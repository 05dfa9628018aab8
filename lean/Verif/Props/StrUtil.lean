import Verif.Proofs.StrUtil
/-! # C52: string helpers and class lookup -/

namespace Sol.Props

open Sol.StrUtil Sol.Spec

/-- **C52** (splitting): `split` gives the maximal separator-free pieces in order, none of them empty, and nothing else does. -/
theorem C52_split (d : Char) (s : List Char) (ps : List (List Char)) : split d s = ps ↔ Pieces d s ps :=
  ⟨fun h => h ▸ pieces_split d s.length s le_rfl, split_of_pieces⟩

/-- **C52**: joining non-empty separator-free pieces and splitting again gives the pieces back. -/
theorem C52_split_join (d : Char) (ps : List (List Char)) (h : ∀ p ∈ ps, p ≠ [] ∧ d ∉ p) :
    split d ([d].intercalate ps) = ps := by
  rw [C52_split]
  induction ps with
  | nil => exact .done _ (by simp)
  | cons p ps ih =>
    cases ps with
    | nil =>
      have := Pieces.last (d := d) [] p (by simp) (h p (by simp)).1 (h p (by simp)).2
      simpa [List.intercalate] using this
    | cons q ps =>
      have := Pieces.more (d := d) [] p _ _ (by simp) (h p (by simp)).1 (h p (by simp)).2 (ih fun a ha => h a (by simp [ha]))
      simpa [List.intercalate] using this

/-- **C52** (stripping): the text up to the first blank, without the blanks before it. -/
theorem C52_strip (g p t : List Char) (hg : ∀ c ∈ g, c = ' ' ∨ c = '\t') (hp : ∀ c ∈ p, c ≠ ' ' ∧ c ≠ '\t')
    (ht : ∀ c ∈ t.head?, c = ' ' ∨ c = '\t') (he : p = [] → t = []) : strip (g ++ p ++ t) = p := by
  unfold strip
  have e1 : (g ++ p ++ t).dropWhile stripped = p ++ t := by
    rw [List.append_assoc]
    refine Sol.PreProcess.dropWhile_app (fun c hc => by rcases hg c hc with rfl | rfl <;> rfl) ?_
    intro c hc
    cases p with
    | nil => rw [he rfl] at hc; simp at hc
    | cons a p =>
      simp only [List.cons_append, List.head?_cons, Option.mem_def, Option.some.injEq] at hc
      subst hc
      have := hp a (by simp)
      simp [stripped, this.1, this.2]
  rw [e1]
  refine Sol.PreProcess.takeWhile_app (fun c hc => ?_) (fun c hc => ?_)
  · have := hp c hc
    simp [stripped, this.1, this.2]
  · rcases ht c hc with rfl | rfl <;> rfl

/-- **C52** (lower case, ASCII text): every character is replaced by its lower-case form, which differs only for `A` … `Z`;
    lowering once more changes nothing. -/
theorem C52_lower_partial (s : List Char) (hs : Ascii s) :
    ∃ t, lower s = .ok t ∧ lower t = .ok t ∧ t.length = s.length ∧
      ∀ i (h : i < s.length) (h' : i < t.length),
        (('A' ≤ s[i] ∧ s[i] ≤ 'Z') → t[i].toNat = s[i].toNat + 32) ∧ (¬ ('A' ≤ s[i] ∧ s[i] ≤ 'Z') → t[i] = s[i]) := by
  refine ⟨s.map Char.toLower, lower_ascii hs, ?_, by simp, ?_⟩
  · rw [lower_ascii]
    · rw [List.map_map]
      congr 1
      refine List.map_congr_left fun c hc => ?_
      exact (toLower_ascii (hs c hc)).2
    · intro c hc
      obtain ⟨a, ha, rfl⟩ := List.mem_map.1 hc
      exact (toLower_ascii (hs a ha)).1
  · intro i h h'
    have key : ∀ n, n < 128 → (('A' ≤ Char.ofNat n ∧ Char.ofNat n ≤ 'Z') → (Char.ofNat n).toLower.toNat = (Char.ofNat n).toNat + 32) ∧
        (¬ ('A' ≤ Char.ofNat n ∧ Char.ofNat n ≤ 'Z') → (Char.ofNat n).toLower = Char.ofNat n) := by decide +kernel
    have := key s[i].toNat (hs _ (List.getElem_mem h))
    rw [Char.ofNat_toNat] at this
    simpa using this

/-- **C52** is violated: for a byte above 127 (here `É` in Latin-1), `tolower` gets a negative number, which is undefined. -/
theorem C52_is_violated : lower ['S', Char.ofNat 201] = .ub .outOfBounds := by decide +kernel

variable {I : Type}

/-- **C52** (lookup): after registering classes under names that differ by more than case, `CreateObject` finds for a name exactly the
    class registered under that name, whatever the case of either, and nothing for other names. -/
theorem C52_lookup (rs : List (List Char × I)) (ha : ∀ r ∈ rs, Ascii r.1) (hd : rs.Pairwise fun a b => ¬ SameWord a.1 b.1) :
    ∃ m, registerAll [] rs = .ok (some m) ∧ ∀ name, Ascii name → ∃ found, createObject m name = .ok found ∧
      ∀ i, found = some i ↔ ∃ r ∈ rs, SameWord r.1 name ∧ r.2 = i := by
  obtain ⟨m, h1, h2⟩ := registerAll_ok rs ha hd [] (fun _ _ => rfl)
  refine ⟨m, h1, fun name hn => ⟨find m (name.map Char.toLower), ?_, ?_⟩⟩
  · unfold createObject
    rw [lower_ascii hn]
    rfl
  · intro i
    have h0 : find ([] : Registry I) (name.map Char.toLower) = none := rfl
    rw [h2, h0, Option.or_none]
    constructor
    · intro h
      obtain ⟨r, hr, rfl⟩ := Option.map_eq_some_iff.1 h
      exact ⟨r, List.mem_of_find?_eq_some hr, by simpa [SameWord] using List.find?_some hr, rfl⟩
    · rintro ⟨r, hr, hs, rfl⟩
      cases hf : rs.find? (fun r => r.1.map Char.toLower == name.map Char.toLower) with
      | none =>
        have := List.find?_eq_none.1 hf r hr
        exact absurd hs (by simpa [SameWord] using this)
      | some q =>
        have hq := List.mem_of_find?_eq_some hf
        have hqs : SameWord q.1 r.1 := by
          have h3 : SameWord q.1 name := by simpa [SameWord] using List.find?_some hf
          exact Eq.trans h3 (Eq.symm hs)
        have : q = r := by
          by_contra hne
          obtain ⟨i1, hi1, rfl⟩ := List.mem_iff_getElem.1 hq
          obtain ⟨i2, hi2, rfl⟩ := List.mem_iff_getElem.1 hr
          rcases Nat.lt_trichotomy i1 i2 with h | h | h
          · exact List.pairwise_iff_getElem.1 hd i1 i2 hi1 hi2 h hqs
          · subst h; exact hne rfl
          · exact List.pairwise_iff_getElem.1 hd i2 i1 hi2 hi1 h (Eq.symm hqs)
        simp [this]

/-- **C52** (a name taken): registering a second class under a name that differs only in case ends the program. -/
theorem C52_duplicate (m : Registry I) (a b : List Char) (i j : I) (ha : Ascii a) (hb : Ascii b) (h : SameWord a b)
    (m' : Registry I) (h1 : register m a i = .ok (some m')) : register m' b j = .ok none := by
  unfold register at h1 ⊢
  rw [lower_ascii ha, Res.bind_ok] at h1
  cases hf : find m (a.map Char.toLower) with
  | some _ => rw [hf] at h1; simp at h1
  | none =>
    rw [hf] at h1
    simp only [Res.ok.injEq, Option.some.injEq] at h1
    subst h1
    rw [lower_ascii hb, Res.bind_ok, find_cons, if_pos (by exact h)]

theorem library_names : (∀ r ∈ registrations, Ascii r.1) ∧ registrations.Pairwise fun a b => ¬ SameWord a.1 b.1 := by
  decide +kernel

/-- **C52** (the library): its registrations do not clash, so the program starts, whatever the order in which the objects are
    initialised; a lookup of any kind finds the class registered for that kind under the name, in any case, and no other. -/
theorem C52_library (rs : List (List Char × Kind × String)) (hp : rs.Perm registrations) :
    ∃ m, registerAll [] rs = .ok (some m) ∧ ∀ k name, Ascii name → ∃ found, create m k name = .ok found ∧
      ∀ k' cls, found = some (k', cls) ↔ k' = k ∧ ∃ n, (k, n, cls) ∈ library ∧ SameWord n.toList name := by
  obtain ⟨m, h1, h2⟩ := C52_lookup rs (fun r hr => library_names.1 r (hp.mem_iff.1 hr))
    ((hp.pairwise_iff (fun h h' => h (Eq.symm h'))).2 library_names.2)
  refine ⟨m, h1, fun k name hn => ?_⟩
  obtain ⟨found, h3, h4⟩ := h2 (name ++ suffix k) (by
    intro c hc
    rcases List.mem_append.1 hc with hc | hc
    · exact hn c hc
    · have : ∀ k, Ascii (suffix k) := by intro k; cases k <;> decide +kernel
      exact this k c hc)
  have hsuf : ∀ k k' : Kind, ∀ a b : List Char, SameWord (a ++ suffix k) (b ++ suffix k') → k = k' ∧ SameWord a b := by
    intro k k' a b h
    unfold SameWord at h
    simp only [List.map_append] at h
    have hl := congrArg (fun l => l.getLast?) h
    have hl2 := congrArg (fun l => (l.reverse.drop 3).head?) h
    have hk : k = k' := by
      cases k <;> cases k' <;> first | rfl | (exfalso; revert hl hl2; simp [suffix])
    subst hk
    exact ⟨rfl, List.append_cancel_right h⟩
  refine ⟨found, h3, fun k' cls => (h4 (k', cls)).trans ?_⟩
  constructor
  · rintro ⟨r, hr, hs, he⟩
    obtain ⟨e, he1, rfl⟩ := List.mem_map.1 (hp.mem_iff.1 hr)
    simp only [Prod.mk.injEq] at he
    obtain ⟨rfl, rfl⟩ := he
    obtain ⟨rfl, h5⟩ := hsuf _ _ _ _ hs
    exact ⟨rfl, e.2.1, he1, h5⟩
  · rintro ⟨rfl, n, hn1, hn2⟩
    refine ⟨_, hp.mem_iff.2 (List.mem_map.2 ⟨_, hn1, rfl⟩), ?_, rfl⟩
    unfold SameWord at hn2 ⊢
    simp only [List.map_append, hn2]

/-! ### Instances -/

theorem C52_instance_split : split ';' ";12;;-7;x y;".toList = ["12".toList, "-7".toList, "x y".toList] := by decide +kernel
theorem C52_instance_strip : strip " \t12 34".toList = "12".toList := by decide +kernel
theorem C52_instance_lower : lower "Ada-RDA_[Z".toList = .ok "ada-rda_[z".toList := by decide +kernel

theorem C52_instance_library :
    (do
      match ← registerAll [] registrations with
      | none => .ok []
      | some m => do
        let a ← create m .model "OGD".toList
        let b ← create m .reader "SvM".toList
        let c ← create m .loss "ogd".toList
        .ok [a, b, c]) = Res.ok [some (.model, "OGD"), some (.reader, "SVMReader"), none] := by decide +kernel

theorem C52_instance_duplicate : registerAll [] [("Svm".toList, 1), ("sVm".toList, 2)] = .ok none := by decide +kernel

end Sol.Props
