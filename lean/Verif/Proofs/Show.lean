import Verif.Model.Show
import Verif.Spec.Show
import Verif.Proofs.StrUtil
import Mathlib.Data.List.Perm.Basic
/-! The list of classes. -/

namespace Sol.Show

open Sol.StrUtil Sol.Spec

variable {I : Type}

theorem keyLe_total : ∀ a b : List Char, keyLe a b = false → keyLe b a = true
  | [], _, h => by simp [keyLe] at h
  | _ :: _, [], _ => rfl
  | a :: s, b :: t, h => by
    simp only [keyLe, Bool.or_eq_false_iff, decide_eq_false_iff_not, Nat.not_lt, Bool.and_eq_false_imp, beq_iff_eq] at h
    simp only [keyLe, Bool.or_eq_true, decide_eq_true_eq, Bool.and_eq_true, beq_iff_eq]
    rcases Nat.lt_or_eq_of_le h.1 with h1 | h1
    · exact .inl h1
    · have e : b = a := by
        have := congrArg Char.ofNat h1
        simpa using this
      exact .inr ⟨e, keyLe_total s t (h.2 e.symm)⟩

theorem keyLe_antisymm : ∀ a b : List Char, keyLe a b = true → keyLe b a = true → a = b
  | [], [], _, _ => rfl
  | [], _ :: _, _, h => by simp [keyLe] at h
  | _ :: _, [], h, _ => by simp [keyLe] at h
  | a :: s, b :: t, h1, h2 => by
    simp only [keyLe, Bool.or_eq_true, decide_eq_true_eq, Bool.and_eq_true, beq_iff_eq] at h1 h2
    rcases h1 with h1 | ⟨rfl, h1⟩
    · rcases h2 with h2 | ⟨rfl, h2⟩ <;> omega
    · rcases h2 with h2 | ⟨-, h2⟩
      · omega
      · rw [keyLe_antisymm s t h1 h2]

theorem keyLe_trans : ∀ a b c : List Char, keyLe a b = true → keyLe b c = true → keyLe a c = true
  | [], _, _, _, _ => rfl
  | _ :: _, [], _, h, _ => by simp [keyLe] at h
  | _ :: _, _ :: _, [], _, h => by simp [keyLe] at h
  | a :: s, b :: t, c :: u, h1, h2 => by
    simp only [keyLe, Bool.or_eq_true, decide_eq_true_eq, Bool.and_eq_true, beq_iff_eq] at h1 h2 ⊢
    rcases h1 with h1 | ⟨rfl, h1⟩ <;> rcases h2 with h2 | ⟨rfl, h2⟩
    · exact .inl (by omega)
    · exact .inl h1
    · exact .inl h2
    · exact .inr ⟨rfl, keyLe_trans s t u h1 h2⟩

theorem insertKey_perm (e : List Char × I) : ∀ m : Registry I, (insertKey e m).Perm (e :: m)
  | [] => .refl _
  | f :: m => by
    unfold insertKey
    split
    · exact .refl _
    · exact ((insertKey_perm e m).cons f).trans (.swap e f m)

theorem ordered_perm : ∀ m : Registry I, (ordered m).Perm m
  | [] => .refl _
  | e :: m => (insertKey_perm e _).trans ((ordered_perm m).cons e)

theorem insertKey_sorted (e : List Char × I) : ∀ m : Registry I, m.Pairwise (fun a b => keyLe a.1 b.1 = true) →
    (insertKey e m).Pairwise fun a b => keyLe a.1 b.1 = true
  | [], _ => by simp [insertKey]
  | f :: m, h => by
    obtain ⟨h1, h2⟩ := List.pairwise_cons.1 h
    unfold insertKey
    split
    · rename_i hle
      refine List.pairwise_cons.2 ⟨fun b hb => ?_, h⟩
      rcases List.mem_cons.1 hb with rfl | hb
      · exact hle
      · exact keyLe_trans _ _ _ hle (h1 b hb)
    · rename_i hle
      refine List.pairwise_cons.2 ⟨fun b hb => ?_, insertKey_sorted e m h2⟩
      rcases List.mem_cons.1 ((insertKey_perm e m).mem_iff.1 hb) with rfl | hb
      · exact keyLe_total _ _ (by simpa using hle)
      · exact h1 b hb

theorem ordered_sorted : ∀ m : Registry I, (ordered m).Pairwise fun a b => keyLe a.1 b.1 = true
  | [] => .nil
  | e :: m => insertKey_sorted e _ (ordered_sorted m)

/-- Two ordered lists with the same entries under different keys are equal. -/
theorem sorted_unique : ∀ m n : Registry I, m.Perm n → m.Pairwise (fun a b => keyLe a.1 b.1 = true) →
    n.Pairwise (fun a b => keyLe a.1 b.1 = true) → (m.Pairwise fun a b => a.1 ≠ b.1) → m = n
  | [], n, h, _, _, _ => (List.nil_perm.1 h).symm
  | a :: m, [], h, _, _, _ => absurd h (by simp)
  | a :: m, b :: n, h, hm, hn, hd => by
    obtain ⟨hm1, hm2⟩ := List.pairwise_cons.1 hm
    obtain ⟨hn1, hn2⟩ := List.pairwise_cons.1 hn
    obtain ⟨hd1, hd2⟩ := List.pairwise_cons.1 hd
    have hab : a = b := by
      rcases List.mem_cons.1 (h.mem_iff.2 (List.mem_cons_self (a := b) (l := n))) with e | hb
      · exact e.symm
      · rcases List.mem_cons.1 (h.mem_iff.1 (List.mem_cons_self (a := a) (l := m))) with e | ha
        · exact e
        · exact absurd (keyLe_antisymm _ _ (hm1 b hb) (hn1 a ha)) (hd1 b hb)
    subst hab
    rw [sorted_unique m n ((List.perm_cons a).1 h) hm2 hn2 hd2]

theorem ordered_unique {m n : Registry I} (h : m.Perm n) (hd : m.Pairwise fun a b => a.1 ≠ b.1) : ordered m = ordered n :=
  sorted_unique _ _ ((ordered_perm m).trans (h.trans (ordered_perm n).symm)) (ordered_sorted m) (ordered_sorted n)
    (((ordered_perm m).pairwise_iff fun h => h.symm).2 hd)

/-- What the registry holds. -/
theorem registerAll_perm : ∀ (rs : List (List Char × I)) (m m' : Registry I), (∀ r ∈ rs, Ascii r.1) → registerAll m rs = .ok (some m') →
    m'.Perm (rs.map (fun r => (r.1.map Char.toLower, r.2)) ++ m) ∧
      (m.Pairwise (fun a b => a.1 ≠ b.1) → m'.Pairwise fun a b => a.1 ≠ b.1)
  | [], m, m', _, h => by
    simp only [registerAll, Res.ok.injEq, Option.some.injEq] at h
    subst h
    exact ⟨.refl _, fun h => h⟩
  | r :: rs, m, m', ha, h => by
    rw [registerAll] at h
    unfold register at h
    rw [lower_ascii (ha r (by simp))] at h
    simp only [Res.bind_ok] at h
    cases hf : find m (r.1.map Char.toLower) with
    | some _ => rw [hf] at h; simp at h
    | none =>
      rw [hf] at h
      simp only [Res.bind_ok] at h
      obtain ⟨h1, h2⟩ := registerAll_perm rs _ m' (fun r hr => ha r (by simp [hr])) h
      refine ⟨h1.trans ?_, fun hm => h2 (List.pairwise_cons.2 ⟨fun b hb e => ?_, hm⟩)⟩
      · simp only [List.map_cons, List.cons_append]
        exact List.perm_middle
      · unfold find at hf
        have := List.find?_eq_none.1 (Option.map_eq_none_iff.1 hf) b hb
        simp only [beq_iff_eq] at this
        exact this e.symm

theorem perm_of_map {A B : Type} {f : A → B} {l k : List B} (h : l.Perm k) : ∀ rs : List A, k = rs.map f → ∃ rs' : List A, rs'.Perm rs ∧ l = rs'.map f := by
  induction h with
  | nil => intro rs e; exact ⟨[], by rw [List.map_eq_nil_iff.1 e.symm], rfl⟩
  | cons x _ ih =>
    intro rs e
    obtain ⟨a, t, rfl, rfl, e2⟩ := List.map_eq_cons_iff.1 e.symm
    obtain ⟨t', h1, h2⟩ := ih t e2.symm
    exact ⟨a :: t', h1.cons a, by simp [h2]⟩
  | swap x y l =>
    intro rs e
    obtain ⟨a, t, rfl, rfl, e2⟩ := List.map_eq_cons_iff.1 e.symm
    obtain ⟨b, u, rfl, rfl, rfl⟩ := List.map_eq_cons_iff.1 e2
    exact ⟨b :: a :: u, .swap a b u, rfl⟩
  | trans _ _ ih1 ih2 =>
    intro rs e
    obtain ⟨rs1, h1, h2⟩ := ih2 rs e
    obtain ⟨rs2, h3, h4⟩ := ih1 rs1 h2
    exact ⟨rs2, h3.trans h1, h4⟩

theorem pieces_snoc {d : Char} {s t : List Char} {ps : List (List Char)} (h : Pieces d s ps) (ht : t ≠ []) (hd : d ∉ t) :
    Pieces d (s ++ d :: t) (ps ++ [t]) := by
  induction h with
  | done g hg =>
    have := Pieces.last (d := d) (g ++ [d]) t (by simpa [or_imp, forall_and] using hg) ht hd
    simpa using this
  | last g p hg hp hd' =>
    have := Pieces.more (d := d) g p t [t] hg hp hd' (by simpa using Pieces.last (d := d) [] t (by simp) ht hd)
    simpa using this
  | more g p t' ps hg hp hd' _ ih =>
    have := Pieces.more (d := d) g p _ _ hg hp hd' ih
    simpa using this

theorem split_snoc {d : Char} (s : List Char) {t : List Char} (ht : t ≠ []) (hd : d ∉ t) : split d (s ++ d :: t) = split d s ++ [t] :=
  split_of_pieces (pieces_snoc (pieces_split d _ s le_rfl) ht hd)

theorem split_one {d : Char} {s : List Char} (hs : s ≠ []) (hd : d ∉ s) : split d s = [s] :=
  split_of_pieces (by simpa using Pieces.last (d := d) [] s (by simp) hs hd)

theorem suffix_lower (k : StrUtil.Kind) : (suffix k).map Char.toLower = '_' :: groupName k := by cases k <;> decide

theorem groupName_ok (k : StrUtil.Kind) : groupName k ≠ [] ∧ '_' ∉ groupName k := by cases k <;> decide

theorem groupName_inj {k k' : StrUtil.Kind} (h : groupName k = groupName k') : k = k' := by
  revert h
  cases k <;> cases k' <;> decide

theorem toLower_underscore {c : Char} (hc : c.toNat < 128) (h : c.toLower = '_') : c = '_' := by
  have key : ∀ n, n < 128 → (Char.ofNat n).toLower = '_' → Char.ofNat n = '_' := by decide +kernel
  have := key c.toNat hc
  rw [Char.ofNat_toNat] at this
  exact this h

/-- The lines for entries whose keys are made of names and kinds. -/
theorem listing_ok (descr : I → List Char) (k : StrUtil.Kind) : ∀ (rs : List (StrUtil.Kind × List Char × I)), (∀ r ∈ rs, Ascii r.2.1) →
    (∀ r ∈ rs, r.1 = k → r.2.1 ≠ [] ∧ '_' ∉ r.2.1) →
    listing descr (groupName k) (rs.map fun r => ((r.2.1 ++ suffix r.1).map Char.toLower, r.2.2))
      = .ok ((rs.filter fun r => r.1 = k).map fun r => entryLine r.2.1 (descr r.2.2))
  | [], _, _ => rfl
  | r :: rs, ha, hk => by
    have ih := listing_ok descr k rs (fun r hr => ha r (by simp [hr])) fun r hr => hk r (by simp [hr])
    have hs : split '_' ((r.2.1 ++ suffix r.1).map Char.toLower) = split '_' (r.2.1.map Char.toLower) ++ [groupName r.1] := by
      rw [List.map_append, suffix_lower, split_snoc _ (groupName_ok _).1 (groupName_ok _).2]
    rw [List.map_cons, listing]
    simp only [hs, ih]
    by_cases hr : r.1 = k
    · have h1 := hk r (by simp) hr
      have h2 : split '_' (r.2.1.map Char.toLower) = [r.2.1.map Char.toLower] := split_one (by simpa using h1.1) (by
        intro hm
        obtain ⟨c, hc, e⟩ := List.mem_map.1 hm
        exact h1.2 (toLower_underscore (ha r (by simp) c hc) e ▸ hc))
      rw [h2, hr]
      simp [hr, entryLine, List.getLastD]
    · have h3 : groupName r.1 ≠ groupName k := fun h => hr (groupName_inj h)
      cases hp : split '_' (r.2.1.map Char.toLower) with
      | nil => simp [hr, h3]
      | cons p ps =>
        have h4 : (p :: (ps ++ [groupName r.1])).getLast? = some (groupName r.1) := by
          rw [← List.cons_append, List.getLast?_concat]
        simp [hr, h3, List.getLastD_eq_getLast?, h4]

end Sol.Show
