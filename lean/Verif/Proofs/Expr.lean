import Mathlib.Data.List.Forall2
import Mathlib.Tactic.Set
import Verif.Spec.Expr
import Verif.Model.Statements
import Verif.Model.Select
import Verif.Proofs.Sparse
/-! Evaluation of vector expressions: element by element, from the old values. -/

namespace Sol.Expr

open Sol.Sparse Sol.Spec

variable {α : Type}

/-! ### Single elements -/

theorem at_iff {M : Mem α} {i : Nat} {e : Flat α} {a : α} : e.at M i = .ok a ↔ Elem M i e a := by
  induction e generalizing a with
  | scalar b =>
    simp only [Flat.at, Res.ok.injEq]
    constructor
    · rintro rfl; exact .scalar _
    · rintro ⟨⟩; rfl
  | mat h =>
    constructor
    · intro hh
      simp only [Flat.at] at hh
      split at hh
      · cases hh
      · rename_i m hm
        exact .mat ⟨m, hm, lget_eq_ok.1 hh⟩
    · rintro ⟨⟩
      rename_i hh
      obtain ⟨m, hm, hh⟩ := hh
      simp only [Flat.at, hm]
      exact lget_eq_ok.2 hh
  | un f e ih =>
    simp only [Flat.at, Res.bind_eq_ok, Res.ok.injEq]
    constructor
    · rintro ⟨b, h1, rfl⟩; exact .un (ih.1 h1)
    · rintro ⟨⟩
      rename_i b h1
      exact ⟨b, ih.2 h1, rfl⟩
  | bin f l r ihl ihr =>
    simp only [Flat.at, Res.bind_eq_ok, Res.ok.injEq]
    constructor
    · rintro ⟨b, h1, c, h2, rfl⟩; exact .bin (ihl.1 h1) (ihr.1 h2)
    · rintro ⟨⟩
      rename_i b c h1 h2
      exact ⟨b, ihl.2 h1, c, ihr.2 h2, rfl⟩

theorem elem_fun {M : Mem α} {i : Nat} {e : Flat α} {a b : α} (h1 : Elem M i e a) (h2 : Elem M i e b) : a = b :=
  Res.ok.inj ((at_iff.2 h1).symm.trans (at_iff.2 h2))

theorem elem_exists {M : Mem α} {i : Nat} {e : Flat α} (h : ∀ k ∈ mats e, ∃ a, InMat M k i a) : ∃ a, Elem M i e a := by
  induction e with
  | scalar b => exact ⟨b, .scalar b⟩
  | mat k =>
    obtain ⟨a, ha⟩ := h k (by simp [mats])
    exact ⟨a, .mat ha⟩
  | un f e ih =>
    obtain ⟨a, ha⟩ := ih h
    exact ⟨_, .un ha⟩
  | bin f l r ihl ihr =>
    obtain ⟨a, ha⟩ := ihl fun k hk => h k (by simp [mats, hk])
    obtain ⟨b, hb⟩ := ihr fun k hk => h k (by simp [mats, hk])
    exact ⟨_, .bin ha hb⟩

theorem index_ok {s : Sp α} {j i : Nat} {y : α} (h : s.vector[j]? = some (i, y)) : s.index j = .ok i := by
  simp [Sp.index, lget_eq_ok.2 h]

theorem value_iff {M : Mem α} {s : Sp α} {j i : Nat} {y a : α} (h : s.vector[j]? = some (i, y)) :
    s.value M j = .ok a ↔ SpElem M i y s a := by
  induction s generalizing a with
  | vec x =>
    simp only [Sp.vector] at h
    simp only [Sp.value, lget_eq_ok.2 h, Res.bind_ok, Res.ok.injEq]
    constructor
    · rintro rfl; exact .vec x
    · rintro ⟨⟩; rfl
  | un f s ih =>
    simp only [Sp.value, Res.bind_eq_ok, Res.ok.injEq]
    constructor
    · rintro ⟨b, h1, rfl⟩; exact .un ((ih h).1 h1)
    · rintro ⟨⟩
      rename_i b h1
      exact ⟨b, (ih h).2 h1, rfl⟩
  | left f s e ih =>
    have hi : s.index j = .ok i := index_ok h
    simp only [Sp.value, Res.bind_eq_ok, Res.ok.injEq, hi]
    constructor
    · rintro ⟨b, h1, _, rfl, c, h2, rfl⟩; exact .left ((ih h).1 h1) (at_iff.1 h2)
    · rintro ⟨⟩
      rename_i b c h1 h2
      exact ⟨b, (ih h).2 h1, i, rfl, c, at_iff.2 h2, rfl⟩
  | right f e s ih =>
    have hi : s.index j = .ok i := index_ok h
    simp only [Sp.value, Res.bind_eq_ok, Res.ok.injEq, hi]
    constructor
    · rintro ⟨_, rfl, b, h1, c, h2, rfl⟩; exact .right (at_iff.1 h1) ((ih h).1 h2)
    · rintro ⟨⟩
      rename_i b c h1 h2
      exact ⟨i, rfl, b, at_iff.2 h1, c, (ih h).2 h2, rfl⟩

theorem spElem_fun {M : Mem α} {i : Nat} {y : α} {s : Sp α} {a b : α} (h1 : SpElem M i y s a) (h2 : SpElem M i y s b) : a = b := by
  induction s generalizing a b with
  | vec x => cases h1; cases h2; rfl
  | un f s ih =>
    cases h1 with | un h1 => cases h2 with | un h2 => rw [ih h1 h2]
  | left f s e ih =>
    cases h1 with | left h1 k1 => cases h2 with | left h2 k2 => rw [ih h1 h2, elem_fun k1 k2]
  | right f e s ih =>
    cases h1 with | right k1 h1 => cases h2 with | right k2 h2 => rw [ih h1 h2, elem_fun k1 k2]

theorem spElem_exists {M : Mem α} {i : Nat} {y : α} {s : Sp α} (h : ∀ k ∈ spMats s, ∃ a, InMat M k i a) : ∃ a, SpElem M i y s a := by
  induction s with
  | vec x => exact ⟨y, .vec x⟩
  | un f s ih =>
    obtain ⟨a, ha⟩ := ih h
    exact ⟨_, .un ha⟩
  | left f s e ih =>
    obtain ⟨a, ha⟩ := ih fun k hk => h k (by simp [spMats, hk])
    obtain ⟨b, hb⟩ := elem_exists (e := e) fun k hk => h k (by simp [spMats, hk])
    exact ⟨_, .left ha hb⟩
  | right f e s ih =>
    obtain ⟨a, ha⟩ := ih fun k hk => h k (by simp [spMats, hk])
    obtain ⟨b, hb⟩ := elem_exists (e := e) fun k hk => h k (by simp [spMats, hk])
    exact ⟨_, .right hb ha⟩

/-! ### Reading is not disturbed by writing elsewhere -/

/-- Reading at `i` gives the same in both memories. -/
def Agree (i : Nat) (M M' : Mem α) : Prop := ∀ k a, InMat M k i a ↔ InMat M' k i a

theorem elem_agree {M M' : Mem α} {i : Nat} (h : Agree i M M') {e : Flat α} {a : α} : Elem M i e a ↔ Elem M' i e a := by
  have one : ∀ {M M' : Mem α}, Agree i M M' → ∀ {e : Flat α} {a : α}, Elem M i e a → Elem M' i e a := by
    intro M M' h e a he
    induction he with
    | scalar a => exact .scalar a
    | mat hm => exact .mat ((h _ _).1 hm)
    | un _ ih => exact .un ih
    | bin _ _ ih1 ih2 => exact .bin ih1 ih2
  exact ⟨one h, one fun k a => (h k a).symm⟩

theorem spElem_agree {M M' : Mem α} {i : Nat} (h : Agree i M M') {y : α} {s : Sp α} {a : α} : SpElem M i y s a ↔ SpElem M' i y s a := by
  have one : ∀ {M M' : Mem α}, Agree i M M' → ∀ {s : Sp α} {a : α}, SpElem M i y s a → SpElem M' i y s a := by
    intro M M' h s a hs
    induction hs with
    | vec x => exact .vec x
    | un _ ih => exact .un ih
    | left _ k ih => exact .left ih ((elem_agree h).1 k)
    | right k _ ih => exact .right ((elem_agree h).1 k) ih
  exact ⟨one h, one fun k a => (h k a).symm⟩

theorem put_self (M : Mem α) (h : Nat) (m : Mat α) : M.put h m h = some m := by simp [Mem.put]

theorem put_ne (M : Mem α) {h k : Nat} (m : Mat α) (hk : k ≠ h) : M.put h m k = M k := by simp [Mem.put, hk]

theorem put_put (M : Mem α) (h : Nat) (m m' : Mat α) : (M.put h m).put h m' = M.put h m' := by
  funext k
  simp only [Mem.put]
  split <;> rfl

theorem put_same {M : Mem α} {h : Nat} {m : Mat α} (hm : M h = some m) : M.put h m = M := by
  funext k
  simp only [Mem.put]
  split
  · subst_vars; exact hm.symm
  · rfl

theorem agree_put {M : Mem α} {h i : Nat} {m m' : Mat α} (hm : M h = some m) (hd : m'.data[i]? = m.data[i]?) : Agree i M (M.put h m') := by
  intro k a
  by_cases hk : k = h
  · subst hk
    simp only [InMat, hm, put_self, Option.some.injEq, exists_eq_left', hd]
  · simp only [InMat, put_ne M m' hk]

theorem modify_ok {M : Mem α} {h i : Nat} {m : Mat α} {a : α} (op : α → α → α) (v : α) (hm : M h = some m) (ha : m.data[i]? = some a) :
    modify op M h i v = .ok (M.put h { m with data := m.data.set i (op a v) }) := by
  have hi := (List.getElem?_eq_some_iff.1 ha).1
  simp only [modify, hm, lget_eq_ok.2 ha, Res.bind_ok, lset_ok _ hi]

/-! ### The dense loop -/

theorem calcLoop_spec (op : α → α → α) {h : Nat} {e : Flat α} (n : Nat) {M : Mem α} {m : Mat α} {i : Nat} (hm : M h = some m)
    (hn : i + n ≤ m.data.length) (he : ∀ k, i ≤ k → k < i + n → ∃ v, Elem M k e v) :
    ∃ d, calcLoop op h e i n M = .ok (M.put h { m with data := d }) ∧ d.length = m.data.length ∧
      (∀ k, i ≤ k → k < i + n → ∃ a v, m.data[k]? = some a ∧ Elem M k e v ∧ d[k]? = some (op a v)) ∧
      ∀ k, k < i ∨ i + n ≤ k → d[k]? = m.data[k]? := by
  induction n generalizing M m i with
  | zero => exact ⟨m.data, by rw [calcLoop, put_same hm], rfl, fun k h1 h2 => by omega, fun _ _ => rfl⟩
  | succ n ih =>
    obtain ⟨v, hv⟩ := he i (Nat.le_refl i) (by omega)
    obtain ⟨a, ha⟩ : ∃ a, m.data[i]? = some a := ⟨m.data[i]'(by omega), List.getElem?_eq_getElem _⟩
    have hi : i < m.data.length := by omega
    set m1 : Mat α := { m with data := m.data.set i (op a v) } with hm1
    have hag : ∀ k, k ≠ i → Agree k M (M.put h m1) := fun k hk => agree_put hm (by simp [hm1, List.getElem?_set, Ne.symm hk])
    obtain ⟨d, h1, h2, h3, h4⟩ := ih (M := M.put h m1) (m := m1) (i := i + 1) (put_self _ _ _) (by simp [hm1]; omega) fun k h1 h2 => by
      obtain ⟨u, hu⟩ := he k (by omega) (by omega)
      exact ⟨u, (elem_agree (hag k (by omega))).1 hu⟩
    refine ⟨d, ?_, by simpa [hm1] using h2, ?_, ?_⟩
    · rw [calcLoop, at_iff.2 hv, Res.bind_ok, modify_ok op v hm ha, Res.bind_ok, h1, put_put]
    · intro k k1 k2
      by_cases hk : k = i
      · subst hk
        refine ⟨a, v, ha, hv, ?_⟩
        rw [h4 k (.inl (by omega)), hm1]
        simp [hi]
      · obtain ⟨b, u, q1, q2, q3⟩ := h3 k (by omega) (by omega)
        refine ⟨b, u, ?_, (elem_agree (hag k hk)).2 q2, q3⟩
        simpa [hm1, List.getElem?_set, Ne.symm hk] using q1
    · intro k hk
      rw [h4 k (by omega), hm1]
      have : k ≠ i := by omega
      simp [List.getElem?_set, Ne.symm this]

/-- The shape of an expression whose matrices all have the same shape. -/
theorem shape_same {M : Mem α} {e : Flat α} {r c : Nat} (h : ∀ k ∈ mats e, Stored M k r c) :
    ∃ s, e.shape M = .ok s ∧ (s.1 * s.2 = 0 ∨ s = (r, c)) := by
  induction e with
  | scalar a => exact ⟨(0, 0), rfl, .inl rfl⟩
  | mat k =>
    obtain ⟨m, h1, rfl, rfl, -⟩ := h k (by simp [mats])
    exact ⟨(m.rows, m.cols), by simp [Flat.shape, shapeOf, h1], .inr rfl⟩
  | un f e ih => exact ih h
  | bin f l r' ihl ihr =>
    obtain ⟨s1, e1, q1⟩ := ihl fun k hk => h k (by simp [mats, hk])
    obtain ⟨s2, e2, q2⟩ := ihr fun k hk => h k (by simp [mats, hk])
    simp only [Flat.shape, e1, e2, Res.bind_ok]
    by_cases z1 : s1.1 * s1.2 = 0
    · exact ⟨s2, by simp [z1], q2⟩
    · by_cases z2 : s2.1 * s2.2 = 0
      · exact ⟨s1, by simp [z1, z2], q1⟩
      · obtain rfl := q1.resolve_left z1
        obtain rfl := q2.resolve_left z2
        exact ⟨(r, c), by simp [z1], .inr rfl⟩

/-- The shape of an expression whose matrices are not empty: an exception unless they all have the same. -/
theorem shape_cases {M : Mem α} {e : Flat α} (h : ∀ k ∈ mats e, ∃ r c, Stored M k r c ∧ r * c ≠ 0) :
    e.shape M = .ub .exception ∨ (mats e = [] ∧ e.shape M = .ok (0, 0)) ∨
      ∃ r c, mats e ≠ [] ∧ r * c ≠ 0 ∧ e.shape M = .ok (r, c) ∧ ∀ k ∈ mats e, Stored M k r c := by
  induction e with
  | scalar a => exact .inr (.inl ⟨rfl, rfl⟩)
  | mat k =>
    obtain ⟨r, c, h1, h2⟩ := h k (by simp [mats])
    refine .inr (.inr ⟨r, c, by simp [mats], h2, ?_, by simpa [mats] using h1⟩)
    obtain ⟨m, h1, rfl, rfl, -⟩ := h1
    simp [Flat.shape, shapeOf, h1]
  | un f e ih => exact ih h
  | bin f l r' ihl ihr =>
    have i1 := ihl fun k hk => h k (by simp [mats, hk])
    have i2 := ihr fun k hk => h k (by simp [mats, hk])
    rcases i1 with e1 | ⟨n1, e1⟩ | ⟨r1, c1, n1, z1, e1, q1⟩
    · exact .inl (by simp [Flat.shape, e1])
    · rcases i2 with e2 | ⟨n2, e2⟩ | ⟨r2, c2, n2, z2, e2, q2⟩
      · exact .inl (by simp [Flat.shape, e1, e2])
      · exact .inr (.inl ⟨by simp [mats, n1, n2], by simp [Flat.shape, e1, e2]⟩)
      · exact .inr (.inr ⟨r2, c2, by simp [mats, n2], z2, by simp [Flat.shape, e1, e2], by simpa [mats, n1] using q2⟩)
    · rcases i2 with e2 | ⟨n2, e2⟩ | ⟨r2, c2, n2, z2, e2, q2⟩
      · exact .inl (by simp [Flat.shape, e1, e2])
      · refine .inr (.inr ⟨r1, c1, by simp [mats, n1], z1, ?_, by simpa [mats, n2] using q1⟩)
        simp only [Flat.shape, e1, e2, Res.bind_ok, z1, if_false]
        simp
      · simp only [Flat.shape, e1, e2, Res.bind_ok, z1, z2, if_false]
        by_cases hs : (r1, c1) = (r2, c2)
        · obtain ⟨rfl, rfl⟩ := Prod.mk.inj hs
          refine .inr (.inr ⟨r1, c1, by simp [mats, n1], z1, by simp, ?_⟩)
          intro k hk
          simp only [mats, List.mem_append] at hk
          exact hk.elim (q1 k) (q2 k)
        · exact .inl (by simp [hs])

theorem stored_elem {M : Mem α} {e : Flat α} {r c i : Nat} (h : ∀ k ∈ mats e, Stored M k r c) (hi : i < r * c) : ∃ v, Elem M i e v := by
  refine elem_exists fun k hk => ?_
  obtain ⟨m, h1, -, -, h2⟩ := h k hk
  exact ⟨m.data[i]'(by omega), m, h1, List.getElem?_eq_getElem _⟩

/-! ### The sparse loop -/

theorem trimSp_eq (s : Sp α) (dsz : Nat) (n : Nat) (hn : n ≤ s.vector.length) : trimSp s dsz n = .ok (trim s.vector dsz n) := by
  induction n with
  | zero => rfl
  | succ n ih =>
    obtain ⟨p, hp⟩ : ∃ p, s.vector[n]? = some p := ⟨s.vector[n]'(by omega), List.getElem?_eq_getElem _⟩
    obtain ⟨i, y⟩ := p
    rw [trimSp, index_ok hp, Res.bind_ok, trim, hp]
    dsimp only
    split
    · exact ih (by omega)
    · rfl

/-- The entries from `j` on, `n` of them. -/
theorem calcSpLoop_spec (op : α → α → α) {h : Nat} {s : Sp α} (n : Nat) {M : Mem α} {m : Mat α} {j : Nat} (hm : M h = some m)
    (hn : j + n ≤ s.vector.length) (hx : Ascending s.vector)
    (he : ∀ k i y, j ≤ k → k < j + n → s.vector[k]? = some (i, y) → i < m.data.length ∧ ∃ v, SpElem M i y s v) :
    ∃ d, calcSpLoop op h s j n M = .ok (M.put h { m with data := d }) ∧ d.length = m.data.length ∧
      (∀ k i y, j ≤ k → k < j + n → s.vector[k]? = some (i, y) → ∃ a v, m.data[i]? = some a ∧ SpElem M i y s v ∧ d[i]? = some (op a v)) ∧
      ∀ i, (∀ k y, j ≤ k → k < j + n → s.vector[k]? ≠ some (i, y)) → d[i]? = m.data[i]? := by
  induction n generalizing M m j with
  | zero => exact ⟨m.data, by rw [calcSpLoop, put_same hm], rfl, fun k i y h1 h2 => by omega, fun _ _ => rfl⟩
  | succ n ih =>
    obtain ⟨p, hp⟩ : ∃ p, s.vector[j]? = some p := ⟨s.vector[j]'(by omega), List.getElem?_eq_getElem _⟩
    obtain ⟨i, y⟩ := p
    obtain ⟨hi, v, hv⟩ := he j i y (Nat.le_refl j) (by omega) hp
    obtain ⟨a, ha⟩ : ∃ a, m.data[i]? = some a := ⟨m.data[i], List.getElem?_eq_getElem _⟩
    set m1 : Mat α := { m with data := m.data.set i (op a v) } with hm1
    have hag : ∀ k, k ≠ i → Agree k M (M.put h m1) := fun k hk => agree_put hm (by simp [hm1, List.getElem?_set, Ne.symm hk])
    have hdiff : ∀ k i' y', j < k → s.vector[k]? = some (i', y') → i' ≠ i := by
      intro k i' y' hk hq
      have q1 := List.getElem?_eq_some_iff.1 hp
      have q2 := List.getElem?_eq_some_iff.1 hq
      have := List.pairwise_iff_getElem.1 hx j k q1.1 q2.1 hk
      rw [q1.2, q2.2] at this
      dsimp only at this
      omega
    obtain ⟨d, h1, h2, h3, h4⟩ := ih (M := M.put h m1) (m := m1) (j := j + 1) (put_self _ _ _) (by omega) fun k i' y' h1 h2 hk => by
      obtain ⟨q1, u, hu⟩ := he k i' y' (by omega) (by omega) hk
      exact ⟨by simpa [hm1] using q1, u, (spElem_agree (hag i' (hdiff k i' y' (by omega) hk))).1 hu⟩
    refine ⟨d, ?_, by simpa [hm1] using h2, ?_, ?_⟩
    · rw [calcSpLoop, index_ok hp, Res.bind_ok, (value_iff hp).2 hv, Res.bind_ok, modify_ok op v hm ha, Res.bind_ok, h1, put_put]
    · intro k i' y' k1 k2 hk
      by_cases hkj : k = j
      · subst hkj
        obtain ⟨rfl, rfl⟩ := Prod.mk.inj (Option.some.inj (hp.symm.trans hk))
        refine ⟨a, v, ha, hv, ?_⟩
        rw [h4 i fun k' y' q1 q2 q3 => hdiff k' i y' (by omega) q3 rfl, hm1]
        simp [hi]
      · have hne := hdiff k i' y' (by omega) hk
        obtain ⟨b, u, q1, q2, q3⟩ := h3 k i' y' (by omega) (by omega) hk
        refine ⟨b, u, ?_, (spElem_agree (hag i' hne)).2 q2, q3⟩
        simpa [hm1, List.getElem?_set, Ne.symm hne] using q1
    · intro i' hk
      have hne : i' ≠ i := fun hc => hk j y (Nat.le_refl j) (by omega) (hc ▸ hp)
      rw [h4 i' fun k' y' q1 q2 => hk k' y' (by omega) (by omega), hm1]
      simp [List.getElem?_set, Ne.symm hne]

/-! ### Vectors as lists -/

theorem isVec_get {M : Mem α} {h : Nat} {w : List α} (hw : IsVec M h w) {i : Nat} {a : α} (ha : w[i]? = some a) : InMat M h i a := by
  obtain ⟨m, h1, -, h3, h4⟩ := hw
  have hi := (List.getElem?_eq_some_iff.1 ha).1
  refine ⟨m, h1, ?_⟩
  rw [← h4, List.getElem?_take] at ha
  simpa [hi] using ha

theorem isVec_lget {M : Mem α} {h : Nat} {w : List α} (hw : IsVec M h w) {i : Nat} {a : α} (ha : lget w i = .ok a) : Elem M i (.mat h) a :=
  .mat (isVec_get hw (lget_eq_ok.1 ha))

theorem isVec_frame {M M' : Mem α} {h : Nat} {w : List α} (hw : IsVec M h w) (hk : M' h = M h) : IsVec M' h w := by
  obtain ⟨m, h1, h2⟩ := hw
  exact ⟨m, hk.trans h1, h2⟩

theorem take_set {l : List α} {n i : Nat} {a : α} : (l.set i a).take n = (l.take n).set i a := by
  apply List.ext_getElem?
  intro j
  simp only [List.getElem?_take, List.getElem?_set, List.length_take]
  by_cases h1 : j < n
  · by_cases h2 : i = j
    · subst h2
      by_cases h3 : i < l.length
      · simp [h1, h3, Nat.lt_min]
      · simp [h1, h3, Nat.min_le_right, show min n l.length ≤ i by omega]
    · simp [h1, h2]
  · by_cases h2 : i = j
    · subst h2; simp [h1, show min n l.length ≤ i by omega]
    · simp [h1, h2]

theorem modify_link (op : α → α → α) {M : Mem α} {h i : Nat} {w : List α} {a : α} (v : α) (hw : IsVec M h w) (ha : w[i]? = some a) :
    Runs (modify op M h i v) M h (w.set i (op a v)) := by
  obtain ⟨m, h1, hm⟩ := isVec_get hw ha
  refine ⟨_, modify_ok op v h1 hm, ?_, fun k hk => put_ne _ _ hk⟩
  obtain ⟨m', h1', h2, h3, h4⟩ := hw
  obtain rfl := Option.some.inj (h1.symm.trans h1')
  refine ⟨_, put_self _ _ _, h2, by simpa using h3, ?_⟩
  rw [List.length_set, take_set, h4]

theorem runs_then {r : Res (Mem α)} {M : Mem α} {h : Nat} {w w' : List α} {q : Prog α} (hr : Runs r M h w)
    (hq : ∀ M', IsVec M' h w → (∀ k, k ≠ h → M' k = M k) → Runs (q M') M' h w') : Runs (r >>= q) M h w' := by
  obtain ⟨M', rfl, h1, h2⟩ := hr
  obtain ⟨M'', h3, h4, h5⟩ := hq M' h1 h2
  exact ⟨M'', by rw [Res.bind_ok, h3], h4, fun k hk => (h5 k hk).trans (h2 k hk)⟩

theorem atZero_link (op : α → α → α) {M : Mem α} {h : Nat} {w : List α} {a v : α} {e : Flat α} (hw : IsVec M h w) (ha : lget w 0 = .ok a)
    (hv : Elem M 0 e v) : Runs (atZero op h e M) M h (w.set 0 (op a v)) := by
  rw [atZero, at_iff.2 hv, Res.bind_ok]
  exact modify_link op v hw (lget_eq_ok.1 ha)

theorem calcSpLoop_link (op : α → α → α) {f : List α → Nat → α → Res α} {M0 : Mem α} {h : Nat} {s : Sp α}
    (hf : ∀ M w i y r, IsVec M h w → (∀ k, k ≠ h → M k = M0 k) → f w i y = .ok r → SpElem M i y s r) (n : Nat) {j : Nat} {M : Mem α}
    {w w' : List α} (hM : ∀ k, k ≠ h → M k = M0 k) (hw : IsVec M h w) (hn : j + n ≤ s.vector.length)
    (hc : Sparse.calcLoop op f ((s.vector.drop j).take n) w = .ok w') : Runs (calcSpLoop op h s j n M) M h w' := by
  induction n generalizing j M w with
  | zero =>
    obtain rfl := Res.ok.inj hc
    exact ⟨M, rfl, hw, fun _ _ => rfl⟩
  | succ n ih =>
    have hj : j < s.vector.length := by omega
    rw [List.drop_eq_getElem_cons hj, List.take_succ_cons] at hc
    set p := s.vector[j] with hp
    obtain ⟨i, y⟩ := p
    have hp' : s.vector[j]? = some (i, y) := by rw [List.getElem?_eq_getElem hj, ← hp]
    simp only [Sparse.calcLoop, Res.bind_eq_ok] at hc
    obtain ⟨r, h1, a, h2, w1, h3, h4⟩ := hc
    obtain ⟨-, rfl⟩ := lset_eq_ok.1 h3
    rw [calcSpLoop, index_ok hp', Res.bind_ok, (value_iff hp').2 (hf M w i y r hw hM h1), Res.bind_ok]
    refine runs_then (modify_link op r hw (lget_eq_ok.1 h2)) fun M' k1 k2 => ?_
    exact ih (fun k hk => (k2 k hk).trans (hM k hk)) k1 (by omega) h4

theorem calcSp_link (op : α → α → α) {f : List α → Nat → α → Res α} {M : Mem α} {h : Nat} {s : Sp α}
    (hf : ∀ M' w i y r, IsVec M' h w → (∀ k, k ≠ h → M' k = M k) → f w i y = .ok r → SpElem M' i y s r) {w w' : List α}
    (hw : IsVec M h w) (hc : Sparse.calcExp op f w s.vector = .ok w') : Runs (calcSp op M h s) M h w' := by
  obtain ⟨m, h1, h2, h3, -⟩ := id hw
  have hs : shapeOf M h = .ok (1, w.length) := by simp [shapeOf, h1, h2, h3]
  rw [calcSp, hs, Res.bind_ok]
  dsimp only
  rw [Nat.one_mul, Sp.size, trimSp_eq s _ _ (Nat.le_refl _), Res.bind_ok]
  refine calcSpLoop_link op hf _ (fun _ _ => rfl) hw ?_ ?_
  · rw [Nat.zero_add]
    exact trim_le _ _ _
  · simpa [Sparse.calcExp] using hc

theorem isVec_init {M : Mem α} {h : Nat} {w : List α} (hw : IsVec M h w) : initMat M h = M := by
  obtain ⟨m, h1, -⟩ := hw
  simp [initMat, h1]

theorem assignSp_link {f : List α → Nat → α → Res α} {M : Mem α} {h : Nat} {s : Sp α}
    (hf : ∀ M' w i y r, IsVec M' h w → (∀ k, k ≠ h → M' k = M k) → f w i y = .ok r → SpElem M' i y s r) {w w' : List α}
    (hw : IsVec M h w) (hc : Sparse.calcExp (fun _ r => r) f w s.vector = .ok w') : Runs (assignSp M h s) M h w' := by
  rw [assignSp, isVec_init hw]
  exact calcSp_link _ hf hw hc

theorem isVec_stored {M : Mem α} {h : Nat} {w : List α} (hw : IsVec M h w) : Stored M h 1 w.length := by
  obtain ⟨m, h1, h2, h3, h4⟩ := hw
  refine ⟨m, h1, h2, h3, ?_⟩
  have := congrArg List.length h4
  rw [List.length_take] at this
  omega

theorem calcFlat_link (op : α → α → α) {M : Mem α} {h : Nat} {e : Flat α} {w w' : List α} (hw : IsVec M h w)
    (he : ∀ k ∈ mats e, ∃ v, IsVec M k v ∧ v.length = w.length) (hl : w'.length = w.length)
    (hv : ∀ i a, w[i]? = some a → ∃ v, Elem M i e v ∧ w'[i]? = some (op a v)) : Runs (calcFlat op M h e) M h w' := by
  have hst : ∀ k ∈ mats e, Stored M k 1 w.length := fun k hk => by
    obtain ⟨v, h1, h2⟩ := he k hk
    exact h2 ▸ isVec_stored h1
  obtain ⟨s, hs, hs'⟩ := shape_same hst
  obtain ⟨m, h1, h2, h3, h4⟩ := isVec_stored hw
  have hsh : shapeOf M h = .ok (1, w.length) := by simp [shapeOf, h1, h2, h3]
  obtain ⟨d, q1, q2, q3, q4⟩ := calcLoop_spec op (1 * w.length) (i := 0) h1 (by omega) fun k _ hk => stored_elem hst (by omega)
  refine ⟨M.put h { m with data := d }, ?_, ⟨_, put_self _ _ _, h2, by simpa [hl] using h3, ?_⟩, fun k hk => put_ne _ _ hk⟩
  · rw [calcFlat, hsh, Res.bind_ok, hs, Res.bind_ok, if_neg]
    · exact q1
    rintro ⟨k1, k2⟩
    exact hs'.elim k1 fun k => k2 k.symm
  · apply List.ext_getElem?
    intro i
    rw [List.getElem?_take, hl]
    split
    · rename_i hi
      have ha : w[i]? = some w[i] := List.getElem?_eq_getElem hi
      obtain ⟨a, v, k1, k2, k3⟩ := q3 i (by omega) (by omega)
      obtain ⟨v', k4, k5⟩ := hv i _ ha
      obtain ⟨m', g1, g2⟩ := isVec_get hw ha
      obtain rfl := Option.some.inj (h1.symm.trans g1)
      obtain rfl := Option.some.inj (k1.symm.trans g2)
      rw [k5, ← elem_fun k2 k4]
      exact k3
    · rename_i hi
      exact (List.getElem?_eq_none (by omega)).symm

theorem assign_link {M : Mem α} {h : Nat} {e : Flat α} {w w' : List α} (hw : IsVec M h w)
    (he : ∀ k ∈ mats e, ∃ v, IsVec M k v ∧ v.length = w.length) (hl : w'.length = w.length)
    (hv : ∀ i a, w[i]? = some a → ∃ v, Elem M i e v ∧ w'[i]? = some v) : Runs (assign M h e) M h w' := by
  rw [assign, isVec_init hw]
  exact calcFlat_link _ hw he hl hv

/-! ### Sums -/

theorem stored_fun {M : Mem α} {h r c r' c' : Nat} (h1 : Stored M h r c) (h2 : Stored M h r' c') : r = r' ∧ c = c' := by
  obtain ⟨m, k1, rfl, rfl, -⟩ := h1
  obtain ⟨m', k2, rfl, rfl, -⟩ := h2
  obtain rfl := Option.some.inj (k1.symm.trans k2)
  exact ⟨rfl, rfl⟩

theorem shape_size {M : Mem α} {e : Flat α} {r c : Nat} (h : ∀ k ∈ mats e, Stored M k r c) (hne : mats e ≠ []) :
    ∃ s, e.shape M = .ok s ∧ s.1 * s.2 = r * c ∧ (r * c ≠ 0 → s = (r, c)) := by
  obtain ⟨s, h1, h2⟩ := shape_same h
  refine ⟨s, h1, ?_⟩
  by_cases hz : r * c = 0
  · exact ⟨h2.elim (fun q => q.trans hz.symm) fun q => by rw [q], fun q => (q hz).elim⟩
  · have := shape_cases (M := M) (e := e) fun k hk => ⟨r, c, h k hk, hz⟩
    rcases this with h3 | ⟨h3, -⟩ | ⟨r', c', -, -, h3, h4⟩
    · rw [h1] at h3; cases h3
    · exact (hne h3).elim
    · obtain ⟨k, hk⟩ := List.exists_mem_of_ne_nil _ hne
      obtain ⟨rfl, rfl⟩ := stored_fun (h k hk) (h4 k hk)
      obtain rfl := Res.ok.inj (h1.symm.trans h3)
      exact ⟨rfl, fun _ => rfl⟩

section
variable [Zero α] [Add α]

theorem dotLoop_spec (op : α → α → α) {M : Mem α} {l r : Flat α} (n i : Nat) (v : α)
    (hl : ∀ k, i ≤ k → k < i + n → ∃ a, Elem M k l a) (hr : ∀ k, i ≤ k → k < i + n → ∃ a, Elem M k r a) :
    ∃ vs : List (α × α), dotLoop op M l r i n v = .ok (vs.foldl (fun t p => t + op p.1 p.2) v) ∧
      List.Forall₂ (fun k p => Elem M k l p.1 ∧ Elem M k r p.2) (List.range' i n) vs := by
  induction n generalizing i v with
  | zero => exact ⟨[], rfl, .nil⟩
  | succ n ih =>
    obtain ⟨a, ha⟩ := hl i (Nat.le_refl i) (by omega)
    obtain ⟨b, hb⟩ := hr i (Nat.le_refl i) (by omega)
    obtain ⟨vs, h1, h2⟩ := ih (i + 1) (v + op a b) (fun k h1 h2 => hl k (by omega) (by omega)) fun k h1 h2 => hr k (by omega) (by omega)
    refine ⟨(a, b) :: vs, ?_, ?_⟩
    · rw [dotLoop, at_iff.2 ha, Res.bind_ok, at_iff.2 hb, Res.bind_ok, h1]
      rfl
    · rw [List.range'_succ]
      exact .cons ⟨ha, hb⟩ h2

theorem dotSpLoop_spec (op : α → α → α) {M : Mem α} {l : Flat α} {s : Sp α} (n j : Nat) (v : α) (hn : j + n ≤ s.vector.length)
    (he : ∀ p ∈ (s.vector.drop j).take n, (∃ a, Elem M p.1 l a) ∧ ∃ b, SpElem M p.1 p.2 s b) :
    ∃ vs : List (α × α), dotSpLoop op M l s j n v = .ok (vs.foldl (fun t p => t + op p.1 p.2) v) ∧
      List.Forall₂ (fun p q => Elem M p.1 l q.1 ∧ SpElem M p.1 p.2 s q.2) ((s.vector.drop j).take n) vs := by
  induction n generalizing j v with
  | zero => exact ⟨[], rfl, .nil⟩
  | succ n ih =>
    have hj : j < s.vector.length := by omega
    rw [List.drop_eq_getElem_cons hj, List.take_succ_cons] at he ⊢
    set p := s.vector[j] with hp
    have hp' : s.vector[j]? = some (p.1, p.2) := by rw [List.getElem?_eq_getElem hj]
    obtain ⟨⟨a, ha⟩, b, hb⟩ := he p List.mem_cons_self
    obtain ⟨vs, h1, h2⟩ := ih (j + 1) (v + op a b) (by omega) fun q hq => he q (List.mem_cons_of_mem _ hq)
    refine ⟨(a, b) :: vs, ?_, .cons ⟨ha, hb⟩ h2⟩
    rw [dotSpLoop, index_ok hp', Res.bind_ok, at_iff.2 ha, Res.bind_ok, (value_iff hp').2 hb, Res.bind_ok, h1]
    rfl

theorem reduceLoop_spec (op : α → α → α) {M : Mem α} {e : Flat α} (n i : Nat) (v : α) (he : ∀ k, i ≤ k → k < i + n → ∃ a, Elem M k e a) :
    ∃ vs, reduceLoop op M e i n v = .ok (vs.foldl op v) ∧ List.Forall₂ (fun k a => Elem M k e a) (List.range' i n) vs := by
  induction n generalizing i v with
  | zero => exact ⟨[], rfl, .nil⟩
  | succ n ih =>
    obtain ⟨a, ha⟩ := he i (Nat.le_refl i) (by omega)
    obtain ⟨vs, h1, h2⟩ := ih (i + 1) (op v a) fun k h1 h2 => he k (by omega) (by omega)
    refine ⟨a :: vs, ?_, ?_⟩
    · rw [reduceLoop, at_iff.2 ha, Res.bind_ok, h1]
      rfl
    · rw [List.range'_succ]
      exact .cons ha h2

theorem reduceSpLoop_spec (op : α → α → α) {M : Mem α} {s : Sp α} (n j : Nat) (v : α) (hn : j + n ≤ s.vector.length)
    (he : ∀ p ∈ (s.vector.drop j).take n, ∃ b, SpElem M p.1 p.2 s b) :
    ∃ vs, reduceSpLoop op M s j n v = .ok (vs.foldl op v) ∧
      List.Forall₂ (fun p b => SpElem M p.1 p.2 s b) ((s.vector.drop j).take n) vs := by
  induction n generalizing j v with
  | zero => exact ⟨[], rfl, .nil⟩
  | succ n ih =>
    have hj : j < s.vector.length := by omega
    rw [List.drop_eq_getElem_cons hj, List.take_succ_cons] at he ⊢
    set p := s.vector[j] with hp
    have hp' : s.vector[j]? = some (p.1, p.2) := by rw [List.getElem?_eq_getElem hj]
    obtain ⟨b, hb⟩ := he p List.mem_cons_self
    obtain ⟨vs, h1, h2⟩ := ih (j + 1) (op v b) (by omega) fun q hq => he q (List.mem_cons_of_mem _ hq)
    refine ⟨b :: vs, ?_, .cons hb h2⟩
    rw [reduceSpLoop, (value_iff hp').2 hb, Res.bind_ok, h1]
    rfl

/-- The sum of a function of the elements of a vector. -/
theorem reduce_link {M : Mem α} {h : Nat} {w : List α} (f : α → α) (hw : IsVec M h w) :
    reduce (· + ·) M (.un f (.mat h)) = .ok (w.foldl (fun v a => v + f a) 0) := by
  obtain ⟨m, h1, h2, h3, -⟩ := id hw
  have hel : ∀ k a, w[k]? = some a → Elem M k (.un f (.mat h)) (f a) := fun k a ha => .un (.mat (isVec_get hw ha))
  obtain ⟨vs, k1, k2⟩ := reduceLoop_spec (· + ·) (M := M) (e := .un f (.mat h)) w.length 0 0 fun k _ hk =>
    ⟨_, hel k _ (List.getElem?_eq_getElem (by omega))⟩
  have hvs : vs = w.map f := by
    apply List.ext_getElem?
    intro k
    rw [List.getElem?_map]
    have hlen := k2.length_eq
    rw [List.length_range'] at hlen
    by_cases hk : k < w.length
    · have := (List.forall₂_iff_get.1 k2).2 k (by simpa using hk) (by omega)
      simp only [List.get_eq_getElem, List.getElem_range', Nat.zero_add, Nat.one_mul] at this
      rw [List.getElem?_eq_getElem (by omega), List.getElem?_eq_getElem hk, Option.map_some,
        elem_fun this (hel k _ (List.getElem?_eq_getElem hk))]
    · rw [List.getElem?_eq_none (by omega), List.getElem?_eq_none (by omega)]; rfl
  rw [reduce, Flat.shape, Flat.shape, shapeOf, h1]
  dsimp only
  rw [Res.bind_ok]
  dsimp only
  rw [h2, h3, Nat.one_mul, k1, hvs, List.foldl_map]

theorem reduceSp_link {M : Mem α} (f : α → α) (x : SVec α) :
    reduceSp (· + ·) M (.un f (.vec x)) = .ok (reduceSum f x) := by
  have hgo : ∀ n j v, n + j = x.length →
      reduceSpLoop (· + ·) M (.un f (.vec x)) j n v = .ok ((x.drop j).foldl (fun v p => v + f p.2) v) := by
    intro n
    induction n with
    | zero => intro j v hj; rw [List.drop_eq_nil_of_le (by omega)]; rfl
    | succ n ih =>
      intro j v hj
      have hjx : j < x.length := by omega
      have hv : (Sp.un f (.vec x)).value M j = .ok (f x[j].2) := by
        simp [Sp.value, lget_ok hjx]
      rw [reduceSpLoop, hv, Res.bind_ok, ih (j + 1) _ (by omega), List.drop_eq_getElem_cons hjx, List.foldl_cons]
  rw [reduceSp, hgo _ _ _ (by simp [Sp.size, Sp.vector])]
  rfl

/-- The product of a vector and a function of the values of a sparse vector. -/
theorem dotSp_link (op : α → α → α) (g : α → α) {M : Mem α} {h : Nat} {w : List α} {s : Sp α} {v : α} (hw : IsVec M h w)
    (hs : ∀ i y, SpElem M i y s (g y)) (hd : dotOp (fun a y => op a (g y)) w s.vector = .ok v) : dotSp op M (.mat h) s = .ok v := by
  obtain ⟨m, h1, h2, h3, -⟩ := id hw
  have hgo : ∀ n j t, j + n ≤ s.vector.length → Sparse.dotLoop (fun a y => op a (g y)) w ((s.vector.drop j).take n) t = .ok v →
      dotSpLoop op M (.mat h) s j n t = .ok v := by
    intro n
    induction n with
    | zero => intro j t _ ht; exact ht
    | succ n ih =>
      intro j t hj ht
      have hjx : j < s.vector.length := by omega
      rw [List.drop_eq_getElem_cons hjx, List.take_succ_cons] at ht
      set p := s.vector[j] with hp
      have hp' : s.vector[j]? = some (p.1, p.2) := by rw [List.getElem?_eq_getElem hjx]
      simp only [Sparse.dotLoop, Res.bind_eq_ok] at ht
      obtain ⟨a, ha, ht⟩ := ht
      rw [dotSpLoop, index_ok hp', Res.bind_ok, at_iff.2 (isVec_lget hw ha), Res.bind_ok, (value_iff hp').2 (hs _ _), Res.bind_ok]
      exact ih (j + 1) _ (by omega) ht
  rw [dotSp, Flat.shape, shapeOf, h1]
  dsimp only
  rw [Res.bind_ok]
  dsimp only
  rw [h2, h3, Nat.one_mul, Sp.size, trimSp_eq s _ _ (Nat.le_refl _), Res.bind_ok]
  refine hgo _ _ _ ?_ (by simpa [dotOp] using hd)
  rw [Nat.zero_add]
  exact trim_le _ _ _

end

/-! ### Elements 0 -/

theorem bias_link (op : α → α → α) {f : α → α} {M : Mem α} {h : Nat} {w w' : List α} {e : Flat α} (hw : IsVec M h w)
    (hb : Online.atBias f w = .ok w') (he : ∀ a, lget w 0 = .ok a → ∃ v, Elem M 0 e v ∧ op a v = f a) :
    Runs (atZero op h e M) M h w' := by
  simp only [Online.atBias, Res.bind_eq_ok] at hb
  obtain ⟨a, h1, h2⟩ := hb
  obtain ⟨-, rfl⟩ := lset_eq_ok.1 h2
  obtain ⟨v, h3, h4⟩ := he a h1
  rw [← h4]
  exact atZero_link op hw h1 h3

theorem set_link {b : α} {M : Mem α} {h : Nat} {w w' : List α} {e : Flat α} (hw : IsVec M h w)
    (hb : lset w 0 b = .ok w') (he : Elem M 0 e b) : Runs (atZero put h e M) M h w' := by
  obtain ⟨h1, rfl⟩ := lset_eq_ok.1 hb
  exact atZero_link put hw (lget_ok h1) he

theorem dense2_eq {β : Type} {f : α → β → α} {w w' : List α} {u : List β} (h : Olm.dense2 f w u = .ok w') :
    w.length = u.length ∧ w'.length = w.length ∧ ∀ (i : Nat) (a : α) (b : β), w[i]? = some a → u[i]? = some b → w'[i]? = some (f a b) := by
  unfold Olm.dense2 at h
  split at h
  · rename_i hl
    obtain rfl := Res.ok.inj h
    refine ⟨hl, by simp [hl], fun i a b h1 h2 => ?_⟩
    simp [List.getElem?_zipWith, h1, h2]
  · cases h

theorem get_of_length {β γ : Type} {w : List β} {u : List γ} {i : Nat} {a : β} (hl : w.length = u.length) (ha : w[i]? = some a) :
    ∃ b, u[i]? = some b := by
  have hi := (List.getElem?_eq_some_iff.1 ha).1
  exact ⟨u[i]'(by omega), List.getElem?_eq_getElem _⟩

end Sol.Expr
