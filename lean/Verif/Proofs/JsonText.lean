import Verif.Proofs.JsonRead
/-!
# Strings and objects of JSON text
-/

namespace Sol.Json
open Sol.FloatText Sol.Text Sol.TextWriters Sol.Spec Sol.Props
open Sol.NumericParser hiding isDigit

/-! ### Strings -/

theorem hexVal_spec : ∀ c ∈ "0123456789abcdefABCDEF".toList, hexVal c = some ("0123456789abcdef".toList.idxOf c.toLower) := by
  decide

theorem hex4_spec {x : List Char} {u : Nat} (h : Hex4 x u) : ∃ a b c d, x = [a, b, c, d] ∧ hex4 a b c d = some u := by
  obtain ⟨h1, h2, h3⟩ := h
  match x, h1 with
  | [a, b, c, d], _ =>
    refine ⟨a, b, c, d, rfl, ?_⟩
    unfold hex4
    rw [hexVal_spec a (h2 a (by simp)), hexVal_spec b (h2 b (by simp)), hexVal_spec c (h2 c (by simp)),
      hexVal_spec d (h2 d (by simp))]
    dsimp only
    rw [h3]
    simp only [List.foldl_cons, List.foldl_nil]
    congr 1
    ring

theorem hex4_lt {a b c d : Char} {u : Nat} (h : hex4 a b c d = some u) : u < 65536 := by
  have hv : ∀ c v, hexVal c = some v → v < 16 := by
    intro c v hc
    have l1 : ∀ a b : Char, a ≤ b → a.toNat ≤ b.toNat := fun a b h => h
    unfold hexVal at hc
    split_ifs at hc with h1 h2 h3
    · have := l1 _ _ h1.2
      have e : '9'.toNat = 57 := by decide
      simp only [Option.some.injEq] at hc
      omega
    · have := l1 _ _ h2.2
      have e : 'f'.toNat = 102 := by decide
      simp only [Option.some.injEq] at hc
      omega
    · have := l1 _ _ h3.2
      have e : 'F'.toNat = 70 := by decide
      simp only [Option.some.injEq] at hc
      omega
  unfold hex4 at h
  cases ha : hexVal a <;> rw [ha] at h
  · simp at h
  cases hb : hexVal b <;> rw [hb] at h
  · simp at h
  cases hc : hexVal c <;> rw [hc] at h
  · simp at h
  cases hd : hexVal d <;> rw [hd] at h
  · simp at h
  have := hv _ _ ha
  have := hv _ _ hb
  have := hv _ _ hc
  have := hv _ _ hd
  simp only [Option.some.injEq] at h
  omega

/-- The reader's encoder gives the bytes of UTF-8. -/
theorem utf8_encode {u : Nat} (h : u.isValidChar) : utf8 u = encode u := by
  have hv : (Char.ofNat u).val.toNat = u := by
    unfold Char.ofNat
    rw [dif_pos h]
    rfl
  have hu : u < 1114112 := by
    rcases h with h | h
    · omega
    · exact h.2
  unfold encode String.utf8EncodeChar utf8
  dsimp only
  rw [hv]
  have b : ∀ n, n < 256 → Char.ofNat (UInt8.ofNat n).toNat = Char.ofNat n := by
    intro n hn
    rw [UInt8.toNat_ofNat_of_lt' (by simpa using hn)]
  split_ifs
  · simp only [List.map_cons, List.map_nil]
    rw [b _ (by omega)]
  · simp only [List.map_cons, List.map_nil]
    rw [b _ (by omega), b _ (by omega), Nat.add_comm (_ % 32), Nat.add_comm (_ % 64)]
  · simp only [List.map_cons, List.map_nil]
    rw [b _ (by omega), b _ (by omega), b _ (by omega), Nat.add_comm (_ % 16), Nat.add_comm (_ % 64), Nat.add_comm (u % 64)]
  · simp only [List.map_cons, List.map_nil]
    rw [b _ (by omega), b _ (by omega), b _ (by omega), b _ (by omega), Nat.add_comm (_ % 8), Nat.add_comm (u / 4096 % 64),
      Nat.add_comm (u / 64 % 64), Nat.add_comm (u % 64)]
  · omega

theorem escaped_spec {e c : Char} (h : Short2 e c) : e ≠ 'u' ∧ escaped e = some c := by
  cases h <;> decide

theorem decodeString_plain {c : Char} {s : List Char} (h1 : c ≠ '"') (h2 : c ≠ '\\') :
    decodeString (c :: s) = (decodeString s).map (c :: ·) := by
  rw [decodeString.eq_def]
  dsimp only
  rw [if_neg h1, if_neg h2]

theorem decodeString_short {e x : Char} {s : List Char} (h1 : e ≠ 'u') (h2 : escaped e = some x) :
    decodeString ('\\' :: e :: s) = (decodeString s).map (x :: ·) := by
  rw [decodeString.eq_def]
  dsimp only
  rw [if_neg (by decide), if_pos rfl, if_neg h1, h2]

theorem decodeString_unicode {a b c d : Char} {s : List Char} {u : Nat} (h1 : hex4 a b c d = some u) (h2 : ¬ (0xD800 ≤ u ∧ u ≤ 0xDBFF)) :
    decodeString ('\\' :: 'u' :: a :: b :: c :: d :: s) = (decodeString s).map (utf8 u ++ ·) := by
  rw [decodeString.eq_def]
  dsimp only
  rw [if_neg (by decide), if_pos rfl, if_pos rfl, h1]
  dsimp only
  rw [if_neg h2]

theorem decodeString_pair {a b c d a' b' c' d' : Char} {s : List Char} {u v : Nat} (h1 : hex4 a b c d = some u)
    (h2 : 0xD800 ≤ u ∧ u ≤ 0xDBFF) (h3 : hex4 a' b' c' d' = some v) :
    decodeString ('\\' :: 'u' :: a :: b :: c :: d :: '\\' :: 'u' :: a' :: b' :: c' :: d' :: s) =
      (decodeString s).map (utf8 (0x10000 + u % 1024 * 1024 + v % 1024) ++ ·) := by
  rw [decodeString.eq_def]
  dsimp only
  rw [if_neg (by decide), if_pos rfl, if_pos rfl, h1]
  dsimp only
  simp only [if_pos h2, h3]

/-- The text of a string is decoded to its bytes. -/
theorem decodeString_text {t s : List Char} (h : StrText t s) : decodeString t = some s := by
  induction h with
  | nil => rfl
  | char h0 h1 h2 _ ih => rw [decodeString_plain h1 h2, ih]; rfl
  | short he _ ih =>
    obtain ⟨e1, e2⟩ := escaped_spec he
    rw [decodeString_short e1 e2, ih]
    rfl
  | unicode hx hu _ ih =>
    obtain ⟨a, b, c, d, rfl, e⟩ := hex4_spec hx
    have hlt := hex4_lt e
    simp only [List.cons_append, List.nil_append]
    rw [decodeString_unicode e (by omega), ih, utf8_encode]
    · rfl
    · rcases hu with hu | hu
      · exact .inl hu
      · exact .inr ⟨hu, by omega⟩
  | @pair _ _ _ _ u v hx hu hy hv _ ih =>
    obtain ⟨a, b, c, d, rfl, e⟩ := hex4_spec hx
    obtain ⟨a', b', c', d', rfl, e'⟩ := hex4_spec hy
    simp only [List.cons_append, List.nil_append]
    rw [decodeString_pair e hu e', ih, show 0x10000 + u % 1024 * 1024 + v % 1024 = 0x10000 + (u - 0xD800) * 1024 + (v - 0xDC00) by omega,
      utf8_encode]
    · rfl
    · exact .inr ⟨by omega, by omega⟩

theorem readString_plain {c : Char} {s : List Char} (h1 : c ≠ '"') (h2 : c ≠ '\\') :
    readString (c :: s) = (readString s).map fun (a, b) => (c :: a, b) := by
  rw [readString.eq_def]
  dsimp only
  rw [if_neg h2, if_neg h1]

theorem readString_escape {d : Char} {s : List Char} :
    readString ('\\' :: d :: s) = (readString s).map fun (a, b) => ('\\' :: d :: a, b) := by
  rw [readString.eq_def]
  dsimp only
  rw [if_pos rfl]

theorem readString_quote {s : List Char} : readString ('"' :: s) = some ([], s) := by
  rw [readString.eq_def]
  dsimp only
  rw [if_neg (by decide), if_pos rfl]

theorem hex_plain : ∀ c ∈ "0123456789abcdefABCDEF".toList, c ≠ '"' ∧ c ≠ '\\' := by decide

/-- A quoted string ends at its quote. -/
theorem readString_text {t s : List Char} (h : StrText t s) (rest : List Char) : readString (t ++ ('"' :: rest)) = some (t, rest) := by
  have hex : ∀ (x : List Char) (t : List Char), (∀ c ∈ x, c ∈ "0123456789abcdefABCDEF".toList) → ∀ r, readString t = some r →
      readString (x ++ t) = some (x ++ r.1, r.2) := by
    intro x t hx r hr
    induction x with
    | nil => exact hr
    | cons c x ih =>
      obtain ⟨p1, p2⟩ := hex_plain c (hx c List.mem_cons_self)
      rw [List.cons_append, readString_plain p1 p2, ih fun c hc => hx c (List.mem_cons_of_mem _ hc)]
      rfl
  induction h with
  | nil => exact readString_quote
  | char h0 h1 h2 _ ih => rw [List.cons_append, readString_plain h1 h2, ih]; rfl
  | short he _ ih => rw [List.cons_append, List.cons_append, readString_escape, ih]; rfl
  | unicode hx hu _ ih =>
    rw [List.cons_append, List.cons_append, readString_escape, List.append_assoc, hex _ _ hx.2.1 _ ih]
    rfl
  | pair hx hu hy hv _ ih =>
    rw [List.cons_append, List.cons_append, readString_escape, List.append_assoc, hex _ _ hx.2.1
      (['\\', 'u'] ++ _, rest)]
    · rfl
    · rw [List.cons_append, List.cons_append, readString_escape, List.append_assoc, hex _ _ hy.2.1 _ ih]
      rfl

/-! ### Objects -/

theorem keyLt_iff (a b : List Char) : keyLt a b = true ↔ a < b := by
  induction a generalizing b with
  | nil =>
    cases b with
    | nil => simp [keyLt]
    | cons d b => simp [keyLt]
  | cons c a ih =>
    cases b with
    | nil => simp [keyLt]
    | cons d b =>
      have h1 : c.toNat < d.toNat ↔ c < d := Iff.rfl
      have h2 : c.toNat = d.toNat ↔ c = d := Char.toNat_inj
      rw [List.cons_lt_cons_iff]
      simp only [keyLt, Bool.or_eq_true, Bool.and_eq_true, decide_eq_true_eq, ih, h1, h2]

theorem key_irrefl (a : List Char) : ¬ a < a := by
  induction a with
  | nil => simp
  | cons c a ih =>
    rw [List.cons_lt_cons_iff]
    rintro (h | h)
    · exact absurd (show c.toNat < c.toNat from h) (by omega)
    · exact ih h.2

theorem key_total {a b : List Char} (h1 : ¬ a < b) (h2 : a ≠ b) : b < a := by
  induction a generalizing b with
  | nil =>
    cases b with
    | nil => exact absurd rfl h2
    | cons d b => simp at h1
  | cons c a ih =>
    cases b with
    | nil => simp
    | cons d b =>
      rw [List.cons_lt_cons_iff] at h1 ⊢
      rw [not_or] at h1
      by_cases hc : c = d
      · subst hc
        refine .inr ⟨rfl, ih (fun h => h1.2 ⟨rfl, h⟩) fun h => h2 (by rw [h])⟩
      · left
        have e1 : ¬ c.toNat < d.toNat := h1.1
        have e2 : c.toNat ≠ d.toNat := fun h => hc (Char.toNat_inj.1 h)
        exact (show d.toNat < c.toNat by omega)

theorem lookup_ite (a k : List Char) (b : Value) (l : List (List Char × Value)) :
    ((k, b) :: l).lookup a = if a = k then some b else l.lookup a := by
  rw [List.lookup_cons]
  by_cases h : a = k
  · simp [h]
  · rw [if_neg h, beq_eq_false_iff_ne.2 h]

/-- Ordered by name. -/
def Ordered (l : Members) : Prop := (entries l).Pairwise fun a b => a.1 < b.1

theorem lookup_insert (k k' : List Char) (v : Value) : ∀ l : Members,
    (entries (l.insert k v)).lookup k' = if k' = k then some v else (entries l).lookup k'
  | .nil => by
    simp only [Members.insert, entries, lookup_ite, List.lookup_nil]
  | .cons u w l => by
    have ih := lookup_insert k k' v l
    unfold Members.insert
    by_cases h1 : keyLt k u = true
    · rw [if_pos h1]
      simp only [entries]
      rw [lookup_ite]
    · rw [if_neg h1]
      by_cases h2 : k = u
      · rw [if_pos h2]
        simp only [entries]
        rw [lookup_ite, lookup_ite]
        subst h2
        split_ifs <;> rfl
      · rw [if_neg h2]
        simp only [entries]
        rw [lookup_ite, lookup_ite, ih]
        by_cases h : k' = u
        · rw [if_pos h, if_neg fun e : k' = k => h2 (e.symm.trans h), if_pos h]
        · rw [if_neg h, if_neg h]

theorem mem_insert (k : List Char) (v : Value) (a : List Char × Value) : ∀ l : Members,
    a ∈ entries (l.insert k v) → a = (k, v) ∨ a ∈ entries l
  | .nil => by simp [Members.insert, entries]
  | .cons u w l => by
    have ih := mem_insert k v a l
    unfold Members.insert
    split_ifs
    · simp only [entries, List.mem_cons]
      exact id
    · simp only [entries, List.mem_cons]
      tauto
    · simp only [entries, List.mem_cons]
      tauto

theorem ordered_insert (k : List Char) (v : Value) : ∀ l : Members, Ordered l → Ordered (l.insert k v)
  | .nil, _ => by simp [Members.insert, Ordered, entries]
  | .cons u w l, h => by
    have h' := List.pairwise_cons.1 h
    have ih := ordered_insert k v l h'.2
    unfold Members.insert
    split_ifs with h1 h2
    · rw [keyLt_iff] at h1
      refine List.pairwise_cons.2 ⟨fun a ha => ?_, h⟩
      rcases List.mem_cons.1 ha with rfl | ha
      · exact h1
      · exact List.lt_trans h1 (h'.1 a ha)
    · subst h2
      exact List.pairwise_cons.2 ⟨h'.1, h'.2⟩
    · rw [keyLt_iff] at h1
      refine List.pairwise_cons.2 ⟨fun a ha => ?_, ih⟩
      rcases mem_insert k v a l ha with rfl | ha
      · exact key_total h1 h2
      · exact h'.1 a ha

/-- Inserting members one after the other. -/
def insertAll (l : Members) (ps : List (List Char × Value)) : Members := ps.foldl (fun l p => l.insert p.1 p.2) l

theorem insertAll_spec (ps : List (List Char × Value)) (l : Members) (h : Ordered l) :
    Ordered (insertAll l ps) ∧ ∀ k, (entries (insertAll l ps)).lookup k = (ps.reverse ++ entries l).lookup k := by
  induction ps generalizing l with
  | nil => exact ⟨h, fun k => rfl⟩
  | cons p ps ih =>
    obtain ⟨k, v⟩ := p
    obtain ⟨i1, i2⟩ := ih (l.insert k v) (ordered_insert k v l h)
    refine ⟨i1, fun k' => ?_⟩
    show (entries (insertAll (l.insert k v) ps)).lookup k' = _
    rw [i2, List.lookup_append, lookup_insert, List.reverse_cons, List.append_assoc, List.lookup_append, List.singleton_append,
      lookup_ite]

theorem lookup_none_of_lt {k : List Char} {l : List (List Char × Value)} (h : ∀ a ∈ l, k < a.1) : l.lookup k = none := by
  rw [List.lookup_eq_none_iff]
  intro a ha
  have := h a ha
  simp only [beq_eq_false_iff_ne, bne_iff_ne, ne_eq]
  intro e
  rw [← e] at this
  exact key_irrefl _ this

/-- Ordered members with the same values are the same. -/
theorem ordered_ext : ∀ l l' : Members, Ordered l → Ordered l' → (∀ k, (entries l).lookup k = (entries l').lookup k) → l = l'
  | .nil, .nil, _, _, _ => rfl
  | .nil, .cons k v l, _, _, h => by
    have := h k
    simp [entries] at this
  | .cons k v l, .nil, _, _, h => by
    have := h k
    simp [entries] at this
  | .cons k v l, .cons k' v' l', h1, h2, h => by
    have p1 := List.pairwise_cons.1 h1
    have p2 := List.pairwise_cons.1 h2
    have hk : k = k' := by
      by_contra hne
      rcases (by_cases Or.inl fun h => Or.inr (key_total h hne) : k < k' ∨ k' < k) with hlt | hgt
      · have e := h k
        rw [show entries (.cons k v l) = (k, v) :: entries l from rfl, List.lookup_cons_self,
          lookup_none_of_lt (l := entries (.cons k' v' l'))] at e
        · cases e
        · intro a ha
          rcases List.mem_cons.1 ha with rfl | ha
          · exact hlt
          · exact List.lt_trans hlt (p2.1 a ha)
      · have e := h k'
        rw [show entries (.cons k' v' l') = (k', v') :: entries l' from rfl, List.lookup_cons_self,
          lookup_none_of_lt (l := entries (.cons k v l))] at e
        · cases e
        · intro a ha
          rcases List.mem_cons.1 ha with rfl | ha
          · exact hgt
          · exact List.lt_trans hgt (p1.1 a ha)
    subst hk
    have hv : v = v' := by
      have e := h k
      simp only [entries, List.lookup_cons_self, Option.some.injEq] at e
      exact e
    subst hv
    have ih := ordered_ext l l' p1.2 p2.2 fun u => by
      have e := h u
      simp only [entries, lookup_ite] at e
      by_cases hu : u = k
      · subst hu
        rw [lookup_none_of_lt p1.1, lookup_none_of_lt p2.1]
      · simpa [hu] using e
    rw [ih]

theorem insertAll_object {ps : List (List Char × Value)} {l : Members} (h : Object ps l) : insertAll .nil ps = l := by
  obtain ⟨h1, h2⟩ := insertAll_spec ps .nil (by simp [Ordered, entries])
  refine ordered_ext _ _ h1 h.1 fun k => ?_
  rw [h2, h.2]
  simp [entries]

end Sol.Json
