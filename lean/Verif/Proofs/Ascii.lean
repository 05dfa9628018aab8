import Verif.Proofs.DataFile
import Verif.Model.Whole
/-! Model files and predictions are ASCII. -/

namespace Sol.Whole
open Sol.Params Sol.Spec Sol.DataFile

theorem plain7_nat (n : Nat) : Plain7 (Nat.toDigits 10 n) := plain7_digits (digits_decText n)

theorem plain7_showInt (n : Int) : Plain7 (showInt n) := by
  unfold showInt
  split_ifs
  · exact .cons (by decide) (plain7_nat _)
  · exact plain7_nat _

theorem plain7_put (v : F32) : Plain7 (FloatText.put v) := plain7_gText _

theorem plain7_str (s : String) (h : ∀ c ∈ s.toList, c.toNat < 128) : Plain7 s.toList := h

theorem plain7_escape (c : Char) (h : c.toNat < 128) : Plain7 (Json.escape c) := by
  unfold Json.escape
  split_ifs
  all_goals first
    | (unfold Plain7; decide)
    | skip
  · have hx : ∀ n, n < 16 → (Json.hexDigit n).toNat < 128 := by decide
    refine .cons (by decide) (.cons (by decide) (.cons (by decide) (.cons (by decide) (.cons (hx _ (by omega)) (.cons (hx _ (by omega))
      plain7_nil)))))
  · exact .cons h plain7_nil

theorem plain7_quoted {s : List Char} (h : Plain7 s) : Plain7 (Json.quoted s) := by
  unfold Json.quoted
  split_ifs
  · exact .cons (by decide) (h.append (by unfold Plain7; decide))
  · exact .cons (by decide) ((plain7_flatMap fun c hc => plain7_escape c (h c hc)).append (by unfold Plain7; decide))

theorem plain7_realText (v : F32) : Plain7 (Json.realText v) := by
  cases v with
  | fin q => exact plain7_put _
  | _ => unfold Plain7; decide

mutual
/-- The strings of a value are ASCII. -/
def PlainValue : Json.Value → Prop
  | .str s => Plain7 s
  | .obj l => PlainMembers l
  | _ => True
def PlainMembers : Json.Members → Prop
  | .nil => True
  | .cons k v l => Plain7 k ∧ PlainValue v ∧ PlainMembers l
end

mutual
theorem plain7_writeValue (here : Bool) (ind : List Char) (hi : Plain7 ind) (v : Json.Value) (h : PlainValue v) :
    Plain7 (Json.writeValue here ind v) := by
  match v with
  | .null => rw [Json.writeValue]; unfold Plain7; decide
  | .bool b => rw [Json.writeValue]; cases b <;> (unfold Plain7; decide)
  | .int n => rw [Json.writeValue]; exact plain7_showInt n
  | .real x => rw [Json.writeValue]; exact plain7_realText x
  | .str s => rw [Json.writeValue]; exact plain7_quoted h
  | .arr _ => rw [Json.writeValue]; exact plain7_nil
  | .obj .nil => rw [Json.writeValue]; unfold Plain7; decide
  | .obj (.cons k v l) =>
    rw [Json.writeValue]
    refine Plain7.append ?_ (.cons (by decide) ((plain7_writeMembers _ (.cons (by decide) hi) _ h).append
      (.cons (by decide) (hi.append (by unfold Plain7; decide)))))
    split_ifs
    · exact plain7_nil
    · exact .cons (by decide) hi
theorem plain7_writeMembers (ind : List Char) (hi : Plain7 ind) (l : Json.Members) (h : PlainMembers l) :
    Plain7 (Json.writeMembers ind l) := by
  match l with
  | .nil => rw [Json.writeMembers]; exact plain7_nil
  | .cons k v l =>
    unfold Json.writeMembers
    obtain ⟨h1, h2, h3⟩ := h
    refine .cons (by decide) (Plain7.append (hi.append ((plain7_quoted fun c hc => h1 c ((List.takeWhile_prefix _).subset hc)).append
      (.cons (by decide) (.cons (by decide) (.cons (by decide) (plain7_writeValue _ _ hi v h2)))))) ?_)
    match l, h3 with
    | .nil, _ => exact plain7_nil
    | .cons k' v' l', h3 => exact .cons (by decide) (plain7_writeMembers ind hi _ h3)
end

theorem plain_members {l : List (List Char × Json.Value)} (h : ∀ p ∈ l, Plain7 p.1 ∧ PlainValue p.2) : PlainMembers (members l) := by
  induction l with
  | nil => trivial
  | cons p l ih =>
    exact ⟨(h p List.mem_cons_self).1, (h p List.mem_cons_self).2, ih fun q hq => h q (List.mem_cons_of_mem _ hq)⟩

theorem plain_key {k : String} (h : k ∈ keys) : Plain7 k.toList := by
  have : ∀ k ∈ keys, ∀ c ∈ k.toList, c.toNat < 128 := by decide
  exact this k h

theorem plain_own {m : M} {k : String} {x : Tok} (h : own m k = some x) : PlainValue x.value := by
  unfold own at h
  split at h
  all_goals
    try split_ifs at h
    all_goals first
      | cases h
        trivial
      | cases h

theorem plain_online {m : M} {k : String} {x : Tok} (h : online m k = some x) : PlainValue x.value := by
  unfold online at h
  split at h
  · rename_i y hy
    cases h
    unfold common at hy
    split_ifs at hy
    all_goals
      cases hy
      try trivial
    all_goals
      simp only [Tok.value, PlainValue]
      unfold Plain7
      decide
  · exact plain_own h

theorem plain_class (c : Cls) : Plain7 (modelName c).toList := by cases c <;> (unfold Plain7; decide)

theorem plain_loss (m : M) : Plain7 (lossText m) := by
  unfold lossText
  cases m.loss with
  | none => exact plain7_nil
  | some k => cases k <;> (unfold Plain7; decide)

theorem plain7_vec (v : List F32) : Plain7 (vecText v) := by
  unfold vecText
  split_ifs
  · unfold Plain7; decide
  · exact (Plain7.append (by unfold Plain7; decide) (plain7_flatMap fun x _ => (plain7_put x).append (by unfold Plain7; decide))).append
      (by unfold Plain7; decide)

theorem plain7_vecs (name sep : String) (h1 : Plain7 name.toList) (h2 : Plain7 sep.toList) (c : Nat) (vs : List (List F32)) :
    Plain7 (vecsText name sep c vs) := by
  induction vs generalizing c with
  | nil => exact plain7_nil
  | cons v vs ih =>
    unfold vecsText
    exact ((((((h1.append (by unfold Plain7; decide)).append (plain7_showInt _)).append (by unfold Plain7; decide)).append h2).append
      (plain7_vec v)).append (by unfold Plain7; decide)).append (ih _)

theorem plain7_params (m : M) : Plain7 (paramText m) := by
  have k1 : Plain7 ":".toList := by unfold Plain7; decide
  have k2 : Plain7 ": ".toList := by unfold Plain7; decide
  unfold paramText
  refine (plain7_vecs _ _ (by unfold Plain7; decide) k1 _ _).append (Plain7.append ?_ (Plain7.append ?_ ?_))
  · split_ifs
    · exact plain7_vecs _ _ (by cases m.cls <;> (unfold Plain7; decide)) k2 _ _
    · exact plain7_nil
  · split_ifs
    · exact (Plain7.append (by unfold Plain7; decide) (plain7_vec _)).append (by unfold Plain7; decide)
    · exact plain7_nil
  · split_ifs
    · exact plain7_vecs _ _ (by unfold Plain7; decide) k2 _ _
    · exact plain7_vecs _ _ (by unfold Plain7; decide) k2 _ _
    · exact plain7_nil

theorem plain7_saveText (m : M) : Plain7 (saveText m) := by
  unfold saveText Json.write
  refine Plain7.append (by unfold Plain7; decide) (Plain7.append (Plain7.append (plain7_writeValue _ _ plain7_nil _ ?_) (by unfold Plain7; decide))
    (Plain7.append (by unfold Plain7; decide) (plain7_params m)))
  unfold tree
  refine plain_members fun p hp => ?_
  rcases List.mem_append.1 hp with hp | hp
  · simp only [List.mem_cons, List.not_mem_nil, or_false] at hp
    rcases hp with rfl | rfl | rfl | rfl | rfl | rfl
    · exact ⟨by dsimp only; unfold Plain7; decide, trivial⟩
    · exact ⟨by dsimp only; unfold Plain7; decide, trivial⟩
    · exact ⟨by dsimp only; unfold Plain7; decide, plain_loss m⟩
    · exact ⟨by dsimp only; unfold Plain7; decide, plain_class m.cls⟩
    · exact ⟨by dsimp only; unfold Plain7; decide, trivial⟩
    · refine ⟨by dsimp only; unfold Plain7; decide, plain_members fun q hq => ?_⟩
      obtain ⟨⟨k, x⟩, h1, rfl⟩ := List.mem_map.1 hq
      obtain ⟨k', h2, h3⟩ := List.mem_filterMap.1 h1
      obtain ⟨y, h4, h5⟩ := Option.map_eq_some_iff.1 h3
      cases h5
      exact ⟨plain_key h2, plain_online h4⟩
  · split at hp
    · simp at hp
    · rename_i x hx
      simp only [List.mem_singleton] at hp
      subst hp
      refine ⟨by dsimp only; unfold Plain7; decide, plain_members fun q hq => ?_⟩
      simp only [List.mem_singleton] at hq
      subst hq
      refine ⟨by dsimp only; unfold Plain7; decide, ?_⟩
      simp only [save] at hx
      split_ifs at hx
      cases hx
      trivial

theorem plain7_predText (rows : List (Train.Row F32)) : Plain7 (predText rows) := by
  unfold predText
  refine Plain7.append (by unfold Plain7; decide) (plain7_flatMap fun r _ => ?_)
  unfold rowText
  exact (plain7_showInt _).append (.cons (by decide) ((plain7_showInt _).append ((plain7_flatMap fun v _ => .cons (by decide) (plain7_put v)).append
    (by unfold Plain7; decide))))

end Sol.Whole
