import Verif.Proofs.LoadText
import Verif.Proofs.SixAgain
/-! Saving a loaded model: the text is the same again. -/

namespace Sol.Params
open Sol.Text Sol.FloatText Sol.PreProcess Sol.Spec Sol.TextWriters Sol.Json

/-- The value is written in the same way. -/
def Alike (p p' : List Char × Value) : Prop := p.1 = p'.1 ∧ ∀ here ind, writeValue here ind p.2 = writeValue here ind p'.2

theorem writeMembers_alike {l l' : List (List Char × Value)} (h : List.Forall₂ Alike l l') (ind : List Char) :
    writeMembers ind (members l) = writeMembers ind (members l') := by
  induction h with
  | nil => rfl
  | @cons p p' l l' hp hl ih =>
    obtain ⟨k, v⟩ := p
    obtain ⟨k', v'⟩ := p'
    obtain ⟨rfl, hv⟩ := hp
    have hv := hv false ind
    dsimp only at hv
    cases hl with
    | nil =>
      rw [members, members, writeMembers.eq_def, writeMembers.eq_def]
      dsimp only [members]
      rw [hv]
    | @cons q q' l l' hq hl =>
      obtain ⟨j, w⟩ := q
      obtain ⟨j', w'⟩ := q'
      simp only [members] at ih ⊢
      rw [writeMembers.eq_def ind (.cons k v _), writeMembers.eq_def ind (.cons k v' _)]
      dsimp only
      rw [hv, ih]

theorem writeObj_alike {l l' : List (List Char × Value)} (h : List.Forall₂ Alike l l') (here : Bool) (ind : List Char) :
    writeValue here ind (.obj (members l)) = writeValue here ind (.obj (members l')) := by
  have := writeMembers_alike h ('\t' :: ind)
  cases h with
  | nil => rfl
  | @cons p p' l l' hp hl =>
    obtain ⟨k, v⟩ := p
    obtain ⟨k', v'⟩ := p'
    rw [members, members] at this ⊢
    rw [writeValue, writeValue, this]

theorem write_back {x : Tok} (h : ∀ y, x = .real y → Ordinary y) (here : Bool) (ind : List Char) :
    writeValue here ind x.back.value = writeValue here ind x.value := by
  cases x with
  | str s => rfl
  | int n => rfl
  | real y =>
    have ho := h y rfl
    have hp := put_back ho
    obtain ⟨q, rfl, hs, _⟩ := ho
    obtain ⟨r, hr, _⟩ := reread_facts hs
    have hb : back (.fin q) = .fin r := hr
    show writeValue here ind (.real (back (.fin q))) = writeValue here ind (.real (.fin q))
    rw [hb] at hp ⊢
    rw [writeValue, writeValue, realText, realText, hp]

theorem vecText_back {v : List F32} (h : ∀ x ∈ v, Ordinary x) : vecText (v.map back) = vecText v := by
  unfold vecText
  have : (v.map back).flatMap (fun x => put x ++ [' ']) = v.flatMap fun x => put x ++ [' '] := by
    rw [List.flatMap_map]
    exact List.flatMap_congr fun x hx => by rw [put_back (h x hx)]
  rw [this]
  simp only [List.map_eq_nil_iff]

theorem vecsText_back (name sep : String) (c : Nat) {vs : List (List F32)} (h : ∀ v ∈ vs, ∀ x ∈ v, Ordinary x) :
    vecsText name sep c (vs.map (List.map back)) = vecsText name sep c vs := by
  induction vs generalizing c with
  | nil => rfl
  | cons v vs ih =>
    rw [List.map_cons, vecsText, vecsText, vecText_back (h v List.mem_cons_self), ih _ fun u hu => h u (List.mem_cons_of_mem _ hu)]

/-- The file of a model that reports the same values, printed and read, has the same text. -/
theorem saveText_back {m m' : M} (hc : m'.cls = m.cls) (hn : m'.classNum = m.classNum) (hl : m'.loss = m.loss)
    (hm : m'.norm = m.norm) (hi : ∀ k, info m' k = (info m k).map Tok.back) (hw : m'.w = m.w.map (List.map back))
    (hs : m'.scale = m.scale.map (List.map back)) (hu : m'.sum = m.sum.map (List.map back)) (hX : m'.X = m.X.map back)
    (ho : ∀ k x, info m k = some (.real x) → Ordinary x)
    (hv : (∀ v ∈ m.w, ∀ x ∈ v, Ordinary x) ∧ (∀ v ∈ m.scale, ∀ x ∈ v, Ordinary x) ∧ (∀ v ∈ m.sum, ∀ x ∈ v, Ordinary x) ∧
      ∀ x ∈ m.X, Ordinary x) : saveText m' = saveText m := by
  obtain ⟨v1, v2, v3, v4⟩ := hv
  have hp : (save m').params = (save m).params := by
    show paramText m' = paramText m
    unfold paramText
    rw [hw, hs, hu, hX, hc, vecsText_back _ _ _ v1, vecsText_back _ _ _ v2, vecsText_back _ _ _ v3, vecText_back v4]
  have honl : ∀ k ∈ keys, online m' k = (online m k).map Tok.back := by
    intro k hk
    by_cases hreg : k = "lambda" → regOf m.cls = .none
    · rw [← info_online hk hreg, ← info_online hk (by rw [hc]; exact hreg), hi]
    · push Not at hreg
      obtain ⟨rfl, hr⟩ := hreg
      have h1 : ∀ m : M, regOf m.cls ≠ .none → online m "lambda" = none := by
        intro m hr
        cases h : online m "lambda" with
        | none => rfl
        | some y =>
          rw [online_lambda h] at hr
          exact absurd rfl hr
      rw [h1 m hr, h1 m' (by rw [hc]; exact hr)]
      rfl
  have hlist : List.Forall₂ Alike ((save m').online.map fun p => (p.1.toList, p.2.value))
      ((save m).online.map fun p => (p.1.toList, p.2.value)) := by
    rw [save_online, save_online]
    have : ∀ ks : List String, (∀ k ∈ ks, k ∈ keys) →
        List.Forall₂ Alike ((ks.filterMap fun k => (online m' k).map fun x => (k, x)).map fun p => (p.1.toList, p.2.value))
          ((ks.filterMap fun k => (online m k).map fun x => (k, x)).map fun p => (p.1.toList, p.2.value)) := by
      intro ks
      induction ks with
      | nil => exact fun _ => .nil
      | cons k ks ih =>
        intro hk
        have ih := ih fun j hj => hk j (List.mem_cons_of_mem _ hj)
        have hkk := hk k List.mem_cons_self
        rw [List.filterMap_cons, List.filterMap_cons, honl k hkk]
        cases hx : online m k with
        | none => exact ih
        | some x =>
          refine .cons ⟨rfl, fun here ind => write_back (fun y hy => ?_) here ind⟩ ih
          subst hy
          exact ho k y (info_of_online hkk hx)
    exact this keys fun _ h => h
  have hlam : List.Forall₂ Alike
      (match (save m').lambda with
        | none => []
        | some x => [("regularizer".toList, .obj (members [("lambda".toList, x.value)]))])
      (match (save m).lambda with
        | none => []
        | some x => [("regularizer".toList, .obj (members [("lambda".toList, x.value)]))]) := by
    by_cases hr : regOf m.cls = .none
    · simp [save, hc, hr]
    · have e : (Tok.real m'.lambda) = (Tok.real m.lambda).back := by
        have := hi "lambda"
        have hr' : regOf m'.cls ≠ .none := by rw [hc]; exact hr
        simpa [info, hr, hr'] using this
      simp only [save, hc, hr, if_false, e]
      have hb : ∀ y, Tok.real m.lambda = .real y → Ordinary y := by
        intro y hy
        cases hy
        exact ho "lambda" m.lambda (by simp [info, hr])
      have ha : List.Forall₂ Alike [("lambda".toList, (Tok.real m.lambda).back.value)] [("lambda".toList, (Tok.real m.lambda).value)] :=
        .cons ⟨rfl, fun here ind => write_back hb here ind⟩ .nil
      exact .cons ⟨rfl, fun here ind => writeObj_alike ha here ind⟩ .nil
  have htree : write (tree (save m')) = write (tree (save m)) := by
    unfold write tree
    rw [writeObj_alike]
    refine List.rel_append ?_ hlam
    have hclf : (save m').clfNum = (save m).clfNum := by
      show m'.clf = m.clf
      unfold M.clf
      rw [hn]
    have hloss : (save m').loss = (save m).loss := by
      show lossText m' = lossText m
      unfold lossText
      rw [hl]
    have hmodel : (save m').model = (save m).model := by
      show (modelName m'.cls).toList = _
      rw [hc]
      rfl
    have hnorm : (save m').norm = (save m).norm := by
      show normNum m'.norm = _
      rw [hm]
      rfl
    have hcls : (save m').clsNum = (save m).clsNum := hn
    rw [hclf, hloss, hmodel, hnorm, hcls]
    exact .cons ⟨rfl, fun _ _ => rfl⟩ (.cons ⟨rfl, fun _ _ => rfl⟩ (.cons ⟨rfl, fun _ _ => rfl⟩ (.cons ⟨rfl, fun _ _ => rfl⟩
      (.cons ⟨rfl, fun _ _ => rfl⟩ (.cons ⟨rfl, fun here ind => writeObj_alike hlist here ind⟩ .nil)))))
  unfold saveText
  rw [htree, hp]

end Sol.Params
