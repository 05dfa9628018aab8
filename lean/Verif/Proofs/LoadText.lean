import Mathlib.Data.List.Chain
import Verif.Model.LoadText
import Verif.Proofs.JsonMore
import Verif.Proofs.JsonWrite
import Verif.Props.LoadLoop
import Verif.Proofs.Save
/-!
# Saved files as text
-/

namespace Sol.Json
open Sol.FloatText Sol.Text Sol.TextWriters Sol.Spec Sol.Props

/-! ### No line of the settings is "model parameters:" -/

/-- No newline is followed by an m. -/
abbrev Calm (t : List Char) : Prop := t.IsChain fun c d => c = '\n' → d ≠ 'm'

theorem calm_cons {c : Char} {t : List Char} (hc : c ≠ '\n') (h : Calm t) : Calm (c :: t) := by
  cases t with
  | nil => simp [Calm]
  | cons d t =>
    rw [Calm, List.isChain_cons_cons]
    exact ⟨fun e => absurd e hc, h⟩

theorem calm_plain {p t : List Char} (hp : '\n' ∉ p) (h : Calm t) : Calm (p ++ t) := by
  induction p with
  | nil => exact h
  | cons c p ih =>
    rw [List.mem_cons, not_or] at hp
    exact calm_cons (fun e => hp.1 e.symm) (ih hp.2)

theorem calm_newline {t : List Char} (h : Calm t) (hm : t.head? ≠ some 'm') : Calm ('\n' :: t) := by
  cases t with
  | nil => simp [Calm]
  | cons d t =>
    rw [Calm, List.isChain_cons_cons]
    refine ⟨fun _ e => hm ?_, h⟩
    rw [List.head?_cons, e]

/-- Indentation. -/
def Tabs (t : List Char) : Prop := ∀ c ∈ t, c = '\t'

theorem tabs_plain {t : List Char} (h : Tabs t) : '\n' ∉ t := fun hc => absurd (h _ hc) (by decide)

theorem calm_line {ind t : List Char} (hi : Tabs ind) (h : Calm t) (hm : t.head? ≠ some 'm') : Calm ('\n' :: (ind ++ t)) := by
  refine calm_newline (calm_plain (tabs_plain hi) h) ?_
  cases ind with
  | nil => exact hm
  | cons c ind =>
    rw [hi c List.mem_cons_self]
    simp

theorem quoted_plain (s : List Char) : '\n' ∉ quoted s ∧ (quoted s).head? = some '"' := by
  obtain ⟨t, h1, _, h3⟩ := quoted_text s
  rw [h1]
  exact ⟨by simp [h3], rfl⟩

mutual
theorem calm_write : ∀ {n : Nat} {v : Value}, Writable n v → ∀ (here : Bool) (ind : List Char), Tabs ind → ∀ t, Calm t →
    Calm (writeValue here ind v ++ t)
  | _, _, .null, _, _, _, _, h => calm_plain (p := "null".toList) (by decide) h
  | _, _, .bool (b := true), _, _, _, _, h => calm_plain (p := "true".toList) (by decide) h
  | _, _, .bool (b := false), _, _, _, _, h => calm_plain (p := "false".toList) (by decide) h
  | _, _, .int h1 h2, _, _, _, _, h => calm_plain (noNewline_num (num_int h1 h2)) h
  | _, _, .real hq, _, _, _, _, h => calm_plain (noNewline_num (again_real hq).1) h
  | _, _, .nan, _, _, _, _, h => calm_plain (p := "null".toList) (by decide) h
  | _, _, .str (s := s), _, _, _, _, h => calm_plain (p := quoted s) (quoted_plain s).1 h
  | _, _, .obj (l := .nil) _ _, _, _, _, _, h => calm_plain (p := "{}".toList) (by decide) h
  | _, _, .obj (l := .cons k v l) hl _, here, ind, hi, t, h => by
    have hend : Calm ('\n' :: (ind ++ ('}' :: t))) := calm_line hi (calm_cons (by decide) h) (by simp)
    have hmem := calm_members hl ('\t' :: ind) (fun c hc => by
      rcases List.mem_cons.1 hc with hc | hc
      · exact hc
      · exact hi c hc) _ hend
    have hin := calm_cons (c := '{') (by decide) hmem
    have e : writeValue here ind (.obj (.cons k v l)) ++ t = (if here then [] else '\n' :: ind) ++
        ('{' :: (writeMembers ('\t' :: ind) (.cons k v l) ++ ('\n' :: (ind ++ ('}' :: t))))) := by
      rw [writeValue]
      simp
    rw [e]
    cases here with
    | true => exact hin
    | false => exact calm_line hi hin (by simp)

theorem calm_members : ∀ {n : Nat} {l : Members}, WritableAll n l → ∀ (ind : List Char), Tabs ind → ∀ t, Calm t →
    Calm (writeMembers ind l ++ t)
  | _, _, .nil, _, _, _, h => h
  | _, _, .cons (k := k) (v := v) (l := l) _ hv hl, ind, hi, t, h => by
    obtain ⟨q1, q2⟩ := quoted_plain (k.takeWhile fun c => c != '\x00')
    have tail : ∀ u, Calm u → Calm ('\n' :: (ind ++ (quoted (k.takeWhile fun c => c != '\x00') ++
        (' ' :: ':' :: ' ' :: (writeValue false ind v ++ u))))) := by
      intro u hu
      refine calm_line hi (calm_plain q1 ?_) ?_
      · exact calm_cons (by decide) (calm_cons (by decide) (calm_cons (by decide) (calm_write hv false ind hi u hu)))
      · cases hq : quoted (k.takeWhile fun c => c != '\x00') with
        | nil =>
          rw [hq] at q2
          cases q2
        | cons c r =>
          rw [hq] at q2
          rw [List.cons_append, List.head?_cons, ← List.head?_cons (l := r), q2]
          simp
    cases l with
    | nil =>
      have := tail t h
      rw [writeMembers.eq_def]
      simpa using this
    | cons k' v' l' =>
      have := tail _ (calm_cons (c := ',') (by decide) (calm_members hl ind hi t h))
      rw [writeMembers.eq_def]
      simpa using this
end

/-- No line of the written settings is "model parameters:". -/
theorem write_lines {n : Nat} {l : Members} (h : Writable n (.obj l)) : ¬ IsLine "model parameters:".toList (write (.obj l)) := by
  have hc : Calm (write (.obj l)) := calm_write h true [] (by simp [Tabs]) ['\n'] (by simp [Calm])
  have hh : (write (.obj l)).head? = some '{' := by
    cases l with
    | nil => rfl
    | cons k v l =>
      rw [write, writeValue]
      rfl
  rintro ⟨_, a, b, e, ha, _⟩
  rcases ha with rfl | ⟨a', rfl⟩
  · rw [e] at hh
    revert hh
    simp
  · rw [e] at hc
    have := List.isChain_append.1 hc
    exact this.2.2 '\n' (by simp) 'm' (by simp) rfl rfl

end Sol.Json

namespace Sol.Params
open Sol.FloatText Sol.Text Sol.TextWriters Sol.Spec Sol.Props
open Sol.Json (Value Members again againAll asString)

/-! ### The tree of the settings -/

/-- Values whose text can be read back. -/
def Kind : Tok → Prop
  | .str _ => True
  | .int n => -2 ^ 63 ≤ n ∧ n ≤ 2 ^ 64 - 1
  | .real (.fin q) => Single q
  | .real .nan => True
  | .real _ => False

theorem writable_tok {x : Tok} (h : Kind x) (n : Nat) : Writable (n + 1) x.value := by
  cases x with
  | str s => exact .str
  | int i => exact .int h.1 h.2
  | real x =>
    cases x with
    | fin q => exact .real h
    | nan => exact .nan
    | pinf => exact absurd h id
    | ninf => exact absurd h id

/-- The text of a value that was read back. -/
theorem text_again {x : Tok} (h : Kind x) : ∃ v, asString (again x.value) = some v ∧ x.text = some v := by
  cases x with
  | str s => exact ⟨s, by simp [Tok.value, again, asString], rfl⟩
  | int i => exact ⟨Json.intText i, by simp [Tok.value, again, asString], rfl⟩
  | real x =>
    cases x with
    | fin q => exact ⟨_, (Json.again_real h).2.2, rfl⟩
    | nan => exact ⟨[], by simp [Tok.value, again, asString], rfl⟩
    | pinf => exact absurd h id
    | ninf => exact absurd h id

theorem entries_members (l : List (List Char × Value)) : entries (members l) = l := by
  induction l with
  | nil => rfl
  | cons p l ih =>
    obtain ⟨k, v⟩ := p
    rw [members, entries, ih]

theorem toList_members (l : List (List Char × Value)) : (members l).toList = l := by
  induction l with
  | nil => rfl
  | cons p l ih =>
    obtain ⟨k, v⟩ := p
    rw [members, Members.toList, ih]

theorem again_members (l : List (List Char × Value)) : againAll (members l) = members (l.map fun p => (p.1, again p.2)) := by
  induction l with
  | nil => rfl
  | cons p l ih =>
    obtain ⟨k, v⟩ := p
    rw [members, againAll, ih]
    rfl

theorem writable_members {n : Nat} {l : List (List Char × Value)} (h : ∀ p ∈ l, '\x00' ∉ p.1 ∧ Writable n p.2) :
    WritableAll n (members l) := by
  induction l with
  | nil => exact .nil
  | cons p l ih =>
    obtain ⟨k, v⟩ := p
    have := h (k, v) List.mem_cons_self
    exact .cons this.1 this.2 (ih fun p hp => h p (List.mem_cons_of_mem _ hp))

/-- The conditions for settings that can be read back. -/
structure Readable (f : File) : Prop where
  clsNum : -2147483648 ≤ f.clsNum ∧ f.clsNum ≤ 2147483647
  clfNum : -2147483648 ≤ f.clfNum ∧ f.clfNum ≤ 2147483647
  norm : -2147483648 ≤ f.norm ∧ f.norm ≤ 2147483647
  lambda : ∀ x, f.lambda = some x → Kind x
  online : ∀ p ∈ f.online, '\x00' ∉ p.1.toList ∧ Kind p.2
  order : (f.online.map fun p => p.1.toList).Pairwise (fun a b => a < b)

theorem writable_tree {f : File} (h : Readable f) : Writable 3 (tree f) := by
  refine .obj (writable_members ?_) ?_
  · intro p hp
    have honline : Writable 2 (.obj (members (f.online.map fun p => (p.1.toList, p.2.value)))) := by
      refine .obj (writable_members ?_) ?_
      · intro p hp
        obtain ⟨q, hq, rfl⟩ := List.mem_map.1 hp
        exact ⟨(h.online q hq).1, writable_tok (h.online q hq).2 0⟩
      · rw [entries_members, List.pairwise_map]
        exact List.pairwise_map.1 h.order
    rcases List.mem_append.1 hp with hp | hp
    · simp only [List.mem_cons, List.not_mem_nil, or_false] at hp
      rcases hp with rfl | rfl | rfl | rfl | rfl | rfl
      · exact ⟨by dsimp only; decide, .int (by have := h.clfNum; omega) (by have := h.clfNum; omega)⟩
      · exact ⟨by dsimp only; decide, .int (by have := h.clsNum; omega) (by have := h.clsNum; omega)⟩
      · exact ⟨by dsimp only; decide, .str⟩
      · exact ⟨by dsimp only; decide, .str⟩
      · exact ⟨by dsimp only; decide, .int (by have := h.norm; omega) (by have := h.norm; omega)⟩
      · exact ⟨by dsimp only; decide, honline⟩
    · cases hl : f.lambda with
      | none =>
        rw [hl] at hp
        simp at hp
      | some x =>
        rw [hl] at hp
        simp only [List.mem_cons, List.not_mem_nil, or_false] at hp
        subst hp
        refine ⟨by dsimp only; decide, .obj (writable_members ?_) ?_⟩
        · intro p hp
          simp only [List.mem_cons, List.not_mem_nil, or_false] at hp
          subst hp
          exact ⟨by dsimp only; decide, writable_tok (h.lambda x hl) 0⟩
        · simp [entries_members]
  · rw [entries_members, ← List.pairwise_map (f := fun p : List Char × Value => p.1) (R := fun a b => a < b)]
    cases f.lambda with
    | none => simp only [List.append_nil, List.map_cons, List.map_nil]; decide
    | some x => simp only [List.map_append, List.map_cons, List.map_nil]; decide

/-! ### Loading the tree -/

theorem setEach_again {files : List Char → Option (List Char)} {l : List (String × Tok)} (h : ∀ p ∈ l, Kind p.2) :
    ∃ vs, texts l = some vs ∧ ∀ m, setEach files m (l.map fun p => (p.1.toList, again p.2.value)) = setAll files m vs := by
  induction l with
  | nil => exact ⟨[], rfl, fun _ => rfl⟩
  | cons p l ih =>
    obtain ⟨k, x⟩ := p
    obtain ⟨vs, h1, h2⟩ := ih fun p hp => h p (List.mem_cons_of_mem _ hp)
    obtain ⟨v, g1, g2⟩ := text_again (h (k, x) List.mem_cons_self)
    refine ⟨(k, v) :: vs, by simp [texts, g2, h1], fun m => ?_⟩
    dsimp only at g1
    rw [List.map_cons, setEach]
    dsimp only
    rw [g1]
    dsimp only
    rw [setAll, String.ofList_toList]
    simp only [h2]

theorem asInt_int {n : Int} (h : -2147483648 ≤ n ∧ n ≤ 2147483647) : Json.asInt (.int n) = some n := if_pos h

/-- Settings that were written and read are loaded as the tree is. -/
theorem loadRoot_again {files : List Char → Option (List Char)} {f : File} (h : Readable f)
    (hreg : ∀ c, classNamed f.model = some c → (f.lambda = none ↔ regOf c = .none)) :
    loadRoot files (again (tree f)) (some f.params) = load files f := by
  obtain ⟨vs, t1, t2⟩ := setEach_again (files := files) fun p hp => (h.online p hp).2
  have hroot : again (tree f) = .obj (members
      ([("clf_num".toList, .int f.clfNum), ("cls_num".toList, .int f.clsNum), ("loss".toList, .str f.loss),
        ("model".toList, .str f.model), ("norm".toList, .int f.norm),
        ("online".toList, .obj (members (f.online.map fun p => (p.1.toList, again p.2.value))))] ++
       match f.lambda with
       | none => []
       | some x => [("regularizer".toList, .obj (members [("lambda".toList, again x.value)]))])) := by
    unfold tree
    rw [again, again_members]
    congr 2
    cases f.lambda <;> simp [again, again_members, Function.comp_def]
  have g : ∀ name d, Json.get name d (again (tree f)) = some (((members
      ([("clf_num".toList, .int f.clfNum), ("cls_num".toList, .int f.clsNum), ("loss".toList, .str f.loss),
        ("model".toList, .str f.model), ("norm".toList, .int f.norm),
        ("online".toList, .obj (members (f.online.map fun p => (p.1.toList, again p.2.value))))] ++
       match f.lambda with
       | none => []
       | some x => [("regularizer".toList, .obj (members [("lambda".toList, again x.value)]))])).lookup name).getD d) := by
    intro name d
    rw [hroot]
    rfl
  have gmodel : ∀ d, Json.get "model".toList d (again (tree f)) = some (.str f.model) := fun d => by rw [g]; rfl
  have gcls : ∀ d, Json.get "cls_num".toList d (again (tree f)) = some (.int f.clsNum) := fun d => by rw [g]; rfl
  have gclf : ∀ d, Json.get "clf_num".toList d (again (tree f)) = some (.int f.clfNum) := fun d => by rw [g]; rfl
  have gloss : ∀ d, Json.get "loss".toList d (again (tree f)) = some (.str f.loss) := fun d => by rw [g]; rfl
  have gnorm : ∀ d, Json.get "norm".toList d (again (tree f)) = some (.int f.norm) := fun d => by rw [g]; rfl
  have gonline : ∀ d, Json.get "online".toList d (again (tree f)) =
      some (.obj (members (f.online.map fun p => (p.1.toList, again p.2.value)))) := fun d => by rw [g]; rfl
  have greg : Json.get "regularizer".toList .null (again (tree f)) = some (match f.lambda with
      | none => .null
      | some x => .obj (members [("lambda".toList, again x.value)])) := by
    rw [g]
    cases f.lambda <;> rfl
  have smodel : ∀ d, stringAt "model" d (again (tree f)) = some f.model := fun d => by rw [stringAt, gmodel]; rfl
  have scls : ∀ d, intAt "cls_num" d (again (tree f)) = some f.clsNum := fun d => by
    rw [intAt, gcls]; exact asInt_int h.clsNum
  have sclf : ∀ d, intAt "clf_num" d (again (tree f)) = some f.clfNum := fun d => by
    rw [intAt, gclf]; exact asInt_int h.clfNum
  have sloss : ∀ d, stringAt "loss" d (again (tree f)) = some f.loss := fun d => by rw [stringAt, gloss]; rfl
  have snorm : ∀ d, stringAt "norm" d (again (tree f)) = some (showInt f.norm) := fun d => by rw [stringAt, gnorm]; rfl
  have honline : ∀ m, setOnline files m (again (tree f)) = setAll files m vs := by
    intro m
    rw [setOnline, gonline]
    dsimp only
    rw [Json.pairs, toList_members]
    exact t2 m
  have hlam : ∃ lam : Option (List Char), f.lambda.map Tok.text = lam.map some ∧ ∀ m2 : M, ∀ c, classNamed f.model = some c →
      setRegs (regOf c) m2 (again (tree f)) =
      match lam with
      | none => (m2, .accepted)
      | some v => (regSet m2 "lambda" v).getD (m2, .accepted) := by
    cases hl : f.lambda with
    | none =>
      refine ⟨none, rfl, fun m2 c _ => ?_⟩
      rw [setRegs, greg, hl]
    | some x =>
      obtain ⟨v, g1, g2⟩ := text_again (h.lambda x hl)
      refine ⟨some v, by simp [g2], fun m2 c hc => ?_⟩
      have : regOf c ≠ .none := fun e => by
        have := (hreg c hc).2 e
        rw [hl] at this
        cases this
      rw [setRegs, greg, hl]
      dsimp only
      rw [if_neg this, Json.pairs, toList_members, setReg, g1]
      dsimp only
      rw [show String.ofList "lambda".toList = "lambda" by simp]
      cases regSet m2 "lambda" v with
      | none => rfl
      | some r =>
        obtain ⟨m3, e⟩ := r
        cases e <;> rfl
  obtain ⟨lam, l1, l2⟩ := hlam
  have hinfo : ∀ m c, classNamed f.model = some c → m.cls = c → setInfo files m (again (tree f)) = setModelInfo files m f lam := by
    rintro m c hc rfl
    rw [setInfo, setModelInfo, smodel]
    dsimp only
    by_cases h1 : f.model = (modelName m.cls).toList
    · rw [if_neg (not_not.2 h1), scls]
      dsimp only
      by_cases h2 : f.clsNum = m.classNum
      · rw [if_neg (not_not.2 h2), sclf]
        dsimp only
        by_cases h3 : f.clfNum = m.clf
        · rw [if_neg (not_not.2 h3), sloss, if_pos ⟨h1, h2, h3⟩]
          dsimp only
          congr 1
          funext m1
          rw [snorm]
          dsimp only
          congr 1
          funext m2
          exact l2 m2 m.cls hc
        · rw [if_pos h3, if_neg (fun e => h3 e.2.2)]
      · rw [if_pos h2, if_neg (fun e => h2 e.2.1)]
    · rw [if_pos h1, if_neg (fun e => h1 e.1)]
  unfold loadRoot load
  rw [smodel, t1, l1]
  dsimp only
  rw [scls]
  dsimp only
  cases hc : classNamed f.model with
  | none => cases lam <;> rfl
  | some c =>
    cases hcr : create c f.clsNum with
    | none =>
      dsimp only
      rw [hcr]
      cases lam <;> simp [hcr]
    | some m =>
      have hmc : m.cls = c := by
        unfold create at hcr
        split at hcr
        · rw [Option.some.injEq] at hcr
          rw [← hcr]
          rfl
        · cases hcr
      dsimp only
      rw [hcr]
      dsimp only
      rw [hinfo m c hc hmc]
      simp only [honline]
      cases lam with
      | none =>
        simp only [Option.map_none, Option.join_none, hcr]
        generalize andThen (setModelInfo files m f none) _ = r
        obtain ⟨m3, e⟩ := r
        cases e <;> rfl
      | some v =>
        simp only [Option.map_some, Option.join_some, hcr]
        generalize andThen (setModelInfo files m f (some v)) _ = r
        obtain ⟨m3, e⟩ := r
        cases e <;> rfl

/-! ### The text of the file -/

theorem loop_more {n k : Nat} {s r : LoadLoop.S} (h : LoadLoop.loop n s = some r) (hk : n ≤ k) : LoadLoop.loop k s = some r := by
  induction n generalizing k s with
  | zero =>
    rw [LoadLoop.loop] at h
    split at h
    · rename_i hl
      cases k with
      | zero => rw [LoadLoop.loop, if_pos hl, h]
      | succ k => rw [LoadLoop.loop, if_pos hl, h]
    · cases h
  | succ n ih =>
    obtain ⟨k, rfl⟩ : ∃ j, k = j + 1 := ⟨k - 1, by omega⟩
    rw [LoadLoop.loop] at h ⊢
    split at h
    · rename_i hl
      rw [if_pos hl, h]
    · rename_i hl
      rw [if_neg hl]
      exact ih h (by omega)

theorem collect_more {n k : Nat} {text : List Char} {r : LoadLoop.Got} (h : LoadLoop.collect n text = some r) (hk : n ≤ k) :
    LoadLoop.collect k text = some r := by
  unfold LoadLoop.collect at h ⊢
  dsimp only at h ⊢
  split at h
  · rename_i hf
    rw [if_pos hf]
    cases hl : LoadLoop.loop n (LoadLoop.getline { rest := text, ok := true, line := [], out := [] }) with
    | none =>
      rw [hl] at h
      cases h
    | some s =>
      rw [hl] at h
      rw [loop_more hl hk]
      exact h
  · rename_i hf
    rw [if_neg hf, h]

/-- Whether `Load` ends depends on the first loop alone. -/
theorem loadText_ends (files : List Char → Option (List Char)) (junk text : List Char) :
    (∃ N r, ∀ n, N ≤ n → loadText files n junk text = some r) ↔ ∃ n g, LoadLoop.collect n text = some g := by
  constructor
  · rintro ⟨n, r, h⟩
    refine ⟨n, ?_⟩
    have h := h n le_rfl
    unfold loadText at h
    cases hc : LoadLoop.collect n text with
    | none =>
      rw [hc] at h
      cases h
    | some g => exact ⟨g, rfl⟩
  · rintro ⟨n, g, hc⟩
    cases g with
    | invalid =>
      refine ⟨n, .null, fun k hk => ?_⟩
      rw [loadText, collect_more hc hk]
    | lines s =>
      obtain ⟨p, hp⟩ : ∃ p, ∀ k, 2 * (s.out ++ junk).length + 2 ≤ k → Json.parse k s.out junk = some p :=
        Json.parse_stable s.out junk
      refine ⟨n + (2 * (s.out ++ junk).length + 2), match p with
        | .failed => .null
        | .thrown => .thrown
        | .value root => loadRoot files root (if s.ok then some s.rest else none), fun k hk => ?_⟩
      rw [loadText, collect_more hc (by omega)]
      dsimp only
      rw [hp k (by omega)]
      cases p <;> rfl

theorem keys_ordered : (keys.map String.toList).Pairwise (fun a b => a < b) ∧ ∀ k ∈ keys, '\x00' ∉ k.toList := by decide

theorem save_online (m : M) : (save m).online = keys.filterMap fun k => (online m k).map fun x => (k, x) := rfl

theorem save_online_names (m : M) : ((save m).online.map fun p => p.1.toList).Pairwise (fun a b => a < b) ∧
    ∀ p ∈ (save m).online, p.1 ∈ keys ∧ online m p.1 = some p.2 := by
  refine ⟨?_, ?_⟩
  · rw [List.pairwise_map]
    rw [save_online, List.pairwise_filterMap]
    refine (List.pairwise_map.1 keys_ordered.1).imp ?_
    intro a b hab x hx y hy
    cases ha : online m a with
    | none =>
      rw [ha] at hx
      cases hx
    | some u =>
      cases hb : online m b with
      | none =>
        rw [hb] at hy
        cases hy
      | some v =>
        rw [ha] at hx
        rw [hb] at hy
        cases hx
        cases hy
        exact hab
  · intro p hp
    obtain ⟨k, hk, e⟩ := List.mem_filterMap.1 (save_online m ▸ hp)
    cases ho : online m k with
    | none =>
      rw [ho] at e
      cases e
    | some x =>
      rw [ho] at e
      cases e
      exact ⟨hk, ho⟩

/-- The settings of a model can be read back if its numbers are finite (or not numbers at all) and fit. -/
theorem readable_save {m : M} (hc : -2147483648 ≤ m.classNum ∧ m.classNum ≤ 2147483647)
    (hk : ∀ k x, info m k = some x → Kind x) : Readable (save m) where
  clsNum := hc
  clfNum := by
    show -2147483648 ≤ m.clf ∧ m.clf ≤ 2147483647
    unfold M.clf
    split <;> omega
  norm := by
    show -2147483648 ≤ normNum m.norm ∧ normNum m.norm ≤ 2147483647
    cases m.norm <;> decide
  lambda := by
    intro x hx
    by_cases hr : regOf m.cls = .none
    · simp [save, hr] at hx
    · have : x = .real m.lambda := by simpa [save, hr] using hx.symm
      exact hk "lambda" x (by simp [info, hr, this])
  online := by
    intro p hp
    obtain ⟨h1, h2⟩ := (save_online_names m).2 p hp
    exact ⟨keys_ordered.2 _ h1, hk p.1 p.2 (info_of_online h1 h2)⟩
  order := (save_online_names m).1

theorem tree_obj (f : File) : ∃ l, tree f = .obj l := ⟨_, rfl⟩

/-- Settings that were written are read, and the rest of the file is left. -/
theorem loadText_written {files : List Char → Option (List Char)} {k : Nat} {l : Members} (hw : Writable k (.obj l)) (hk : k ≤ 1000)
    (params junk : List Char) :
    ∃ N, ∀ n, N ≤ n → loadText files n junk ("model info:\n".toList ++ (Json.write (.obj l) ++ ("model parameters:\n".toList ++ params))) =
      some (loadRoot files (again (.obj l)) (some params)) := by
  have hline := Json.write_lines hw
  obtain ⟨n0, s, c1, c2, c3, c4⟩ := C47_saved_partial (Json.write (.obj l)) params ⟨Json.writeValue true [] (.obj l), Json.write.eq_1 _⟩ hline
  have hf : Json.Keeps fun c => c != '\n' := fun c hc => by simpa using hc
  obtain ⟨w, t, e, hg, ht⟩ := Json.write_text hw (fun c => c != '\n') hf true [] (by simp [Gap])
  have hout : s.out = w ++ (t ++ "model parameters:".toList) := by
    rw [c2, joined, Json.write, List.filter_append, e]
    simp
  have hstop : Stop ("model parameters:".toList ++ junk) := by
    intro c hc
    have e : ("model parameters:".toList ++ junk).head? = some 'm' := rfl
    rw [e, Option.mem_some] at hc
    rw [← hc]
    decide
  have hparse : ∀ n, 2 * (s.out ++ junk).length + 2 ≤ n → Json.parse n s.out junk = some (.value (again (.obj l))) := by
    intro n hn
    refine Json.parse_value (rest := "model parameters:".toList ++ junk) hg (Json.val_more ht hk) hstop ?_ hn
    rw [hout, List.append_assoc, List.append_assoc]
  refine ⟨n0 + (2 * (s.out ++ junk).length + 2), fun n hn => ?_⟩
  unfold loadText
  rw [collect_more c1 (show n0 ≤ n by omega)]
  dsimp only
  rw [hparse n (by omega)]
  dsimp only
  rw [c3, c4, if_pos rfl]

/-- The text of a saved model is loaded as its tree is. -/
theorem loadText_save {files : List Char → Option (List Char)} {m : M} (h : Readable (save m)) (junk : List Char) :
    ∃ N, ∀ n, N ≤ n → loadText files n junk (saveText m) = some (load files (save m)) := by
  have hw := writable_tree h
  have hreg : ∀ c, classNamed (save m).model = some c → ((save m).lambda = none ↔ regOf c = .none) := by
    intro c hc
    have : classNamed (save m).model = some m.cls := classNamed_modelName m.cls
    rw [this, Option.some.injEq] at hc
    rw [← hc]
    by_cases hr : regOf m.cls = .none <;> simp [save, hr]
  have hroot := loadRoot_again (files := files) h hreg
  unfold saveText
  rw [← hroot]
  generalize (save m).params = params
  obtain ⟨l, hl⟩ := tree_obj (save m)
  rw [hl] at hw ⊢
  exact loadText_written hw (by omega) params junk

end Sol.Params
