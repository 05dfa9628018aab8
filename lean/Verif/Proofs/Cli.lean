import Verif.Spec.Cli
import Verif.Proofs.StrUtil
import Verif.Props.Cmdline
import Mathlib.Data.List.TakeWhile
/-! Proofs about the executables. -/

namespace Sol.Cli
open Sol.Cmdline Sol.Spec Sol.Params

theorem gap_iff (c : Char) : StrUtil.stripped c = true ↔ Gap1 c := by simp [StrUtil.stripped, Gap1]

theorem strip_of {a k : List Char} (h : FirstWord a k) : StrUtil.strip a = k := by
  unfold StrUtil.strip
  rcases h with ⟨rfl, h⟩ | ⟨x, y, rfl, hk, hx, hk', hy⟩
  · have : a.dropWhile StrUtil.stripped = [] := by
      rw [List.dropWhile_eq_nil_iff]
      exact fun c hc => (gap_iff c).2 (h c hc)
    rw [this]
    rfl
  · rw [List.append_assoc, List.dropWhile_append_of_pos (fun c hc => (gap_iff c).2 (hx c hc))]
    have : (k ++ y).dropWhile StrUtil.stripped = k ++ y := by
      obtain ⟨c, k, rfl⟩ := List.exists_cons_of_ne_nil hk
      rw [List.cons_append, List.dropWhile_cons_of_neg]
      rw [gap_iff]
      exact hk' c (by simp)
    rw [this, List.takeWhile_append_of_pos (fun c hc => by have := hk' c hc; rw [← gap_iff] at this; simpa using this)]
    cases y with
    | nil => simp
    | cons c y =>
      have := (gap_iff c).2 (hy c (by simp))
      simp [this]

theorem strip_word (a : List Char) : FirstWord a (StrUtil.strip a) := by
  by_cases h : ∀ c ∈ a, Gap1 c
  · exact (strip_of (.inl ⟨rfl, h⟩ : FirstWord a [])) ▸ .inl ⟨rfl, h⟩
  · right
    unfold StrUtil.strip
    refine ⟨a.takeWhile StrUtil.stripped, (a.dropWhile StrUtil.stripped).dropWhile (fun c => !StrUtil.stripped c), ?_, ?_, ?_, ?_, ?_⟩
    · rw [List.append_assoc, List.takeWhile_append_dropWhile, List.takeWhile_append_dropWhile]
    · intro hn
      apply h
      intro c hc
      by_contra hg
      have hne : a.dropWhile StrUtil.stripped ≠ [] := by
        intro h0
        rw [List.dropWhile_eq_nil_iff] at h0
        exact hg ((gap_iff c).1 (h0 c hc))
      obtain ⟨d, t, e⟩ := List.exists_cons_of_ne_nil hne
      have hd := List.head?_dropWhile_not StrUtil.stripped a
      rw [e] at hd hn
      simp only [List.head?_cons] at hd
      rw [List.takeWhile_cons_of_pos (by simpa using hd)] at hn
      cases hn
    · intro c hc
      exact (gap_iff c).1 (List.all_eq_true.1 (List.all_takeWhile (p := StrUtil.stripped) (l := a)) c hc)
    · intro c hc
      have := List.all_eq_true.1 (List.all_takeWhile (p := fun c => !StrUtil.stripped c) (l := a.dropWhile StrUtil.stripped)) c hc
      rw [← gap_iff]
      simpa using this
    · intro c hc
      have := List.head?_dropWhile_not (fun c => !StrUtil.stripped c) (a.dropWhile StrUtil.stripped)
      rw [Option.mem_def.1 hc] at this
      rw [← gap_iff]
      simpa using this

variable {files : List Char → Option (List Char)}

/-- One parameter. -/
theorem setParams_cons {m : M} {o k v : List Char} {os : List (List Char)} (h : StrUtil.split '=' o = [k, v]) :
    setParams files m (o :: os) =
      match set files m (String.ofList (StrUtil.strip k)) (StrUtil.strip v) with
      | (m, .accepted) => setParams files m os
      | (_, .rejected) => .inr (.exit 4)
      | (_, .thrown) => .inr .thrown
      | (_, .undef k) => .inr (.undef k) := by
  rw [setParams, h]
  rfl

theorem setParams_of {ps : List (List Char)} {l : List (String × List Char)} (h : List.Forall₂ (Setting FirstWord) ps l) {m m' : M}
    (hs : setAll files m l = (m', .accepted)) : setParams files m ps = .inl m' := by
  induction h generalizing m with
  | nil =>
    cases hs
    rfl
  | @cons o p os l h1 _ ih =>
    obtain ⟨a, b, h2, h3, h4⟩ := h1
    rw [setParams_cons (StrUtil.split_of_pieces h2), strip_of h3, strip_of h4, String.ofList_toList]
    unfold setAll andThen at hs
    obtain ⟨k, v⟩ := p
    dsimp only at hs ⊢
    generalize e : set files m k v = r at hs ⊢
    obtain ⟨m1, end1⟩ := r
    cases end1 with
    | accepted => exact ih (by simpa using hs)
    | rejected => simp at hs
    | thrown => simp at hs
    | undef => simp at hs

theorem of_setParams (ps : List (List Char)) {m m' : M} (h : setParams files m ps = .inl m') :
    ∃ l, List.Forall₂ (Setting FirstWord) ps l ∧ setAll files m l = (m', .accepted) := by
  induction ps generalizing m with
  | nil =>
    cases h
    exact ⟨[], .nil, rfl⟩
  | cons o os ih =>
    by_cases he : ∃ k v, StrUtil.split '=' o = [k, v]
    · obtain ⟨k, v, e⟩ := he
      rw [setParams_cons e] at h
      have hp := StrUtil.pieces_split '=' o.length o le_rfl
      rw [e] at hp
      generalize e1 : set files m (String.ofList (StrUtil.strip k)) (StrUtil.strip v) = r at h
      obtain ⟨m1, end1⟩ := r
      cases end1 with
      | accepted =>
        obtain ⟨l, h1, h2⟩ := ih h
        refine ⟨(String.ofList (StrUtil.strip k), StrUtil.strip v) :: l, .cons ⟨k, v, hp, ?_, strip_word v⟩ h1, ?_⟩
        · rw [String.toList_ofList]
          exact strip_word k
        · simp [setAll, andThen, e1, h2]
      | rejected => cases h
      | thrown => cases h
      | undef => cases h
    · exfalso
      rw [setParams] at h
      split at h
      · rename_i k v e
        exact he ⟨k, v, e⟩
      · cases h

theorem params_iff (m m' : M) (text : List Char) : setParams files m (StrUtil.split ';' text) = .inl m' ↔
    ∃ l, ParamList FirstWord text l ∧ setAll files m l = (m', .accepted) := by
  constructor
  · intro h
    obtain ⟨l, h1, h2⟩ := of_setParams _ h
    exact ⟨l, ⟨_, StrUtil.pieces_split ';' text.length text le_rfl, h1⟩, h2⟩
  · rintro ⟨l, ⟨ps, h1, h2⟩, h3⟩
    rw [StrUtil.split_of_pieces h1]
    exact setParams_of h2 h3

theorem withData_iff (env : Env) (j : Job) {w : Bool} {c : Int} {j' : Job} (w' : Bool) : withData env j (.done j w 0) = .done j' w' c ↔
    Readable env j ∧ j' = j ∧ w' = w ∧ c = 0 := by
  unfold withData Readable
  have e : (Ran.done j w 0 = Ran.done j' w' c) ↔ (j' = j ∧ w' = w ∧ c = 0) := by
    constructor
    · intro h
      cases h
      exact ⟨rfl, rfl, rfl⟩
    · rintro ⟨rfl, rfl, rfl⟩
      rfl
  by_cases h1 : j.buf < 0
  · rw [if_pos h1]
    simp
    omega
  rw [if_neg h1]
  by_cases h2 : j.buf = 0
  · rw [if_pos h2]
    simp
    omega
  rw [if_neg h2]
  by_cases h3 : j.batch < 0
  · rw [if_pos h3]
    simp
    omega
  rw [if_neg h3]
  by_cases h4 : env.opens j.path j.format = true
  · rw [if_neg (by simp [h4])]
    by_cases h5 : j.batch = 0 ∧ 0 < j.passes
    · rw [if_pos h5]
      simp
      omega
    · rw [if_neg h5, e]
      simp only [h4, and_true]
      constructor
      · intro h
        exact ⟨⟨by omega, by omega⟩, h⟩
      · exact fun h => h.2
  · rw [if_pos (by simpa using h4)]
    simp [h4]

/-- The class with a name. -/
theorem classNamed_iff (a : List Char) (c : Cls) : classNamed a = some c ↔ (modelName c).toList = a.map Char.toLower := by
  unfold classNamed
  constructor
  · intro h
    have := List.find?_some h
    simpa using this
  · intro h
    rw [← h]
    clear h a
    cases c <;> decide +kernel

end Sol.Cli

namespace Sol.Cli
open Sol.Cmdline Sol.Spec Sol.Params Sol.Props

/-- A value of the kind that a reader gives. -/
def Fits : Reader → Val → Prop
  | .str, .str _ => True
  | .oneOf _, .str _ => True
  | .int, .int _ => True
  | .real, .real _ => True
  | _, _ => False

instance (r : Reader) (x : Val) : Decidable (Fits r x) := by
  unfold Fits
  split <;> infer_instance

theorem fits_read {r : Reader} {v : List Char} {x : Val} (h : r.read v = some x) : Fits r x := by
  cases r with
  | str =>
    cases h
    trivial
  | oneOf alts =>
    dsimp only [Reader.read] at h
    split_ifs at h
    cases h
    trivial
  | int =>
    dsimp only [Reader.read] at h
    split at h
    · cases h
      trivial
    · cases h
  | real =>
    dsimp only [Reader.read] at h
    split at h
    · cases h
      trivial
    · cases h

theorem clause_fits {os : List Opt} {a : List (List Char)} {g : List (Opt × Option Val)} {vs : List (List Char)} (h : Clause os a g vs) :
    ∀ o x r, (o, some x) ∈ g → o.reader = some r → Fits r x := by
  intro o x r hm hr
  cases h with
  | word => cases hm
  | dash => cases hm
  | joined ho hn hr' hx =>
    simp only [List.mem_singleton, Prod.mk.injEq, Option.some.injEq] at hm
    obtain ⟨rfl, rfl⟩ := hm
    rw [hr] at hr'
    cases hr'
    exact fits_read hx
  | apart ho hn hr' hx =>
    simp only [List.mem_singleton, Prod.mk.injEq, Option.some.injEq] at hm
    obtain ⟨rfl, rfl⟩ := hm
    rw [hr] at hr'
    cases hr'
    exact fits_read hx
  | flag ho hn hr' => simp at hm
  | short hc h0 hl => simp at hm
  | shortValue h0 hl ho hn hs hr' hx =>
    simp only [List.mem_append, List.mem_map, List.mem_singleton, Prod.mk.injEq, reduceCtorEq, and_false, exists_false, Option.some.injEq,
      false_or] at hm
    obtain ⟨rfl, rfl⟩ := hm
    rw [hr] at hr'
    cases hr'
    exact fits_read hx

theorem says_fits {os : List Opt} {args : List (List Char)} {g : List (Opt × Option Val)} {vs : List (List Char)} (h : Says os args g vs) :
    ∀ o x r, (o, some x) ∈ g → o.reader = some r → Fits r x := by
  induction h with
  | nil => simp
  | cons h1 _ ih =>
    intro o x r hm
    rcases List.mem_append.1 hm with hm | hm
    · exact clause_fits h1 o x r hm
    · exact ih o x r hm

/-- A command line that was taken as it is written. -/
structure Taken (os : List Opt) (s : St) (g : List (Opt × Option Val)) (ws : List (List Char)) : Prop where
  distinct : Distinct os
  mem : ∀ o x, (o, x) ∈ g → o ∈ os
  fits : ∀ o x r, (o, some x) ∈ g → o.reader = some r → Fits r x
  told : Told os s g ws

variable {os : List Opt} {s : St} {g : List (Opt × Option Val)} {ws : List (List Char)}

theorem present_iff (h : Taken os s g ws) {o : Opt} (ho : o ∈ os) {name : String} (hn : o.name = name.toList) :
    s.exist name.toList = some true ↔ Present g name := by
  rw [← hn, (h.told.2.2 o ho).1]
  constructor
  · rintro ⟨x, hx⟩
    exact ⟨o, x, hx, hn⟩
  · rintro ⟨p, x, hx, hp⟩
    obtain rfl := same_of_name h.distinct (h.mem p x hx) ho (hp.trans hn.symm)
    exact ⟨x, hx⟩

theorem value_iff (h : Taken os s g ws) {o : Opt} (ho : o ∈ os) {name : String} (hn : o.name = name.toList) (hr : o.reader ≠ none)
    (x : Val) : s.get name.toList = some x ↔ Value os g name x := by
  obtain ⟨y, h1, h2⟩ := (h.told.2.2 o ho).2.2 hr
  rw [← hn, h1, Option.some.injEq, eq_comm, ← h2]
  constructor
  · exact fun hx => ⟨o, ho, hn, hx⟩
  · rintro ⟨p, hp, e, hx⟩
    obtain rfl := same_of_name h.distinct hp ho (e.trans hn.symm)
    exact hx

theorem get_fits (h : Taken os s g ws) {o : Opt} (ho : o ∈ os) {name : String} (hn : o.name = name.toList) {r : Reader}
    (hr : o.reader = some r) (hd : Fits r o.dflt) : ∃ x, s.get name.toList = some x ∧ Fits r x := by
  have hne : o.reader ≠ none := by rw [hr]; simp
  obtain ⟨x, h1, h2⟩ := (h.told.2.2 o ho).2.2 hne
  refine ⟨x, hn ▸ h1, ?_⟩
  rcases (h2 x).2 rfl with ⟨g1, g2, e, _⟩ | ⟨_, rfl⟩
  · exact h.fits o x r (by rw [e]; simp) hr
  · exact hd

/-- An option with a text, of a table. -/
def HasStr (os : List Opt) (name : String) : Prop :=
  ∃ o ∈ os, o.name = name.toList ∧ ∃ r, o.reader = some r ∧ (∀ x, Fits r x → ∃ v, x = .str v) ∧ Fits r o.dflt

/-- An option with a number, of a table. -/
def HasInt (os : List Opt) (name : String) : Prop :=
  ∃ o ∈ os, o.name = name.toList ∧ o.reader = some .int ∧ Fits .int o.dflt

theorem str_iff (h : Taken os s g ws) {name : String} (hs : HasStr os name) (v : List Char) : str s name = v ↔ Value os g name (.str v) := by
  obtain ⟨o, ho, hn, r, hr, hk, hd⟩ := hs
  obtain ⟨x, hx, hf⟩ := get_fits h ho hn hr hd
  obtain ⟨w, rfl⟩ := hk x hf
  rw [← value_iff h ho hn (by rw [hr]; simp), hx]
  unfold str
  rw [hx]
  simp

theorem num_iff (h : Taken os s g ws) {name : String} (hs : HasInt os name) (v : Int) : num s name = v ↔ Value os g name (.int v) := by
  obtain ⟨o, ho, hn, hr, hd⟩ := hs
  obtain ⟨x, hx, hf⟩ := get_fits h ho hn hr hd
  rw [← value_iff h ho hn (by rw [hr]; simp), hx]
  unfold num
  rw [hx]
  cases x with
  | int n => simp
  | str => exact hf.elim
  | real => exact hf.elim

theorem fits_str {x : Val} (h : Fits .str x) : ∃ v, x = .str v := by
  cases x with
  | str v => exact ⟨v, rfl⟩
  | int => exact h.elim
  | real => exact h.elim

theorem fits_oneOf {l : List (List Char)} {x : Val} (h : Fits (.oneOf l) x) : ∃ v, x = .str v := by
  cases x with
  | str v => exact ⟨v, rfl⟩
  | int => exact h.elim
  | real => exact h.elim

theorem train_strs : HasStr trainOpts "format" ∧ HasStr trainOpts "algo" ∧ HasStr trainOpts "model" ∧ HasStr trainOpts "params" := by
  refine ⟨⟨trainOpts[1], by decide, rfl, _, rfl, fun _ => fits_oneOf, by decide⟩, ⟨trainOpts[7], by decide, rfl, _, rfl, fun _ => fits_str, by decide⟩,
    ⟨trainOpts[8], by decide, rfl, _, rfl, fun _ => fits_str, by decide⟩, ⟨trainOpts[9], by decide, rfl, _, rfl, fun _ => fits_str, by decide⟩⟩

theorem train_ints : HasInt trainOpts "classes" ∧ HasInt trainOpts "pass" ∧ HasInt trainOpts "batchsize" ∧ HasInt trainOpts "bufsize" := by
  refine ⟨⟨trainOpts[2], by decide, rfl, rfl, by decide⟩, ⟨trainOpts[3], by decide, rfl, rfl, by decide⟩,
    ⟨trainOpts[5], by decide, rfl, rfl, by decide⟩, ⟨trainOpts[6], by decide, rfl, rfl, by decide⟩⟩

theorem test_strs : HasStr testOpts "format" ∧ HasStr testOpts "filter" := by
  refine ⟨⟨testOpts[0], by decide, rfl, _, rfl, fun _ => fits_oneOf, by decide⟩, ⟨testOpts[3], by decide, rfl, _, rfl, fun _ => fits_str, by decide⟩⟩

theorem test_ints : HasInt testOpts "batchsize" ∧ HasInt testOpts "bufsize" := by
  refine ⟨⟨testOpts[1], by decide, rfl, rfl, by decide⟩, ⟨testOpts[2], by decide, rfl, rfl, by decide⟩⟩

/-! ### The model -/

theorem firstModel_of {env : Env} (h : Taken os s g ws) (h1 : HasStr os "model") (h2 : HasStr os "algo") (h3 : HasInt os "classes")
    (m : M) : firstModel env s = .inl m ↔ Start os env g m := by
  have hp : s.exist "model".toList = some true ↔ Present g "model" := by
    obtain ⟨o, ho, hn, _⟩ := h1
    exact present_iff h ho hn
  have hm := str_iff h h1
  have ha := str_iff h h2
  have hc := num_iff h h3
  clear h1 h2 h3
  unfold firstModel Start
  by_cases h1 : Present g "model"
  · rw [if_pos (hp.2 h1)]
    constructor
    · intro h2
      refine .inl ⟨h1, _, (hm _).1 rfl, ?_⟩
      generalize env.load (str s "model") = r at h2 ⊢
      cases r with
      | model m' =>
        cases h2
        rfl
      | null => cases h2
      | thrown => cases h2
      | undef => cases h2
    · rintro (⟨_, p, h2, h3⟩ | ⟨h2, _⟩)
      · rw [(hm p).2 h2, h3]
      · exact absurd h1 h2
  · rw [if_neg (fun h2 => h1 (hp.1 h2))]
    have hcreate : ∀ c n m, create c n = some m ↔ 1 < n ∧ m = fresh c n := by
      intro c n m
      unfold create
      split_ifs with hn
      · rw [Option.some.injEq]
        exact ⟨fun h => ⟨hn, h.symm⟩, fun h => h.2.symm⟩
      · simp [hn]
    constructor
    · intro h2
      split_ifs at h2 with h3
      split at h2
      · rename_i m' e
        cases h2
        obtain ⟨c, h4, h5⟩ := Option.bind_eq_some_iff.1 e
        obtain ⟨h6, h7⟩ := (hcreate _ _ _).1 h5
        exact .inr ⟨h1, _, _, c, (ha _).1 rfl, (hc _).1 rfl, h6, (classNamed_iff _ _).1 h4, h7⟩
      · cases h2
    · rintro (⟨h2, _⟩ | ⟨_, a, n, c, h2, h3, h4, h5, h6⟩)
      · exact absurd h2 h1
      · rw [(ha a).2 h2, (hc n).2 h3, (classNamed_iff a c).2 h5]
        have hne : a ≠ [] := by
          rintro rfl
          have : (modelName c).toList ≠ [] := by cases c <;> decide
          exact this (by rw [h5]; rfl)
        rw [if_neg hne]
        dsimp only [Option.bind]
        rw [(hcreate c n m).2 ⟨h4, h6⟩]

theorem firstModel_iff {env : Env} (h : Taken trainOpts s g ws) (m : M) : firstModel env s = .inl m ↔ Start trainOpts env g m :=
  firstModel_of h train_strs.2.2.1 train_strs.2.1 train_ints.1 m

theorem output_iff (o : List Char) (out : Option (List Char)) : outPath o = out ↔ Output o out := by
  unfold outPath Output
  split_ifs with h
  · simp only [h, true_and, ne_eq, not_true_eq_false, false_and, or_false]
    exact eq_comm
  · simp only [h, false_and, ne_eq, not_false_eq_true, true_and, false_or]
    exact eq_comm

theorem setParams_ne {files : List Char → Option (List Char)} {j : Job} {w : Bool} {c : Int} (ps : List (List Char)) (m : M) :
    setParams files m ps ≠ .inr (.done j w c) := by
  induction ps generalizing m with
  | nil =>
    intro h
    cases h
  | cons o os ih =>
    intro hp
    rw [setParams] at hp
    split at hp
    · rename_i k v _
      generalize set files m (String.ofList (StrUtil.strip k)) (StrUtil.strip v) = r at hp
      obtain ⟨m1, end1⟩ := r
      cases end1 with
      | accepted => exact ih m1 hp
      | rejected => cases hp
      | thrown => cases hp
      | undef => cases hp
    · cases hp

theorem trainWith_iff {env : Env} (h : Taken trainOpts s g ws) (i : List Char) (out : Option (List Char)) (j : Job) (w : Bool) (c : Int) :
    trainWith env s i out = .done j w c ↔
      (j.path = i ∧ j.out = out ∧
        (∃ m p l, Start trainOpts env g m ∧ Value trainOpts g "params" (.str p) ∧ ParamList FirstWord p l ∧ setAll env.files m l = (j.model, .accepted)) ∧
        Sized trainOpts g j ∧ Value trainOpts g "pass" (.int j.passes) ∧ Readable env j) ∧ w = Writes env j ∧ c = 0 := by
  have hf := str_iff h train_strs.1
  have hps := str_iff h train_strs.2.2.2
  have hpass := num_iff h train_ints.2.1
  have hb := num_iff h train_ints.2.2.1
  have hq := num_iff h train_ints.2.2.2
  unfold trainWith
  cases hm : firstModel env s with
  | inr r =>
    dsimp only
    constructor
    · rintro rfl
      unfold firstModel at hm
      split_ifs at hm
      · split at hm <;> cases hm
      · cases hm
      · split at hm <;> cases hm
    · rintro ⟨⟨_, _, ⟨m, p, l, h1, _⟩, _⟩, _⟩
      rw [(firstModel_iff h m).2 h1] at hm
      cases hm
  | inl m =>
    dsimp only
    cases hp : setParams env.files m (StrUtil.split ';' (str s "params")) with
    | inr r =>
      dsimp only
      constructor
      · rintro rfl
        exact absurd hp (setParams_ne _ _)
      · rintro ⟨⟨_, _, ⟨m', p, l, h1, h2, h3, h4⟩, _⟩, _⟩
        rw [(firstModel_iff h m').2 h1] at hm
        cases hm
        rw [(hps p).2 h2, (params_iff m j.model p).2 ⟨l, h3, h4⟩] at hp
        cases hp
    | inl m' =>
      dsimp only
      rw [withData_iff]
      constructor
      · rintro ⟨h1, rfl, rfl, rfl⟩
        obtain ⟨l, h2, h3⟩ := (params_iff _ _ _).1 hp
        exact ⟨⟨rfl, rfl, ⟨m, _, l, (firstModel_iff h m).1 hm, (hps _).1 rfl, h2, h3⟩, ⟨(hf _).1 rfl, (hb _).1 rfl, (hq _).1 rfl⟩,
          (hpass _).1 rfl, h1⟩, rfl, rfl⟩
      · rintro ⟨⟨h1, h2, ⟨m1, p, l, h3, h4, h5, h6⟩, ⟨h7, h8, h9⟩, h10, h11⟩, h12, h13⟩
        rw [(firstModel_iff h m1).2 h3] at hm
        cases hm
        rw [(hps p).2 h4, (params_iff m j.model p).2 ⟨l, h5, h6⟩] at hp
        cases hp
        have e : (⟨j.model, i, str s "format", num s "pass", num s "batchsize", num s "bufsize", out⟩ : Job) = j := by
          rw [(hf _).2 h7, (hb _).2 h8, (hq _).2 h9, (hpass _).2 h10, ← h1, ← h2]
        rw [e]
        exact ⟨h11, rfl, by rw [h12, Writes, h2], h13⟩

theorem train_iff {env : Env} (h : Taken trainOpts s g ws) (j : Job) (w : Bool) (c : Int) :
    train env s = .done j w c ↔ AsksTrain env g ws j ∧ w = Writes env j ∧ c = 0 := by
  have hw : s.others = ws := h.told.2.1
  unfold train
  rw [hw]
  constructor
  · intro h1
    split at h1
    · obtain ⟨⟨h2, h3, h4, h5, h6, h7⟩, h8⟩ := (trainWith_iff h _ _ _ _ _).1 h1
      exact ⟨⟨.inl ⟨by rw [h2], h3⟩, h4, h5, h6, h7⟩, h8⟩
    · obtain ⟨⟨h2, h3, h4, h5, h6, h7⟩, h8⟩ := (trainWith_iff h _ _ _ _ _).1 h1
      exact ⟨⟨.inr ⟨_, by rw [h2], (output_iff _ _).1 h3.symm⟩, h4, h5, h6, h7⟩, h8⟩
    · cases h1
  · rintro ⟨⟨h1, h4, h5, h6, h7⟩, h8⟩
    rcases h1 with ⟨rfl, h2⟩ | ⟨o, rfl, h2⟩
    · exact (trainWith_iff h _ _ _ _ _).2 ⟨⟨rfl, h2, h4, h5, h6, h7⟩, h8⟩
    · exact (trainWith_iff h _ _ _ _ _).2 ⟨⟨rfl, ((output_iff _ _).2 h2).symm, h4, h5, h6, h7⟩, h8⟩

theorem testWith_iff {env : Env} (h : Taken testOpts s g ws) (p i : List Char) (out : Option (List Char)) (j : Job) (w : Bool) (c : Int) :
    testWith env s p i out = .done j w c ↔
      (j.path = i ∧ j.out = out ∧ j.passes = 1 ∧
        (∃ m, env.load p = .model m ∧ ((¬ Present g "filter" ∧ j.model = m) ∨
          (Present g "filter" ∧ ∃ f, Value testOpts g "filter" (.str f) ∧ set env.files m "filter" f = (j.model, .accepted)))) ∧
        Sized testOpts g j ∧ Readable env j) ∧ w = Writes env j ∧ c = 0 := by
  have hf := str_iff h test_strs.1
  have hflt := str_iff h test_strs.2
  have hb := num_iff h test_ints.1
  have hq := num_iff h test_ints.2
  have hp : s.exist "filter".toList = some true ↔ Present g "filter" := present_iff h (o := testOpts[3]) (by decide) rfl
  unfold testWith
  cases hl : env.load p with
  | null => simp
  | thrown => simp
  | undef => simp
  | model m =>
    dsimp only
    -- the model after the filter
    have key : ∀ m', (if s.exist "filter".toList = some true then set env.files m "filter" (str s "filter") else (m, .accepted)) = (m', .accepted) ↔
        ((¬ Present g "filter" ∧ m' = m) ∨
          (Present g "filter" ∧ ∃ f, Value testOpts g "filter" (.str f) ∧ set env.files m "filter" f = (m', .accepted))) := by
      intro m'
      by_cases h1 : Present g "filter"
      · rw [if_pos (hp.2 h1)]
        constructor
        · exact fun h2 => .inr ⟨h1, _, (hflt _).1 rfl, h2⟩
        · rintro (⟨h2, _⟩ | ⟨_, f, h2, h3⟩)
          · exact absurd h1 h2
          · rw [(hflt f).2 h2, h3]
      · rw [if_neg (fun h2 => h1 (hp.1 h2)), Prod.mk.injEq]
        constructor
        · exact fun h2 => .inl ⟨h1, h2.1.symm⟩
        · rintro (⟨_, h2⟩ | ⟨h2, _⟩)
          · exact ⟨h2.symm, rfl⟩
          · exact absurd h2 h1
    generalize (if s.exist "filter".toList = some true then set env.files m "filter" (str s "filter") else (m, .accepted)) = r at key ⊢
    obtain ⟨m1, end1⟩ := r
    have none_of : end1 ≠ .accepted → ∀ j : Job, ¬ (∃ m', Loaded.model m = Loaded.model m' ∧ ((¬ Present g "filter" ∧ j.model = m') ∨
          (Present g "filter" ∧ ∃ f, Value testOpts g "filter" (.str f) ∧ set env.files m' "filter" f = (j.model, .accepted)))) := by
      rintro hne j ⟨m', e, hx⟩
      cases e
      have := (key j.model).2 hx
      rw [Prod.mk.injEq] at this
      exact hne this.2
    cases end1 with
    | rejected => exact ⟨fun h => (by cases h), fun h => absurd h.1.2.2.2.1 (none_of (by simp) j)⟩
    | thrown => exact ⟨fun h => (by cases h), fun h => absurd h.1.2.2.2.1 (none_of (by simp) j)⟩
    | undef k => exact ⟨fun h => (by cases h), fun h => absurd h.1.2.2.2.1 (none_of (by simp) j)⟩
    | accepted =>
      dsimp only
      rw [withData_iff]
      constructor
      · rintro ⟨h1, rfl, rfl, rfl⟩
        exact ⟨⟨rfl, rfl, rfl, ⟨m, rfl, (key m1).1 rfl⟩, ⟨(hf _).1 rfl, (hb _).1 rfl, (hq _).1 rfl⟩, h1⟩, rfl, rfl⟩
      · rintro ⟨⟨h1, h2, h3, ⟨m', e, h4⟩, ⟨h7, h8, h9⟩, h11⟩, h12, h13⟩
        cases e
        have := (key j.model).2 h4
        rw [Prod.mk.injEq] at this
        obtain ⟨rfl, _⟩ := this
        have e : (⟨j.model, i, str s "format", 1, num s "batchsize", num s "bufsize", out⟩ : Job) = j := by
          rw [(hf _).2 h7, (hb _).2 h8, (hq _).2 h9, ← h1, ← h2, ← h3]
        rw [e]
        exact ⟨h11, rfl, by rw [h12, Writes, h2], h13⟩

theorem test_iff {env : Env} (h : Taken testOpts s g ws) (j : Job) (w : Bool) (c : Int) :
    test env s = .done j w c ↔ AsksTest env g ws j ∧ w = Writes env j ∧ c = 0 := by
  have hw : s.others = ws := h.told.2.1
  unfold test
  rw [hw]
  constructor
  · intro h1
    split at h1
    · obtain ⟨⟨h2, h3, h4, ⟨m, h5, h6⟩, h7, h8⟩, h9⟩ := (testWith_iff h _ _ _ _ _ _).1 h1
      exact ⟨⟨⟨_, m, h5, .inl ⟨by rw [h2], h3⟩, h6⟩, h7, h4, h8⟩, h9⟩
    · obtain ⟨⟨h2, h3, h4, ⟨m, h5, h6⟩, h7, h8⟩, h9⟩ := (testWith_iff h _ _ _ _ _ _).1 h1
      exact ⟨⟨⟨_, m, h5, .inr ⟨_, by rw [h2], (output_iff _ _).1 h3.symm⟩, h6⟩, h7, h4, h8⟩, h9⟩
    · cases h1
  · rintro ⟨⟨⟨p, m, h1, h2, h3⟩, h4, h5, h6⟩, h8⟩
    rcases h2 with ⟨rfl, h2⟩ | ⟨o, rfl, h2⟩
    · exact (testWith_iff h _ _ _ _ _ _).2 ⟨⟨rfl, h2, h5, ⟨m, h1, h3⟩, h4, h6⟩, h8⟩
    · exact (testWith_iff h _ _ _ _ _ _).2 ⟨⟨rfl, ((output_iff _ _).2 h2).symm, h5, ⟨m, h1, h3⟩, h4, h6⟩, h8⟩

end Sol.Cli
