import Verif.Spec.CApi
import Verif.Props.Cli
/-! Proofs about the C interface and its tool. -/

namespace Sol.CApi
open Sol.Cmdline Sol.Spec Sol.Params Sol.Props Sol.Cli

variable {s : Cmdline.St} {g : List (Opt × Option Val)} {ws : List (List Char)}

theorem lsolParams_eq (files : List Char → Option (List Char)) (m : M) (ps : List (List Char)) :
    lsolParams files m ps = Cli.setParams files m ps := by
  induction ps generalizing m with
  | nil => rfl
  | cons o os ih =>
    by_cases he : ∃ k v, StrUtil.split '=' o = [k, v]
    · obtain ⟨k, v, e⟩ := he
      rw [setParams_cons e, lsolParams, e]
      dsimp only
      unfold setModelParameter
      dsimp only
      generalize set files m (String.ofList (StrUtil.strip k)) (StrUtil.strip v) = r
      obtain ⟨m1, end1⟩ := r
      cases end1 with
      | accepted => exact ih m1
      | rejected => rfl
      | thrown => rfl
      | undef => rfl
    · have e1 : lsolParams files m (o :: os) = .inr (.exit 4) := by
        rw [lsolParams]
        split
        · rename_i k v e
          exact absurd ⟨k, v, e⟩ he
        · rfl
      rw [e1, Cli.setParams]
      split
      · rename_i k v e
        exact absurd ⟨k, v, e⟩ he
      · rfl

theorem lsolModel_eq (env : Env) (s : Cmdline.St) : lsolModel env s = firstModel env s := by
  unfold lsolModel firstModel restoreModel createModel
  split_ifs
  · generalize env.load (Cli.str s "model") = r
    cases r <;> rfl
  · rfl
  · rfl

theorem lsol_strs : HasStr lsolOpts "task" ∧ HasStr lsolOpts "input" ∧ HasStr lsolOpts "format" ∧ HasStr lsolOpts "output" ∧
    HasStr lsolOpts "algo" ∧ HasStr lsolOpts "model" ∧ HasStr lsolOpts "filter" ∧ HasStr lsolOpts "params" := by
  refine ⟨⟨lsolOpts[1], by decide, rfl, _, rfl, fun _ => fits_oneOf, by decide⟩, ⟨lsolOpts[2], by decide, rfl, _, rfl, fun _ => fits_str, by decide⟩,
    ⟨lsolOpts[3], by decide, rfl, _, rfl, fun _ => fits_oneOf, by decide⟩, ⟨lsolOpts[9], by decide, rfl, _, rfl, fun _ => fits_str, by decide⟩,
    ⟨lsolOpts[10], by decide, rfl, _, rfl, fun _ => fits_str, by decide⟩, ⟨lsolOpts[11], by decide, rfl, _, rfl, fun _ => fits_str, by decide⟩,
    ⟨lsolOpts[12], by decide, rfl, _, rfl, fun _ => fits_str, by decide⟩, ⟨lsolOpts[13], by decide, rfl, _, rfl, fun _ => fits_str, by decide⟩⟩

theorem lsol_ints : HasInt lsolOpts "classes" ∧ HasInt lsolOpts "pass" ∧ HasInt lsolOpts "batchsize" ∧ HasInt lsolOpts "bufsize" := by
  refine ⟨⟨lsolOpts[4], by decide, rfl, rfl, by decide⟩, ⟨lsolOpts[5], by decide, rfl, rfl, by decide⟩,
    ⟨lsolOpts[7], by decide, rfl, rfl, by decide⟩, ⟨lsolOpts[8], by decide, rfl, rfl, by decide⟩⟩

theorem lsolOut_iff (h : Taken lsolOpts s g ws) (out : Option (List Char)) : lsolOut s = out ↔ Target g out := by
  have hp : s.exist "output".toList = some true ↔ Present g "output" := present_iff h (o := lsolOpts[9]) (by decide) rfl
  have ho := str_iff h lsol_strs.2.2.2.1
  unfold lsolOut Target
  by_cases h1 : Present g "output"
  · rw [if_pos (hp.2 h1)]
    constructor
    · exact fun h2 => .inr ⟨h1, _, (ho _).1 rfl, h2.symm⟩
    · rintro (⟨h2, _⟩ | ⟨_, p, h2, rfl⟩)
      · exact absurd h1 h2
      · rw [(ho p).2 h2]
  · rw [if_neg (fun h2 => h1 (hp.1 h2))]
    constructor
    · exact fun h2 => .inl ⟨h1, h2.symm⟩
    · rintro (⟨_, rfl⟩ | ⟨h2, _⟩)
      · rfl
      · exact absurd h2 h1

theorem withData_of (env : Env) (j : Job) {w : Bool} {c d : Int} {j' : Job} (w' : Bool) : withData env j (.done j w d) = .done j' w' c ↔
    Readable env j ∧ j' = j ∧ w' = w ∧ c = d := by
  have e : (Ran.done j w d = Ran.done j' w' c) ↔ (j' = j ∧ w' = w ∧ c = d) := by
    constructor
    · intro h
      cases h
      exact ⟨rfl, rfl, rfl⟩
    · rintro ⟨rfl, rfl, rfl⟩
      rfl
  by_cases hr : Readable env j
  · have h0 := (withData_iff env j (w := w) (c := 0) (j' := j) w).2 ⟨hr, rfl, rfl, rfl⟩
    unfold withData at h0 ⊢
    split_ifs at h0 ⊢
    rw [e]
    exact ⟨fun h => ⟨hr, h⟩, fun h => h.2⟩
  · constructor
    · intro h
      exfalso
      apply hr
      apply ((withData_iff env j (w := w) (c := 0) (j' := j) w).1 ?_).1
      unfold withData at h ⊢
      split_ifs at h ⊢
      rfl
    · exact fun h => absurd h.1 hr

/-- The status of `lsol_c` after training. -/
theorem lsolTrain_iff {env : Env} (h : Taken lsolOpts s g ws) (ht : Value lsolOpts g "task" (.str "train".toList)) (j : Job) (w : Bool) (c : Int) :
    lsolTrain env s = .done j w c ↔ AsksLsolTrain env g j ∧ w = Writes env j ∧ c = if j.out.any (fun p => !env.writes p) then 2 else 0 := by
  have hi := str_iff h lsol_strs.2.1
  have hf := str_iff h lsol_strs.2.2.1
  have hps := str_iff h lsol_strs.2.2.2.2.2.2.2
  have hpass := num_iff h lsol_ints.2.1
  have hb := num_iff h lsol_ints.2.2.1
  have hq := num_iff h lsol_ints.2.2.2
  have hfm := fun m => firstModel_of (env := env) h lsol_strs.2.2.2.2.2.1 lsol_strs.2.2.2.2.1 lsol_ints.1 m
  have hcode : ∀ out : Option (List Char), saveStatus env out = if out.any (fun p => !env.writes p) then (2 : Int) else 0 := by
    intro out
    cases out with
    | none => rfl
    | some p => cases hw : env.writes p <;> simp [saveStatus, saveModel, hw]
  unfold lsolTrain
  rw [lsolModel_eq]
  cases hm : firstModel env s with
  | inr r =>
    dsimp only
    constructor
    · rintro rfl
      unfold firstModel at hm
      split_ifs at hm
      · split at hm <;> cases hm
      · cases hm
      · split at hm <;> cases hm
    · rintro ⟨⟨_, _, _, ⟨m, p, l, h1, _⟩, _⟩, _⟩
      rw [(hfm m).2 h1] at hm
      cases hm
  | inl m =>
    dsimp only
    rw [lsolParams_eq]
    cases hp : Cli.setParams env.files m (StrUtil.split ';' (Cli.str s "params")) with
    | inr r =>
      dsimp only
      constructor
      · rintro rfl
        exact absurd hp (setParams_ne _ _)
      · rintro ⟨⟨_, _, _, ⟨m', p, l, h1, h2, h3, h4⟩, _⟩, _⟩
        rw [(hfm m').2 h1] at hm
        cases hm
        rw [(hps p).2 h2, (params_iff m j.model p).2 ⟨l, h3, h4⟩] at hp
        cases hp
    | inl m' =>
      dsimp only
      rw [withData_of, hcode]
      constructor
      · rintro ⟨h1, rfl, rfl, rfl⟩
        obtain ⟨l, h2, h3⟩ := (params_iff _ _ _).1 hp
        exact ⟨⟨ht, (hi _).1 rfl, (lsolOut_iff h _).1 rfl, ⟨m, _, l, (hfm m).1 hm, (hps _).1 rfl, h2, h3⟩,
          ⟨(hf _).1 rfl, (hb _).1 rfl, (hq _).1 rfl⟩, (hpass _).1 rfl, h1⟩, rfl, rfl⟩
      · rintro ⟨⟨_, h1, h2, ⟨m1, p, l, h3, h4, h5, h6⟩, ⟨h7, h8, h9⟩, h10, h11⟩, h12, h13⟩
        rw [(hfm m1).2 h3] at hm
        cases hm
        rw [(hps p).2 h4, (params_iff m j.model p).2 ⟨l, h5, h6⟩] at hp
        cases hp
        have e : (⟨j.model, Cli.str s "input", Cli.str s "format", Cli.num s "pass", Cli.num s "batchsize", Cli.num s "bufsize", lsolOut s⟩ : Job) = j := by
          rw [(hf _).2 h7, (hb _).2 h8, (hq _).2 h9, (hpass _).2 h10, (hi _).2 h1, (lsolOut_iff h _).2 h2]
        rw [e, (lsolOut_iff h _).2 h2]
        exact ⟨h11, rfl, h12, h13⟩

theorem lsolTest_iff {env : Env} (h : Taken lsolOpts s g ws) (ht : Value lsolOpts g "task" (.str "test".toList)) (j : Job) (w : Bool) (c : Int) :
    lsolTest env s = .done j w c ↔ AsksLsolTest env g j ∧ w = Writes env j ∧ c = 0 := by
  have hi := str_iff h lsol_strs.2.1
  have hf := str_iff h lsol_strs.2.2.1
  have hmd := str_iff h lsol_strs.2.2.2.2.2.1
  have hflt := str_iff h lsol_strs.2.2.2.2.2.2.1
  have hb := num_iff h lsol_ints.2.2.1
  have hq := num_iff h lsol_ints.2.2.2
  have hpm : s.exist "model".toList = some true ↔ Present g "model" := present_iff h (o := lsolOpts[11]) (by decide) rfl
  have hp : s.exist "filter".toList = some true ↔ Present g "filter" := present_iff h (o := lsolOpts[12]) (by decide) rfl
  unfold lsolTest
  by_cases hm : Present g "model"
  swap
  · rw [if_neg (fun h1 => hm (hpm.1 h1))]
    exact ⟨fun h1 => (by cases h1), fun h1 => by
      obtain ⟨_, _, h2, _⟩ := h1.1.model
      exact absurd h2 hm⟩
  rw [if_pos (hpm.2 hm)]
  have hv : Value lsolOpts g "model" (.str (Cli.str s "model")) := (hmd _).1 rfl
  have same : ∀ p, Value lsolOpts g "model" (.str p) → p = Cli.str s "model" := fun p h1 => ((hmd p).2 h1).symm
  unfold restoreModel
  cases hl : env.load (Cli.str s "model") with
  | null =>
    dsimp only
    constructor
    · intro h1
      exfalso
      unfold lsolFilter at h1
      by_cases h2 : s.exist "filter".toList = some true
      · rw [if_pos h2] at h1
        simp [setModelParameter] at h1
      · rw [if_neg h2] at h1
        simp at h1
    · rintro ⟨⟨_, _, _, ⟨p, m, _, h1, h2, _⟩, _⟩, _⟩
      rw [same p h1, hl] at h2
      cases h2
  | thrown =>
    refine ⟨fun h1 => (by cases h1), fun h1 => ?_⟩
    obtain ⟨p, m, _, h2, h3, _⟩ := h1.1.model
    rw [same p h2, hl] at h3
    cases h3
  | undef k =>
    refine ⟨fun h1 => (by cases h1), fun h1 => ?_⟩
    obtain ⟨p, m, _, h2, h3, _⟩ := h1.1.model
    rw [same p h2, hl] at h3
    cases h3
  | model m =>
    dsimp only
    have key : ∀ m', lsolFilter env s (some m) = Ret.gives (some m', 0) ↔
        ((¬ Present g "filter" ∧ m' = m) ∨
          (Present g "filter" ∧ ∃ f, Value lsolOpts g "filter" (.str f) ∧ set env.files m "filter" f = (m', .accepted))) := by
      intro m'
      by_cases h1 : Present g "filter"
      · have e : lsolFilter env s (some m) = Ret.gives (some m', 0) ↔ set env.files m "filter" (Cli.str s "filter") = (m', .accepted) := by
          unfold lsolFilter setModelParameter
          rw [if_pos (hp.2 h1)]
          dsimp only
          generalize set env.files m "filter" (Cli.str s "filter") = r
          obtain ⟨m1, end1⟩ := r
          cases end1 <;> simp
        rw [e]
        constructor
        · exact fun h2 => .inr ⟨h1, _, (hflt _).1 rfl, h2⟩
        · rintro (⟨h2, _⟩ | ⟨_, f, h2, h3⟩)
          · exact absurd h1 h2
          · rw [(hflt f).2 h2, h3]
      · unfold lsolFilter
        rw [if_neg (fun h2 => h1 (hp.1 h2))]
        simp only [reduceCtorEq, if_false, Ret.gives.injEq, Prod.mk.injEq, Option.some.injEq, and_true]
        constructor
        · exact fun h2 => .inl ⟨h1, h2.symm⟩
        · rintro (⟨_, h2⟩ | ⟨h2, _⟩)
          · exact h2.symm
          · exact absurd h2 h1
    have some_of : ∀ m1 r, lsolFilter env s (some m) = Ret.gives (m1, r) → m1 ≠ none := by
      intro m1 r h1
      unfold lsolFilter at h1
      by_cases h2 : s.exist "filter".toList = some true
      · rw [if_pos h2] at h1
        split at h1
        · cases h1
          simp
        · cases h1
        · cases h1
      · rw [if_neg h2] at h1
        cases h1
        simp
    generalize lsolFilter env s (some m) = r at key some_of ⊢
    have back : ∀ j : Job, AsksLsolTest env g j → r = Ret.gives (some j.model, 0) := by
      rintro j ⟨_, _, _, ⟨p, m', _, h1, h2, h3⟩, _⟩
      rw [same p h1, hl] at h2
      cases h2
      exact (key j.model).2 h3
    cases r with
    | thrown => exact ⟨fun h1 => (by cases h1), fun h1 => (by cases back j h1.1)⟩
    | undef k => exact ⟨fun h1 => (by cases h1), fun h1 => (by cases back j h1.1)⟩
    | gives r =>
      obtain ⟨m1, r⟩ := r
      dsimp only
      by_cases hr : r = 0
      swap
      · rw [if_pos hr]
        refine ⟨fun h1 => (by cases h1), fun h1 => ?_⟩
        have := back j h1.1
        simp only [Ret.gives.injEq, Prod.mk.injEq] at this
        exact absurd this.2 hr
      subst hr
      rw [if_neg (by simp)]
      obtain ⟨m1, rfl⟩ := Option.ne_none_iff_exists'.1 (some_of m1 0 rfl)
      dsimp only
      rw [withData_of]
      constructor
      · rintro ⟨h1, rfl, rfl, rfl⟩
        exact ⟨⟨ht, (hi _).1 rfl, (lsolOut_iff h _).1 rfl, ⟨_, m, hm, hv, hl, (key m1).1 rfl⟩, ⟨(hf _).1 rfl, (hb _).1 rfl, (hq _).1 rfl⟩, rfl, h1⟩,
          rfl, rfl⟩
      · rintro ⟨h1, h2, h3⟩
        have := back j h1
        simp only [Ret.gives.injEq, Prod.mk.injEq, Option.some.injEq, and_true] at this
        subst this
        have e : (⟨j.model, Cli.str s "input", Cli.str s "format", 1, Cli.num s "batchsize", Cli.num s "bufsize", lsolOut s⟩ : Job) = j := by
          rw [(hf _).2 h1.sized.1, (hb _).2 h1.sized.2.1, (hq _).2 h1.sized.2.2, (hi _).2 h1.input, (lsolOut_iff h _).2 h1.output, ← h1.passes]
        rw [e, (lsolOut_iff h _).2 h1.output]
        exact ⟨h1.data, rfl, h2, h3⟩

end Sol.CApi
