import Verif.Proofs.CApi
/-!
# C66: the tool on top of the C interface does what it is asked for, or says that it failed

`lsol_c` trains or tests exactly if the command line asks for it.  Unlike `sol_train`, it returns the status of saving the model.
-/

namespace Sol.Props
open Sol.Cmdline Sol.Spec Sol.Cli Sol.Params Sol.CApi

theorem lsol_distinct : Distinct lsolOpts := by decide +kernel

theorem lsol_needs (g : List (Opt × Option Val)) (hk : ∀ o x, (o, x) ∈ g → o ∈ lsolOpts) :
    (∀ o ∈ lsolOpts, o.need = true → Given g o) ↔ Present g "input" := by
  constructor
  · intro h
    obtain ⟨x, hx⟩ := h lsolOpts[2] (by decide) rfl
    exact ⟨_, x, hx, rfl⟩
  · rintro ⟨p, x, hx, hp⟩ o ho hn
    have e : o = lsolOpts[2] := by
      revert o
      decide
    obtain rfl := same_of_name lsol_distinct (hk p x hx) (show lsolOpts[2] ∈ lsolOpts by decide) (hp.trans rfl)
    rw [e]
    exact ⟨x, hx⟩

theorem lsol_taken {args : List (List Char)} {g : List (Opt × Option Val)} {ws : List (List Char)} (h : Says lsolOpts args g ws)
    (hi : Present g "input") (prog : List Char) : Taken lsolOpts (parse lsolOpts (prog :: args)) g ws :=
  have hm : ∀ o x, (o, x) ∈ g → o ∈ lsolOpts := fun o x hx => (says_kind h o x hx).1
  ⟨lsol_distinct, hm, says_fits h, C59_reads_partial lsol_distinct h ((lsol_needs g hm).2 hi) prog⟩

theorem lsol_run {args : List (List Char)} {g : List (Opt × Option Val)} {ws : List (List Char)} (h : Says lsolOpts args g ws)
    (hi : Present g "input") (hs : ¬ Present g "show") (hh : ¬ Present g "help") (prog : List Char) :
    lsolFront (prog :: args) = .run (parse lsolOpts (prog :: args)) := by
  have ht := lsol_taken h hi prog
  unfold lsolFront
  rw [if_neg (fun hc => hs ((present_iff ht (o := lsolOpts[0]) (by decide) rfl).1 hc))]
  exact (C59_runs_partial lsol_distinct prog args _).2 ⟨rfl, fun hc => hh ((present_iff ht (o := lsolOpts[14]) (by decide) rfl).1 hc), g, ws, h,
    (lsol_needs g ht.mem).2 hi, ht.told⟩

/-- C66: `lsol_c` trains exactly if it is asked to; its status is then 0, or 2 if the model should be saved and could not be.
    Partial: parameters are cut as by `sol_train` (C60), words without an option are ignored. -/
theorem C66_train_partial (env : Env) {args : List (List Char)} {g : List (Opt × Option Val)} {ws : List (List Char)}
    (h : Says lsolOpts args g ws) (hi : Present g "input") (hs : ¬ Present g "show") (hh : ¬ Present g "help")
    (ht : Value lsolOpts g "task" (.str "train".toList)) (prog : List Char) (j : Job) (w : Bool) (c : Int) :
    lsolMain env (prog :: args) = .done j w c ↔
      AsksLsolTrain env g j ∧ w = Writes env j ∧ c = if j.out.any (fun p => !env.writes p) then 2 else 0 := by
  have hk := lsol_taken h hi prog
  unfold lsolMain
  rw [lsol_run h hi hs hh prog]
  dsimp only
  rw [if_pos ((str_iff hk lsol_strs.1 _).2 ht)]
  exact lsolTrain_iff hk ht j w c

/-- C66: `lsol_c` tests exactly if it is asked to.  Partial: the status is 0 even if the predictions could not be written
    (`C66_is_violated`). -/
theorem C66_test_partial (env : Env) {args : List (List Char)} {g : List (Opt × Option Val)} {ws : List (List Char)}
    (h : Says lsolOpts args g ws) (hi : Present g "input") (hs : ¬ Present g "show") (hh : ¬ Present g "help")
    (ht : Value lsolOpts g "task" (.str "test".toList)) (prog : List Char) (j : Job) (w : Bool) (c : Int) :
    lsolMain env (prog :: args) = .done j w c ↔ AsksLsolTest env g j ∧ w = Writes env j ∧ c = 0 := by
  have hk := lsol_taken h hi prog
  unfold lsolMain
  rw [lsol_run h hi hs hh prog]
  dsimp only
  rw [if_neg (by rw [(str_iff hk lsol_strs.1 _).2 ht]; decide), if_pos ((str_iff hk lsol_strs.1 _).2 ht)]
  exact lsolTest_iff hk ht j w c

/-- C66: a job is done only for a well-formed command line that asks for it. -/
theorem C66_only_partial (env : Env) (prog : List Char) (args : List (List Char)) (j : Job) (w : Bool) (c : Int)
    (h : lsolMain env (prog :: args) = .done j w c) :
    w = Writes env j ∧ ∃ g ws, Says lsolOpts args g ws ∧ Present g "input" ∧ ¬ Present g "show" ∧ ¬ Present g "help" ∧
      (AsksLsolTrain env g j ∨ AsksLsolTest env g j) := by
  have h0 := h
  unfold lsolMain lsolFront at h
  by_cases h1 : (parse lsolOpts (prog :: args)).exist "show".toList = some true
  · rw [if_pos h1] at h
    cases h
  rw [if_neg h1] at h
  cases hf : front lsolOpts (prog :: args) with
  | exit c =>
    rw [hf] at h
    cases h
  | run s =>
    obtain ⟨rfl, h2, g, ws, h3, h4, _⟩ := (C59_runs_partial lsol_distinct prog args _).1 hf
    have hi := (lsol_needs g fun o x hx => (says_kind h3 o x hx).1).1 h4
    have ht := lsol_taken h3 hi prog
    have hs : ¬ Present g "show" := fun hc => h1 ((present_iff ht (o := lsolOpts[0]) (by decide) rfl).2 hc)
    have hh : ¬ Present g "help" := fun hc => h2 ((present_iff ht (o := lsolOpts[14]) (by decide) rfl).2 hc)
    rw [hf] at h
    dsimp only at h
    split_ifs at h with h5 h6
    · obtain ⟨h7, h8, _⟩ := (C66_train_partial env h3 hi hs hh ((str_iff ht lsol_strs.1 _).1 h5) prog j w c).1 h0
      exact ⟨h8, g, ws, h3, hi, hs, hh, .inl h7⟩
    · obtain ⟨h7, h8, _⟩ := (C66_test_partial env h3 hi hs hh ((str_iff ht lsol_strs.1 _).1 h6) prog j w c).1 h0
      exact ⟨h8, g, ws, h3, hi, hs, hh, .inr h7⟩

theorem exit_of_data {env : Env} {j j' : Job} {w : Bool} {c d : Int} (h : withData env j (.done j' w d) = .exit c) : c = 4 := by
  unfold withData at h
  split_ifs at h
  cases h
  rfl

theorem exit_of_lsolTrain {env : Env} {s : Cmdline.St} {c : Int} (h : lsolTrain env s = .exit c) : c = 4 := by
  unfold lsolTrain at h
  rw [lsolModel_eq] at h
  cases h1 : firstModel env s with
  | inr r =>
    rw [h1] at h
    dsimp only at h
    subst h
    exact exit_of_firstModel h1
  | inl m =>
    rw [h1] at h
    dsimp only at h
    rw [lsolParams_eq] at h
    cases h2 : Cli.setParams env.files m (StrUtil.split ';' (Cli.str s "params")) with
    | inr r =>
      rw [h2] at h
      dsimp only at h
      subst h
      exact exit_of_setParams h2
    | inl m =>
      rw [h2] at h
      exact exit_of_data h

theorem exit_of_lsolTest {env : Env} {s : Cmdline.St} {c : Int} (h : lsolTest env s = .exit c) : c = 4 := by
  unfold lsolTest at h
  split_ifs at h with h1
  · cases hr : restoreModel env (Cli.str s "model") with
    | thrown =>
      rw [hr] at h
      cases h
    | undef k =>
      rw [hr] at h
      cases h
    | gives m =>
      rw [hr] at h
      dsimp only at h
      cases hf : lsolFilter env s m with
      | thrown =>
        rw [hf] at h
        cases h
      | undef k =>
        rw [hf] at h
        cases h
      | gives p =>
        obtain ⟨m1, r⟩ := p
        rw [hf] at h
        dsimp only at h
        have hr4 : r = 0 ∨ r = 4 := by
          unfold lsolFilter at hf
          split_ifs at hf with h2 h3
          · cases m with
            | none => simp [setModelParameter] at hf
            | some m =>
              unfold setModelParameter at hf
              dsimp only at hf
              generalize Params.set env.files m "filter" (Cli.str s "filter") = q at hf
              obtain ⟨m2, end2⟩ := q
              cases end2 with
              | accepted =>
                cases hf
                exact .inl rfl
              | rejected =>
                cases hf
                exact .inr rfl
              | thrown => cases hf
              | undef => cases hf
          · cases hf
            exact .inr rfl
          · cases hf
            exact .inl rfl
        by_cases h4 : r = 0
        · rw [if_neg (by simpa using h4)] at h
          cases m1 with
          | none => cases h
          | some m1 => exact exit_of_data h
        · rw [if_pos h4] at h
          cases h
          exact hr4.resolve_left h4
  · cases h
    rfl

/-- C66: when a well-formed command line asks for no help and no list, and the job is not done, the status is 4: never 0. -/
theorem C66_status (env : Env) {args : List (List Char)} {g : List (Opt × Option Val)} {ws : List (List Char)}
    (h : Says lsolOpts args g ws) (hi : Present g "input") (hs : ¬ Present g "show") (hh : ¬ Present g "help") (prog : List Char) (c : Int)
    (he : lsolMain env (prog :: args) = .exit c) : c = 4 := by
  unfold lsolMain at he
  rw [lsol_run h hi hs hh prog] at he
  dsimp only at he
  split_ifs at he
  · exact exit_of_lsolTrain he
  · exact exit_of_lsolTest he
  · cases he
    rfl

/-- C66: a command line with errors, which includes one without an input, never starts a job: the status is 1, or 0 when there are
    no arguments or the list of classes or help was asked for. -/
theorem C66_errors (env : Env) (prog : List Char) (args : List (List Char)) (he : (parse lsolOpts (prog :: args)).errors ≠ []) :
    lsolMain env (prog :: args) = .exit 1 ∨ (lsolMain env (prog :: args) = .exit 0 ∧
      (args = [] ∨ (parse lsolOpts (prog :: args)).exist "show".toList = some true ∨
        (parse lsolOpts (prog :: args)).exist "help".toList = some true)) := by
  unfold lsolMain lsolFront front Cli.check
  by_cases h1 : (parse lsolOpts (prog :: args)).exist "show".toList = some true
  · rw [if_pos h1]
    exact .inr ⟨rfl, .inr (.inl h1)⟩
  rw [if_neg h1]
  by_cases h2 : ((prog :: args).length = 1 ∧ (parse lsolOpts (prog :: args)).errors ≠ []) ∨
      (parse lsolOpts (prog :: args)).exist "help".toList = some true
  · rw [if_pos h2]
    refine .inr ⟨rfl, ?_⟩
    rcases h2 with ⟨h3, _⟩ | h3
    · exact .inl (by simpa using h3)
    · exact .inr (.inr h3)
  · rw [if_neg h2, if_pos he]
    exact .inl rfl

/-- The job was done with this status. -/
def DoesWith (r : Ran) (wrote : Bool) (code : Int) (p : Job → Bool) : Prop :=
  match r with
  | .done j w c => w = wrote ∧ c = code ∧ p j = true
  | _ => False

instance (r : Ran) (wrote : Bool) (code : Int) (p : Job → Bool) : Decidable (DoesWith r wrote code p) := by
  unfold DoesWith
  split <;> infer_instance

/-- Beside C66: training with parameters, training on, testing. -/
theorem C66_instance :
    (DoesWith (lsolMain machine (argv ["lsol_c", "-a", "AROW", "-c", "3", "--params", " r = 0.5 ;loss=uniform-hinge;", "-f", "csv", "-p", "2",
      "--batchsize=16", "-i", "in.csv", "-o", "out.model"])) true 0 fun j =>
      j.model.cls = .arow ∧ j.model.r = .fin (1 / 2) ∧ j.model.loss = some .uniHinge ∧ j.model.classNum = 3 ∧
      j.path = "in.csv".toList ∧ j.format = "csv".toList ∧ j.passes = 2 ∧ j.batch = 16 ∧ j.buf = 2 ∧ j.out = some "out.model".toList) ∧
    (DoesWith (lsolMain machine (argv ["lsol_c", "-t", "train", "-m", "old.model", "-a", "ogd", "-i", "in"])) false 0 fun j =>
      j.model = fresh .arow 3 ∧ j.out = none ∧ j.passes = 1) ∧
    (DoesWith (lsolMain machine (argv ["lsol_c", "-t", "test", "-m", "old.model", "-f", "bin", "-p", "7", "-i", "in", "-o", "predictions"])) true 0 fun j =>
      j.model = fresh .arow 3 ∧ j.format = "bin".toList ∧ j.path = "in".toList ∧ j.passes = 1 ∧ j.out = some "predictions".toList) ∧
    (DoesWith (lsolMain machine (argv ["lsol_c", "-a", "ogd", "-i", "in", "-o", "full/out"])) false 2 fun j => j.out = some "full/out".toList) := by
  decide +kernel

/-- Beside C66: jobs that are refused. -/
theorem C66_instance_refused :
    lsolMain machine (argv ["t", "-i", "in"]) = .exit 4 ∧
    lsolMain machine (argv ["t", "-i", "in", "-a", "nosuch"]) = .exit 4 ∧
    lsolMain machine (argv ["t", "-i", "in", "-a", "ogd", "-c", "1"]) = .exit 4 ∧
    lsolMain machine (argv ["t", "-i", "in", "-a", "ogd", "--params=eta"]) = .exit 4 ∧
    lsolMain machine (argv ["t", "-i", "in", "-a", "ogd", "--params=eta=-1"]) = .exit 4 ∧
    lsolMain machine (argv ["t", "-i", "absent", "-a", "ogd"]) = .exit 4 ∧
    lsolMain machine (argv ["t", "-i", "in", "-m", "absent"]) = .exit 4 ∧
    lsolMain machine (argv ["t", "-i", "in", "-t", "test"]) = .exit 4 ∧
    lsolMain machine (argv ["t", "-i", "in", "-t", "test", "-m", "absent"]) = .exit 4 ∧
    lsolMain machine (argv ["t", "-i", "in", "-t", "test", "-m", "old.model", "--filter=none"]) = .exit 4 ∧
    lsolMain machine (argv ["t", "-a", "ogd"]) = .exit 1 ∧
    lsolMain machine (argv ["t", "-i", "in", "-t", "both"]) = .exit 1 ∧
    lsolMain machine (argv ["t", "-s", "model"]) = .exit 0 ∧
    lsolMain machine (argv ["t"]) = .exit 0 := by decide +kernel

/-- C66 as stated fails: a filter for a model that could not be loaded is set in the null pointer; an exception leaves the C interface;
    the status is 0 although the predictions could not be written; other words are ignored. -/
theorem C66_is_violated :
    lsolMain machine (argv ["t", "-i", "in", "-t", "test", "-m", "absent", "--filter=f"]) = .undef .nullDeref ∧
    lsolMain machine (argv ["t", "-i", "in", "-a", "ogd", "--params=eta=1e99"]) = .thrown ∧
    (DoesWith (lsolMain machine (argv ["t", "-i", "in", "-t", "test", "-m", "old.model", "-o", "full/out"])) false 0
      fun j => j.out = some "full/out".toList) ∧
    lsolMain machine (argv ["t", "-i", "in", "-a", "ogd", "out.model"]) = lsolMain machine (argv ["t", "-i", "in", "-a", "ogd"]) := by
  decide +kernel

end Sol.Props
