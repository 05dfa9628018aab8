import Verif.Proofs.Cli
/-!
# C60: the executables do what they are asked for, or say that they failed

`sol_train` and `sol_test` run a job exactly if the command line asks for it: the model, all parameters in their order, the file with
its format, the number of passes, the sizes, and the output file.  Every other command line ends with a status other than 0, except
those that ask for help or for a list of classes.
-/

namespace Sol.Props
open Sol.Cmdline Sol.Spec Sol.Cli Sol.Params

theorem not_needed {os : List Opt} (h : os.all fun o => !o.need) : ∀ o ∈ os, o.need = true → ∀ g, Given g o := by
  intro o ho hn
  have := List.all_eq_true.1 h o ho
  simp [hn] at this

theorem taken_of {os : List Opt} (hd : Distinct os) (hn : os.all fun o => !o.need) {args : List (List Char)} {g : List (Opt × Option Val)}
    {ws : List (List Char)} (h : Says os args g ws) (prog : List Char) : Taken os (parse os (prog :: args)) g ws :=
  ⟨hd, fun o x hx => (says_kind h o x hx).1, says_fits h,
    C59_reads_partial hd h (fun o ho hx => not_needed hn o ho hx g) prog⟩

theorem train_run {args : List (List Char)} {g : List (Opt × Option Val)} {ws : List (List Char)} (h : Says trainOpts args g ws)
    (hs : ¬ Present g "show") (hh : ¬ Present g "help") (prog : List Char) :
    Taken trainOpts (parse trainOpts (prog :: args)) g ws ∧ trainFront (prog :: args) = .run (parse trainOpts (prog :: args)) := by
  have ht := taken_of C59_tables.1 (by decide) h prog
  refine ⟨ht, ?_⟩
  unfold trainFront
  rw [if_neg (fun hc => hs ((present_iff ht (o := trainOpts[0]) (by decide) rfl).1 hc))]
  refine (C59_runs_partial C59_tables.1 prog args _).2 ⟨rfl, fun hc => hh ((present_iff ht (o := trainOpts[10]) (by decide) rfl).1 hc), g, ws, h, ?_, ht.told⟩
  exact fun o ho hx => not_needed (by decide) o ho hx g

/-- C60: `sol_train` does a job exactly if it is asked for; it then ends with status 0, and has written the model if the file can be
    written.  Partial: names and values of parameters are cut at their first blank, several `=` count as one, and `--dim` is not
    looked at; the status is 0 even if the model could not be saved (`C60_is_violated`). -/
theorem C60_train_partial (env : Env) {args : List (List Char)} {g : List (Opt × Option Val)} {ws : List (List Char)}
    (h : Says trainOpts args g ws) (hs : ¬ Present g "show") (hh : ¬ Present g "help") (prog : List Char) (j : Job) (w : Bool) (c : Int) :
    trainMain env (prog :: args) = .done j w c ↔ AsksTrain env g ws j ∧ w = Writes env j ∧ c = 0 := by
  obtain ⟨ht, he⟩ := train_run h hs hh prog
  unfold trainMain
  rw [he]
  exact train_iff ht j w c

/-- C60: a job is done only for a well-formed command line that asks for it. -/
theorem C60_train_only_partial (env : Env) (prog : List Char) (args : List (List Char)) (j : Job) (w : Bool) (c : Int)
    (h : trainMain env (prog :: args) = .done j w c) :
    c = 0 ∧ ∃ g ws, Says trainOpts args g ws ∧ ¬ Present g "show" ∧ ¬ Present g "help" ∧ AsksTrain env g ws j ∧ w = Writes env j := by
  have h0 := h
  unfold trainMain trainFront at h
  by_cases h1 : (parse trainOpts (prog :: args)).exist "show".toList = some true
  · rw [if_pos h1] at h
    cases h
  rw [if_neg h1] at h
  cases hf : front trainOpts (prog :: args) with
  | exit c =>
    rw [hf] at h
    cases h
  | run s =>
    obtain ⟨rfl, h2, g, ws, h3, _, _⟩ := (C59_runs_partial C59_tables.1 prog args _).1 hf
    have ht := taken_of C59_tables.1 (by decide) h3 prog
    have hs : ¬ Present g "show" := fun hc => h1 ((present_iff ht (o := trainOpts[0]) (by decide) rfl).2 hc)
    have hh : ¬ Present g "help" := fun hc => h2 ((present_iff ht (o := trainOpts[10]) (by decide) rfl).2 hc)
    obtain ⟨h4, h5, h6⟩ := (C60_train_partial env h3 hs hh prog j w c).1 h0
    exact ⟨h6, g, ws, h3, hs, hh, h4, h5⟩

theorem exit_of_setParams {files : List Char → Option (List Char)} {m : M} {ps : List (List Char)} {c : Int}
    (h : setParams files m ps = .inr (.exit c)) : c = 4 := by
  induction ps generalizing m with
  | nil => cases h
  | cons o os ih =>
    rw [setParams] at h
    split at h
    · rename_i k v _
      generalize set files m (String.ofList (StrUtil.strip k)) (StrUtil.strip v) = r at h
      obtain ⟨m1, end1⟩ := r
      cases end1 with
      | accepted => exact ih h
      | rejected =>
        cases h
        rfl
      | thrown => cases h
      | undef => cases h
    · cases h
      rfl

theorem exit_of_withData {env : Env} {j j' : Job} {w : Bool} {c d : Int} (h : withData env j (.done j' w d) = .exit c) : c = 4 := by
  unfold withData at h
  split_ifs at h
  cases h
  rfl

theorem exit_of_firstModel {env : Env} {s : Cmdline.St} {c : Int} (h : firstModel env s = .inr (.exit c)) : c = 4 := by
  unfold firstModel at h
  split_ifs at h
  · generalize env.load (str s "model") = r at h
    cases r with
    | model => cases h
    | null =>
      cases h
      rfl
    | thrown => cases h
    | undef => cases h
  · cases h
    rfl
  · split at h
    · cases h
    · cases h
      rfl

theorem exit_of_trainWith {env : Env} {s : Cmdline.St} {i : List Char} {out : Option (List Char)} {c : Int}
    (h : trainWith env s i out = .exit c) : c = 4 := by
  unfold trainWith at h
  cases h1 : firstModel env s with
  | inr r =>
    rw [h1] at h
    dsimp only at h
    subst h
    exact exit_of_firstModel h1
  | inl m =>
    rw [h1] at h
    dsimp only at h
    cases h2 : setParams env.files m (StrUtil.split ';' (str s "params")) with
    | inr r =>
      rw [h2] at h
      dsimp only at h
      subst h
      exact exit_of_setParams h2
    | inl m =>
      rw [h2] at h
      exact exit_of_withData h

/-- C60: when a well-formed command line asks for no help and no list, and the job is not done, the status is 4: never 0. -/
theorem C60_train_status (env : Env) {args : List (List Char)} {g : List (Opt × Option Val)} {ws : List (List Char)}
    (h : Says trainOpts args g ws) (hs : ¬ Present g "show") (hh : ¬ Present g "help") (prog : List Char) (c : Int)
    (he : trainMain env (prog :: args) = .exit c) : c = 4 := by
  obtain ⟨_, hr⟩ := train_run h hs hh prog
  unfold trainMain at he
  rw [hr] at he
  dsimp only at he
  unfold train at he
  split at he
  · exact exit_of_trainWith he
  · exact exit_of_trainWith he
  · cases he
    rfl

/-- C60: a command line with errors never starts the training: the status is 1, or 0 when there are no arguments or the list of
    classes or help was asked for. -/
theorem C60_train_errors (env : Env) (prog : List Char) (args : List (List Char)) (he : (parse trainOpts (prog :: args)).errors ≠ []) :
    trainMain env (prog :: args) = .exit 1 ∨ (trainMain env (prog :: args) = .exit 0 ∧
      (args = [] ∨ (parse trainOpts (prog :: args)).exist "show".toList = some true ∨
        (parse trainOpts (prog :: args)).exist "help".toList = some true)) := by
  unfold trainMain trainFront front Cli.check
  by_cases h1 : (parse trainOpts (prog :: args)).exist "show".toList = some true
  · rw [if_pos h1]
    exact .inr ⟨rfl, .inr (.inl h1)⟩
  rw [if_neg h1]
  by_cases h2 : ((prog :: args).length = 1 ∧ (parse trainOpts (prog :: args)).errors ≠ []) ∨
      (parse trainOpts (prog :: args)).exist "help".toList = some true
  · rw [if_pos h2]
    refine .inr ⟨rfl, ?_⟩
    rcases h2 with ⟨h3, _⟩ | h3
    · exact .inl (by simpa using h3)
    · exact .inr (.inr h3)
  · rw [if_neg h2, if_pos he]
    exact .inl rfl

theorem test_run {args : List (List Char)} {g : List (Opt × Option Val)} {ws : List (List Char)} (h : Says testOpts args g ws)
    (hh : ¬ Present g "help") (prog : List Char) :
    Taken testOpts (parse testOpts (prog :: args)) g ws ∧ front testOpts (prog :: args) = .run (parse testOpts (prog :: args)) := by
  have ht := taken_of C59_tables.2.1 (by decide) h prog
  refine ⟨ht, ?_⟩
  refine (C59_runs_partial C59_tables.2.1 prog args _).2 ⟨rfl, fun hc => hh ((present_iff ht (o := testOpts[4]) (by decide) rfl).1 hc), g, ws, h, ?_, ht.told⟩
  exact fun o ho hx => not_needed (by decide) o ho hx g

/-- C60: `sol_test` does a job exactly if it is asked for.  Partial as for `sol_train`: the status is 0 even if the predictions could
    not be written. -/
theorem C60_test_partial (env : Env) {args : List (List Char)} {g : List (Opt × Option Val)} {ws : List (List Char)}
    (h : Says testOpts args g ws) (hh : ¬ Present g "help") (prog : List Char) (j : Job) (w : Bool) (c : Int) :
    testMain env (prog :: args) = .done j w c ↔ AsksTest env g ws j ∧ w = Writes env j ∧ c = 0 := by
  obtain ⟨ht, he⟩ := test_run h hh prog
  unfold testMain
  rw [he]
  exact test_iff ht j w c

/-- C60: `sol_test` does a job only for a well-formed command line that asks for it. -/
theorem C60_test_only_partial (env : Env) (prog : List Char) (args : List (List Char)) (j : Job) (w : Bool) (c : Int)
    (h : testMain env (prog :: args) = .done j w c) :
    c = 0 ∧ ∃ g ws, Says testOpts args g ws ∧ ¬ Present g "help" ∧ AsksTest env g ws j ∧ w = Writes env j := by
  have h0 := h
  unfold testMain at h
  cases hf : front testOpts (prog :: args) with
  | exit c =>
    rw [hf] at h
    cases h
  | run s =>
    obtain ⟨rfl, h2, g, ws, h3, _, _⟩ := (C59_runs_partial C59_tables.2.1 prog args _).1 hf
    have ht := taken_of C59_tables.2.1 (by decide) h3 prog
    have hh : ¬ Present g "help" := fun hc => h2 ((present_iff ht (o := testOpts[4]) (by decide) rfl).2 hc)
    obtain ⟨h4, h5, h6⟩ := (C60_test_partial env h3 hh prog j w c).1 h0
    exact ⟨h6, g, ws, h3, hh, h4, h5⟩

/-- A machine on which every file can be read; models are new AROW models for three classes; nothing can be written to "full/". -/
def machine : Env where
  load := fun p => if p = "old.model".toList then .model (fresh .arow 3) else .null
  files := fun _ => none
  opens := fun p _ => p != "absent".toList
  writes := fun p => p.take 5 != "full/".toList

/-- The job was done with status 0, its output was (not) written, and it is as `p` says. -/
def Does (r : Ran) (wrote : Bool) (p : Job → Bool) : Prop :=
  match r with
  | .done j w c => w = wrote ∧ c = 0 ∧ p j = true
  | _ => False

instance (r : Ran) (wrote : Bool) (p : Job → Bool) : Decidable (Does r wrote p) := by
  unfold Does
  split <;> infer_instance

/-- Beside C60: a job with parameters, formats and passes. -/
theorem C60_instance :
    Does (trainMain machine (argv ["sol_train", "-a", "AROW", "-c", "3", "--params", " r = 0.5 ;loss=uniform-hinge;", "-f", "csv", "-p", "2",
      "--batchsize=16", "in.csv", "out.model"])) true fun j =>
      j.model.cls = .arow ∧ j.model.r = .fin (1 / 2) ∧ j.model.loss = some .uniHinge ∧ j.model.classNum = 3 ∧
      j.path = "in.csv".toList ∧ j.format = "csv".toList ∧ j.passes = 2 ∧ j.batch = 16 ∧ j.buf = 2 ∧ j.out = some "out.model".toList := by
  decide +kernel

/-- Beside C60: training goes on from a model in a file; `sol_test` reads one. -/
theorem C60_instance_model :
    (Does (trainMain machine (argv ["sol_train", "-m", "old.model", "-a", "ogd", "in"])) false fun j => j.model = fresh .arow 3 ∧ j.out = none) ∧
    (Does (testMain machine (argv ["sol_test", "old.model", "-f", "bin", "in", "predictions"])) true fun j =>
      j.model = fresh .arow 3 ∧ j.format = "bin".toList ∧ j.path = "in".toList ∧ j.out = some "predictions".toList) := by
  decide +kernel

/-- Beside C60: jobs that are refused, and jobs that do not end. -/
theorem C60_instance_refused :
    trainMain machine (argv ["t", "-a", "nosuch", "in"]) = .exit 4 ∧
    trainMain machine (argv ["t", "-c", "1", "in"]) = .exit 4 ∧
    trainMain machine (argv ["t", "--params=eta", "in"]) = .exit 4 ∧
    trainMain machine (argv ["t", "--params=eta=-1", "in"]) = .exit 4 ∧
    trainMain machine (argv ["t", "--params=eta=1e99", "in"]) = .thrown ∧
    trainMain machine (argv ["t", "absent"]) = .exit 4 ∧
    trainMain machine (argv ["t", "-m", "absent", "in"]) = .exit 4 ∧
    trainMain machine (argv ["t", "a", "b", "c"]) = .exit 4 ∧
    trainMain machine (argv ["t", "-b", "0", "in"]) = .hangs ∧
    trainMain machine (argv ["t", "--bufsize=0", "in"]) = .hangs ∧
    trainMain machine (argv ["t", "--bufsize=-1", "in"]) = .thrown ∧
    trainMain machine (argv ["t", "-b", "x", "in"]) = .exit 1 ∧
    trainMain machine (argv ["t", "-s", "model"]) = .exit 0 ∧
    testMain machine (argv ["t", "in"]) = .exit 4 ∧
    testMain machine (argv ["t", "no.model", "in"]) = .exit 4 := by decide +kernel

/-- C60 as stated fails: the status is 0 although the model could not be saved; a value with a blank inside is cut without notice, a
    doubled `=` is taken for one; `--dim` changes nothing. -/
theorem C60_is_violated :
    (Does (trainMain machine (argv ["t", "in", "full/out"])) false fun j => j.out = some "full/out".toList) ∧
    (Does (trainMain machine (argv ["t", "--params", "eta==0.5 7", "in"])) false fun j => j.model.eta = .fin (1 / 2)) ∧
    trainMain machine (argv ["t", "--dim=7", "in"]) = trainMain machine (argv ["t", "in"]) := by decide +kernel

end Sol.Props
