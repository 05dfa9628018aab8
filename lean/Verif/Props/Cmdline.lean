import Verif.Proofs.Cmdline
import Verif.Model.Cli
/-!
# C59: the command line is taken as it is written

A command line is accepted exactly if it is a sequence of words, lone minus signs and options in one of the documented forms, with
values that their readers accept, and every required option is given.  Each option then has the last value given for it, or its
default.
-/

namespace Sol.Props
open Sol.Cmdline Sol.Spec Sol.Cli

/-- What the parser tells about an accepted command line. -/
def Told (os : List Opt) (s : Cmdline.St) (g : List (Opt × Option Val)) (ws : List (List Char)) : Prop :=
  s.errors = [] ∧ s.others = ws ∧
    ∀ o ∈ os, (s.exist o.name = some true ↔ Given g o) ∧ (s.exist o.name = some false ↔ ¬ Given g o) ∧
      (o.reader ≠ none → ∃ x, s.get o.name = some x ∧ ∀ y, ValueOf g o y ↔ y = x)

theorem told_of_holds {os : List Opt} (hd : Distinct os) {s : Cmdline.St} {g : List (Opt × Option Val)} {ws : List (List Char)}
    (hk : ∀ o x, (o, x) ∈ g → o ∈ os ∧ (x = none ↔ o.reader = none)) (h : Holds os s g ws) (he : s.errors = []) : Told os s g ws := by
  refine ⟨he, h.2, fun o ho => ?_⟩
  have hf := find_name hd h ho
  have hx : s.exist o.name = some (g.any fun p => p.1 = o) := by
    unfold St.exist
    rw [hf]
    rfl
  refine ⟨?_, ?_, ?_⟩
  · rw [hx, Option.some.injEq]
    exact any_given g o
  · rw [hx, Option.some.injEq, ← any_given g o, Bool.not_eq_true]
  · intro hr
    refine ⟨lastVal g o, ?_, fun y => ?_⟩
    · unfold St.get
      rw [hf]
      dsimp only
      rw [if_neg (by exact hr)]
      rfl
    · rw [← lastVal_eq (fun x hx hn => hr ((hk o x hx).2.1 hn)) y]
      exact eq_comm

theorem parse_eq {os : List Opt} (hd : Distinct os) (prog : List Char) (args : List (List Char)) : parse os (prog :: args) =
    { parseLoop (start os) args with errors := (parseLoop (start os) args).errors ++
        ((parseLoop (start os) args).slots.filter fun o => o.opt.need && !o.has).map fun o => .missing o.opt.name } := by
  unfold parse
  rw [not_ambiguous hd]
  rfl

theorem required_iff {os : List Opt} {s : Cmdline.St} {g : List (Opt × Option Val)} {ws : List (List Char)} (h : Holds os s g ws) :
    ((s.slots.filter fun o => o.opt.need && !o.has).map fun o => Err.missing o.opt.name) = [] ↔ ∀ o ∈ os, o.need = true → Given g o := by
  rw [List.map_eq_nil_iff, List.filter_eq_nil_iff, h.1]
  simp only [List.mem_map, forall_exists_index, and_imp, forall_apply_eq_imp_iff₂]
  refine forall₂_congr fun o _ => ?_
  rw [← any_given]
  simp [slotAfter]

/-- C59: a well-formed command line with all required options is accepted and taken as it is written.  Partial: a lone minus sign
    is dropped (see `C59_is_violated`). -/
theorem C59_reads_partial {os : List Opt} (hd : Distinct os) {args : List (List Char)} {g : List (Opt × Option Val)}
    {ws : List (List Char)} (h : Says os args g ws) (hr : ∀ o ∈ os, o.need = true → Given g o) (prog : List Char) :
    Told os (parse os (prog :: args)) g ws := by
  obtain ⟨h1, h2⟩ := says_parse hd h (holds_start os)
  rw [List.nil_append, List.nil_append] at h1
  rw [parse_eq hd]
  refine told_of_holds hd (says_kind h) h1 ?_
  dsimp only
  rw [h2, (required_iff h1).2 hr]
  rfl

/-- C59: nothing else is accepted. -/
theorem C59_only_partial {os : List Opt} (hd : Distinct os) (prog : List Char) (args : List (List Char))
    (he : (parse os (prog :: args)).errors = []) :
    ∃ g ws, Says os args g ws ∧ (∀ o ∈ os, o.need = true → Given g o) ∧ Told os (parse os (prog :: args)) g ws := by
  rw [parse_eq hd] at he ⊢
  obtain ⟨h1, h2⟩ := List.append_eq_nil_iff.1 he
  obtain ⟨_, g, ws, h3, h4⟩ := says_only hd args.length args le_rfl (holds_start os) h1
  rw [List.nil_append, List.nil_append] at h4
  exact ⟨g, ws, h3, (required_iff h4).1 h2, told_of_holds hd (says_kind h3) h4 he⟩

/-- C59: two ways to read the same command line agree. -/
theorem C59_unambiguous {os : List Opt} (hd : Distinct os) {args : List (List Char)} {g g' : List (Opt × Option Val)}
    {ws ws' : List (List Char)} (h : Says os args g ws) (h' : Says os args g' ws') :
    ws = ws' ∧ ∀ o ∈ os, (Given g o ↔ Given g' o) ∧ (o.reader ≠ none → ∀ x, ValueOf g o x ↔ ValueOf g' o x) := by
  obtain ⟨h1, h2⟩ := says_parse hd h (holds_start os)
  obtain ⟨h3, h4⟩ := says_parse hd h' (holds_start os)
  rw [List.nil_append, List.nil_append] at h1 h3
  have t1 := told_of_holds hd (says_kind h) h1 (by rw [h2]; rfl)
  have t2 := told_of_holds hd (says_kind h') h3 (by rw [h4]; rfl)
  refine ⟨t1.2.1.symm.trans t2.2.1, fun o ho => ?_⟩
  refine ⟨(t1.2.2 o ho).1.symm.trans (t2.2.2 o ho).1, fun hr x => ?_⟩
  obtain ⟨y, h5, h6⟩ := (t1.2.2 o ho).2.2 hr
  obtain ⟨z, h7, h8⟩ := (t2.2.2 o ho).2.2 hr
  rw [h5] at h7
  cases h7
  rw [h6, h8]

/-- C59: the option tables of all executables name every option once. -/
theorem C59_tables : Distinct trainOpts ∧ Distinct testOpts ∧ Distinct analyzeOpts ∧ Distinct concatOpts ∧ Distinct converterOpts ∧
    Distinct shuffleOpts ∧ Distinct splitOpts := by decide +kernel

/-- C59: a tool runs exactly on well-formed command lines without `help`; with errors it exits with 1 (or 0, when there are no
    arguments or help is asked for). -/
theorem C59_runs_partial {os : List Opt} (hd : Distinct os) (prog : List Char) (args : List (List Char)) (s : Cmdline.St) :
    front os (prog :: args) = .run s ↔
      s = parse os (prog :: args) ∧ s.exist "help".toList ≠ some true ∧
        ∃ g ws, Says os args g ws ∧ (∀ o ∈ os, o.need = true → Given g o) ∧ Told os s g ws := by
  unfold front check
  constructor
  · intro h
    split_ifs at h with h1 h2
    cases h
    obtain ⟨g, ws, h3, h4, h5⟩ := C59_only_partial hd prog args (not_not.1 h2)
    exact ⟨rfl, fun hc => h1 (.inr hc), g, ws, h3, h4, h5⟩
  · rintro ⟨rfl, h1, g, ws, _, _, h5⟩
    rw [if_neg, if_neg (by rw [h5.1]; simp)]
    rintro (⟨_, hc⟩ | hc)
    · exact hc h5.1
    · exact h1 hc

/-- Text as a list of arguments. -/
def argv (l : List String) : List (List Char) := l.map String.toList

/-- Beside C59: a command line of `sol_train` in all forms: long with `=`, long with the value apart, short, with words between; the
    last value counts. -/
theorem C59_instance :
    let s := parse trainOpts (argv ["sol_train", "--format=csv", "data.csv", "-a", "arow", "--params", "r=0.5;loss=hinge", "-c", "3",
      "--algo=cw", "out.model"])
    s.errors = [] ∧ s.others = argv ["data.csv", "out.model"] ∧ s.get "format".toList = some (.str "csv".toList) ∧
      s.get "algo".toList = some (.str "cw".toList) ∧ s.get "params".toList = some (.str "r=0.5;loss=hinge".toList) ∧
      s.get "classes".toList = some (.int 3) ∧ s.get "pass".toList = some (.int 1) ∧ s.exist "algo".toList = some true ∧
      s.exist "help".toList = some false := by decide +kernel

/-- Beside C59: such a command line says something. -/
theorem C59_says_instance :
    ∃ g, Says splitOpts (argv ["-ri", "a.svm", "-s", "svm", "in", "--fold=5", "-o", "-", "--output_type", "bin"]) g (argv ["in"]) := by
  obtain ⟨g, ws, h1, _, h2⟩ := C59_only_partial C59_tables.2.2.2.2.2.2 "split".toList
    (argv ["-ri", "a.svm", "-s", "svm", "in", "--fold=5", "-o", "-", "--output_type", "bin"]) (by decide +kernel)
  have e : (parse splitOpts ("split".toList :: argv ["-ri", "a.svm", "-s", "svm", "in", "--fold=5", "-o", "-", "--output_type", "bin"])).others
    = argv ["in"] := by decide +kernel
  rw [h2.2.1] at e
  exact ⟨g, e ▸ h1⟩

/-- Beside C59: what is refused: unknown options, values that are not numbers or not in the list, a missing value, a missing option,
    a value for a flag, a flag cluster with an option that needs a value. -/
theorem C59_instance_refused :
    (parse trainOpts (argv ["t", "--eta=1"])).errors = [.undefined "eta".toList] ∧
    (parse trainOpts (argv ["t", "-x"])).errors = [.undefinedShort 'x'] ∧
    (parse trainOpts (argv ["t", "-c", "3x"])).errors = [.invalid "classes".toList "3x".toList] ∧
    (parse trainOpts (argv ["t", "-f", "arff"])).errors = [.invalid "format".toList "arff".toList] ∧
    (parse trainOpts (argv ["t", "--algo"])).errors = [.needsValue "algo".toList] ∧
    (parse trainOpts (argv ["t", "-a"])).errors = [.needsValue "algo".toList] ∧
    (parse trainOpts (argv ["t", "--help=1"])).errors = [.invalid "help".toList "1".toList] ∧
    (parse trainOpts (argv ["t", "-ah"])).errors = [.needsValue "algo".toList] ∧
    (parse analyzeOpts (argv ["t", "-i", "a"])).errors = [.missing "input_type".toList] ∧
    front analyzeOpts (argv ["t"]) = .exit 0 ∧ front analyzeOpts (argv ["t", "-q"]) = .exit 1 ∧
    front analyzeOpts (argv ["t", "-q", "--help"]) = .exit 0 := by decide +kernel

/-- C59 as stated fails: an argument that is a lone minus sign, by which `analyze` and `shuffle` mean the standard output, is neither
    an option nor a value nor a word: it is dropped without an error, and the arguments after it move up. -/
theorem C59_is_violated :
    (parse trainOpts (argv ["sol_train", "-", "model"])).errors = [] ∧ (parse trainOpts (argv ["sol_train", "-", "model"])).others = argv ["model"] := by
  decide +kernel

end Sol.Props
