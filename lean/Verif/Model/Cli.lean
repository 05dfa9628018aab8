import Verif.Model.Cmdline
import Verif.Model.Save
import Verif.Model.StrUtil
/-!
# Model of the executables: their options, and tools/sol_train.cc and tools/sol_test.cc

What the tools print, the times they measure and the data they read are left out.  What the operating system does is given:
`Env`.  The training itself is `Model::Train` (Model/Online.lean); here it is only said with which model, on which data and with
which sizes it is called.
Simplification: names of algorithms are ASCII (for others `tolower` is undefined, see Model/StrUtil.lean).
-/

namespace Sol.Cli
open Sol.Cmdline Sol.Params

/-- An option with a value. -/
def opt (name : String) (short : Option Char) (r : Reader) (need : Bool) (d : Val) : Opt := ⟨name.toList, short, some r, need, d⟩

/-- An option without a value. -/
def flag (name : String) (short : Option Char) : Opt := ⟨name.toList, short, none, false, .str []⟩

/-- The options of `sol_train` (sol_train.cc:117-140). -/
def trainOpts : List Opt :=
  [opt "show" (some 's') (.oneOf [[], "model".toList, "loss".toList, "reader".toList, "writer".toList]) false (.str []),
   opt "format" (some 'f') (.oneOf ["csv".toList, "svm".toList, "bin".toList]) false (.str "svm".toList),
   opt "classes" (some 'c') .int false (.int 2),
   opt "pass" (some 'p') .int false (.int 1),
   opt "dim" (some 'd') .str false (.str []),
   opt "batchsize" (some 'b') .int false (.int 256),
   opt "bufsize" none .int false (.int 2),
   opt "algo" (some 'a') .str false (.str "ogd".toList),
   opt "model" (some 'm') .str false (.str []),
   opt "params" none .str false (.str []),
   flag "help" (some 'h')]

/-- The options of `sol_test` (sol_test.cc:89-96). -/
def testOpts : List Opt :=
  [opt "format" (some 'f') (.oneOf ["csv".toList, "svm".toList, "bin".toList]) false (.str "svm".toList),
   opt "batchsize" (some 'b') .int false (.int 256),
   opt "bufsize" none .int false (.int 2),
   opt "filter" none .str false (.str []),
   flag "help" (some 'h')]

/-- The options of `analyze` (analyze.cc:22-24), with `help` from `parse_check` (cmdline.h:516-519). -/
def analyzeOpts : List Opt :=
  [opt "input" (some 'i') .str true (.str []), opt "input_type" (some 's') .str true (.str []),
   opt "output" (some 'o') .str false (.str "-".toList), flag "help" (some 'h')]

/-- The options of `concat` (concat.cc:31-34). -/
def concatOpts : List Opt :=
  [opt "input" (some 'i') .str true (.str []), opt "input_type" (some 's') .str true (.str []),
   opt "output" (some 'o') .str true (.str []), opt "output_type" (some 'd') .str true (.str []), flag "help" (some 'h')]

/-- The options of `converter` (converter.cc:25-29). -/
def converterOpts : List Opt :=
  [opt "input" (some 'i') .str true (.str []), opt "input_type" (some 's') .str true (.str []),
   opt "output" (some 'o') .str true (.str []), opt "output_type" (some 'd') .str true (.str []),
   opt "binary_thresh" (some 'b') .real false (.real 0), flag "help" (some 'h')]

/-- The options of `shuffle` (shuffle.cc:23-26). -/
def shuffleOpts : List Opt :=
  [opt "input" (some 'i') .str true (.str []), opt "input_type" (some 's') .str true (.str []),
   opt "output" (some 'o') .str false (.str "-".toList), opt "output_type" (some 'd') .str false (.str []), flag "help" (some 'h')]

/-- The options of `split` (split.cc:23-28). -/
def splitOpts : List Opt :=
  [opt "input" (some 'i') .str true (.str []), opt "input_type" (some 's') .str true (.str []),
   opt "fold" (some 'n') .int true (.int 0), opt "output_prefix" (some 'o') .str true (.str []),
   opt "output_type" (some 'd') .str true (.str []), flag "shuffle" (some 'r'), flag "help" (some 'h')]

/-- What a tool does with its command line. -/
inductive Front where
  /-- `exit(code)` -/
  | exit (code : Int)
  | run (s : St)
deriving DecidableEq, Repr

/-- The end of `getparser` and `parser::check` (sol_train.cc:148-158, sol_test.cc:100-110, cmdline.h:603-613). -/
def check (argc : Nat) (s : St) : Front :=
  if (argc = 1 ∧ s.errors ≠ []) ∨ s.exist "help".toList = some true then .exit 0
  else if s.errors ≠ [] then .exit 1
  else .run s

/-- `parse_check(argc, argv)` (cmdline.h:516-519). -/
def front (os : List Opt) (argv : List (List Char)) : Front := check argv.length (parse os argv)

/-- `getparser` of `sol_train`: with `--show` the classes are listed (sol_train.cc:142-146). -/
def trainFront (argv : List (List Char)) : Front :=
  if (parse trainOpts argv).exist "show".toList = some true then .exit 0 else front trainOpts argv

/-- What the operating system says. -/
structure Env where
  /-- `Model::Load(path)` -/
  load : List Char → Loaded
  /-- files of selected features -/
  files : List Char → Option (List Char)
  /-- whether a reader of this format can open the file -/
  opens : List Char → List Char → Bool
  /-- whether the file can be written -/
  writes : List Char → Bool

/-- A call of `Model::Train` or `Model::Test` and what comes after it. -/
structure Job where
  model : M
  path : List Char
  format : List Char
  passes : Int
  batch : Int
  buf : Int
  /-- where to save; for `sol_test`, where to write the predictions -/
  out : Option (List Char)
deriving DecidableEq, Repr

/-- How a tool ends. -/
inductive Ran where
  | exit (code : Int)
  /-- an exception leaves `main` -/
  | thrown
  | undef (k : UB)
  /-- it waits forever -/
  | hangs
  /-- the job was done; `wrote`: the output was written -/
  | done (j : Job) (wrote : Bool) (code : Int)
deriving DecidableEq, Repr

/-- `parser.get<string>(name)`. -/
def str (s : St) (name : String) : List Char :=
  match s.get name.toList with
  | some (.str v) => v
  | _ => []

/-- `parser.get<int>(name)`. -/
def num (s : St) (name : String) : Int :=
  match s.get name.toList with
  | some (.int v) => v
  | _ => 0

/-- The loop over the parameters (sol_train.cc:64-79). -/
def setParams (files : List Char → Option (List Char)) : M → List (List Char) → M ⊕ Ran
  | m, [] => .inl m
  | m, o :: os =>
    match StrUtil.split '=' o with
    | [k, v] =>
      match set files m (String.ofList (StrUtil.strip k)) (StrUtil.strip v) with
      | (m, .accepted) => setParams files m os
      | (_, .rejected) => .inr (.exit 4)
      | (_, .thrown) => .inr .thrown
      | (_, .undef k) => .inr (.undef k)
    | _ => .inr (.exit 4)

/-- `DataIter iter(batchsize, bufsize)` and `AddReader` (sol_train.cc:82-85, data_iter.cc:16-26): `new T[n]` throws for a negative
    `n`; a queue without room waits forever for the start signal; batches without room are filled forever. -/
def withData (env : Env) (j : Job) (k : Ran) : Ran :=
  if j.buf < 0 then .thrown
  else if j.buf = 0 then .hangs
  else if j.batch < 0 then .thrown
  else if !env.opens j.path j.format then .exit 4
  else if j.batch = 0 ∧ 0 < j.passes then .hangs
  else k

/-- The model (sol_train.cc:51-61). -/
def firstModel (env : Env) (s : St) : M ⊕ Ran :=
  if s.exist "model".toList = some true then
    match env.load (str s "model") with
    | .model m => .inl m
    | .null => .inr (.exit 4)
    | .thrown => .inr .thrown
    | .undef k => .inr (.undef k)
  else if str s "algo" = [] then .inr (.exit 4)
  else
    match (classNamed (str s "algo")).bind fun c => create c (num s "classes") with
    | some m => .inl m
    | none => .inr (.exit 4)

/-- `train` (sol_train.cc:81-102), with a model that is ready for the data. -/
def trainWith (env : Env) (s : St) (input : List Char) (out : Option (List Char)) : Ran :=
  match firstModel env s with
  | .inr r => r
  | .inl m =>
    match setParams env.files m (StrUtil.split ';' (str s "params")) with
    | .inr r => r
    | .inl m =>
      let j : Job := ⟨m, input, str s "format", num s "pass", num s "batchsize", num s "bufsize", out⟩
      withData env j (.done j (out.any env.writes) 0)

/-- The output path: an empty one is none (sol_train.cc:96-97). -/
def outPath (p : List Char) : Option (List Char) := if p = [] then none else some p

/-- `train` (sol_train.cc:39-49). -/
def train (env : Env) (s : St) : Ran :=
  match s.others with
  | [i] => trainWith env s i none
  | [i, o] => trainWith env s i (outPath o)
  | _ => .exit 4

/-- `main` of `sol_train` (sol_train.cc:25-37). -/
def trainMain (env : Env) (argv : List (List Char)) : Ran :=
  match trainFront argv with
  | .exit c => .exit c
  | .run s => train env s

/-- `test` (sol_test.cc:55-85). -/
def testWith (env : Env) (s : St) (model input : List Char) (out : Option (List Char)) : Ran :=
  match env.load model with
  | .null => .exit 4
  | .thrown => .thrown
  | .undef k => .undef k
  | .model m =>
    match (if s.exist "filter".toList = some true then set env.files m "filter" (str s "filter") else (m, .accepted)) with
    | (_, .rejected) => .exit 4
    | (_, .thrown) => .thrown
    | (_, .undef k) => .undef k
    | (m, .accepted) =>
      let j : Job := ⟨m, input, str s "format", 1, num s "batchsize", num s "bufsize", out⟩
      withData env j (.done j (out.any env.writes) 0)

/-- `test` (sol_test.cc:41-53). -/
def test (env : Env) (s : St) : Ran :=
  match s.others with
  | [m, i] => testWith env s m i none
  | [m, i, o] => testWith env s m i (outPath o)
  | _ => .exit 4

/-- `main` of `sol_test` (sol_test.cc:25-39). -/
def testMain (env : Env) (argv : List (List Char)) : Ran :=
  match front testOpts argv with
  | .exit c => .exit c
  | .run s => test env s

end Sol.Cli
