import Verif.Model.Cli
import Verif.Model.LoadText
import Verif.Model.Train
/-!
# Model of the C interface: src/sol/c_api.cc, and of its callers tools/lsol_c.cc and python/pysol.pyx

Handles are the objects they point to; `none` is the null pointer.  A callback is the list of its calls.  Releasing a handle and the
calls that only pass their arguments on (`sol_CreateDataIter`, `sol_LoadData`, `sol_model_sparsity`, the data tools) have no model of
their own.  Of pysol.pyx, `set_params`, `get_params`, `score` and `predict` are modelled; the order in which a Python dictionary is
walked through is any.
-/

namespace Sol.CApi
open Sol.Params Sol.Json Sol.Cli Sol.Cmdline

/-- How a call ends. -/
inductive Ret (α : Type) where
  | gives (a : α)
  /-- an exception leaves the interface -/
  | thrown
  | undef (k : UB)
deriving DecidableEq, Repr

/-- `sol_SetModelParameter` (c_api.cc:62-73): the model afterwards and the status. -/
def setModelParameter (files : List Char → Option (List Char)) (m : Option M) (name : String) (v : List Char) : Ret (M × Int) :=
  match m with
  | none => .undef .nullDeref
  | some m =>
    match set files m name v with
    | (m, .accepted) => .gives (m, 0)
    | (m, .rejected) => .gives (m, 4)
    | (_, .thrown) => .thrown
    | (_, .undef k) => .undef k

/-- `sol_CreateModel` (c_api.cc:44-46). -/
def createModel (name : List Char) (n : Int) : Option M := (classNamed name).bind fun c => create c n

/-- `sol_RestoreModel` (c_api.cc:48-50). -/
def restoreModel (env : Env) (path : List Char) : Ret (Option M) :=
  match env.load path with
  | .model m => .gives (some m)
  | .null => .gives none
  | .thrown => .thrown
  | .undef k => .undef k

/-- The status of `sol_SaveModel` (c_api.cc:52-55, model.cc:160-165). -/
def saveModel (env : Env) (path : List Char) : Int := if env.writes path then 0 else 2

mutual
/-- `GetModelParameters` for one member (c_api.cc:78-85): the calls of the callback; `none`: `asString` throws. -/
def member (k : List Char) : Value → Option (List (List Char × List Char))
  | .obj l => parameters l
  | .null => (asString .null).map fun v => [(k, v)]
  | .bool b => (asString (.bool b)).map fun v => [(k, v)]
  | .int n => (asString (.int n)).map fun v => [(k, v)]
  | .real x => (asString (.real x)).map fun v => [(k, v)]
  | .str s => (asString (.str s)).map fun v => [(k, v)]
  | .arr l => (asString (.arr l)).map fun v => [(k, v)]

/-- `GetModelParameters` (c_api.cc:75-86). -/
def parameters : Members → Option (List (List Char × List Char))
  | .nil => some []
  | .cons k v l =>
    match member k v, parameters l with
    | some a, some b => some (a ++ b)
    | _, _ => none
end

/-- `sol_GetModelParameters` (c_api.cc:87-95). -/
def getModelParameters (m : M) : Option (List (List Char × List Char)) :=
  match tree (save m) with
  | .obj l => parameters l
  | _ => some []

/-- How the Python methods end. -/
inductive Py (α : Type) where
  | value (a : α)
  /-- `RuntimeError` is raised; the model stays as it is then -/
  | raised (a : α)
  /-- the process ends with a C++ exception -/
  | thrown
  | undef (k : UB)
deriving DecidableEq, Repr

/-- `SOL.set_params` (pysol.pyx:112-129) for the parameters in the order in which the dictionary is walked through. -/
def setParams (files : List Char → Option (List Char)) (m : M) : List (String × List Char) → Py M
  | [] => .value m
  | (k, v) :: l =>
    match setModelParameter files (some m) k v with
    | .gives (m, s) => if s = 0 then setParams files m l else .raised m
    | .thrown => .thrown
    | .undef k => .undef k

section Predict
open Sol.Online Sol.PreProcess Sol.Loss Sol.Train

variable {α A : Type} [Zero α] [One α] [Add α] [Sub α] [Mul α] [Div α] [Neg α] [FCmp α] [IntCast α] [FFun α] [FSqrt α]

/-- The loop over a batch (c_api.cc:127-133): the calls of the callback so far. -/
def predictBatch (c : Cfg α) (p : Pre) (s : Online.St α A) : List (Row α) → List (Ex α) → Res (List (Row α))
  | rows, [] => .ok rows
  | rows, e :: es => do
    let x ← preProcess c.clf p.sel p.norm e
    let (v, label) ← predict c s x.x
    predictBatch c p s (rows ++ [⟨x.label, label, v⟩]) es

/-- The loop over the batches (c_api.cc:124-135) with `data_num`. -/
def predictBatches (c : Cfg α) (p : Pre) (s : Online.St α A) : List (Row α) × Nat → List (List (Ex α)) → Res (List (Row α) × Nat)
  | r, [] => .ok r
  | r, b :: bs => do
    let rows ← predictBatch c p s r.1 b
    predictBatches c p s (rows, r.2 + b.length) bs

/-- `sol_Predict` (c_api.cc:114-138): the model afterwards, the calls of the callback and the result. -/
def predictAll (G : Alg α A) (c : Cfg α) (p : Pre) (s : Online.St α A) (bs : List (List (Ex α))) :
    Res (Online.St α A × List (Row α) × Nat) := do
  let s ← (if s.fresh then G.endTrain c s else .ok s : Res (Online.St α A))
  let (rows, n) ← predictBatches c p s ([], 0) bs
  .ok (s, rows, n)

/-- `sol_Test` (c_api.cc:103-112): the model afterwards, the lines and the result. -/
def testAll (G : Alg α A) (c : Cfg α) (p : Pre) (s : Online.St α A) (bs : List (List (Ex α))) : Res (Online.St α A × List (Row α) × α) :=
  Train.test G c p s bs

/-- `SOL.score` (pysol.pyx:213-231). -/
def score (G : Alg α A) (c : Cfg α) (p : Pre) (s : Online.St α A) (bs : List (List (Ex α))) : Res (Online.St α A × α) := do
  let (s, _, rate) ← testAll G c p s bs
  .ok (s, 1 - rate)

/-- `SOL.predict` with `get_labels` (pysol.pyx:269-296): predicted labels and labels. -/
def predictLabels (G : Alg α A) (c : Cfg α) (p : Pre) (s : Online.St α A) (bs : List (List (Ex α))) :
    Res (Online.St α A × List Int × List Int) := do
  let (s, rows, _) ← predictAll G c p s bs
  .ok (s, rows.map Row.pred, rows.map Row.label)

end Predict

/-! ### tools/lsol_c.cc -/

/-- The options of `lsol_c` (lsol_c.cc:158-190). -/
def lsolOpts : List Opt :=
  [opt "show" (some 's') (.oneOf [[], "model".toList, "loss".toList, "reader".toList, "writer".toList]) false (.str []),
   opt "task" (some 't') (.oneOf ["train".toList, "test".toList]) false (.str "train".toList),
   opt "input" (some 'i') .str true (.str []),
   opt "format" (some 'f') (.oneOf ["csv".toList, "svm".toList, "bin".toList]) false (.str "svm".toList),
   opt "classes" (some 'c') .int false (.int 2),
   opt "pass" (some 'p') .int false (.int 1),
   opt "dim" (some 'd') .str false (.str []),
   opt "batchsize" (some 'b') .int false (.int 256),
   opt "bufsize" none .int false (.int 2),
   opt "output" (some 'o') .str false (.str []),
   opt "algo" (some 'a') .str false (.str []),
   opt "model" (some 'm') .str false (.str []),
   opt "filter" none .str false (.str []),
   opt "params" none .str false (.str []),
   flag "help" (some 'h')]

/-- `getparser` (lsol_c.cc:192-208). -/
def lsolFront (argv : List (List Char)) : Front :=
  if (parse lsolOpts argv).exist "show".toList = some true then .exit 0 else front lsolOpts argv

/-- The loop over the parameters (lsol_c.cc:65-81). -/
def lsolParams (files : List Char → Option (List Char)) : M → List (List Char) → M ⊕ Ran
  | m, [] => .inl m
  | m, o :: os =>
    match StrUtil.split '=' o with
    | [k, v] =>
      match setModelParameter files (some m) (String.ofList (StrUtil.strip k)) (StrUtil.strip v) with
      | .gives (m, s) => if s = 0 then lsolParams files m os else .inr (.exit s)
      | .thrown => .inr .thrown
      | .undef k => .inr (.undef k)
    | _ => .inr (.exit 4)

/-- The output path (lsol_c.cc:97-99, 132-135): an empty one is one. -/
def lsolOut (s : Cmdline.St) : Option (List Char) := if s.exist "output".toList = some true then some (Cli.str s "output") else none

/-- The model of `train` (lsol_c.cc:54-63). -/
def lsolModel (env : Env) (s : Cmdline.St) : M ⊕ Ran :=
  if s.exist "model".toList = some true then
    match restoreModel env (Cli.str s "model") with
    | .gives (some m) => .inl m
    | .gives none => .inr (.exit 4)
    | .thrown => .inr .thrown
    | .undef k => .inr (.undef k)
  else if Cli.str s "algo" = [] then .inr (.exit 4)
  else
    match createModel (Cli.str s "algo") (Cli.num s "classes") with
    | some m => .inl m
    | none => .inr (.exit 4)

/-- The status after training (lsol_c.cc:97-99). -/
def saveStatus (env : Env) : Option (List Char) → Int
  | some p => saveModel env p
  | none => 0

/-- `train` (lsol_c.cc:50-105): the status of saving is that of the tool. -/
def lsolTrain (env : Env) (s : Cmdline.St) : Ran :=
  match lsolModel env s with
  | .inr r => r
  | .inl m =>
    match lsolParams env.files m (StrUtil.split ';' (Cli.str s "params")) with
    | .inr r => r
    | .inl m =>
      let j : Job := ⟨m, Cli.str s "input", Cli.str s "format", Cli.num s "pass", Cli.num s "batchsize", Cli.num s "bufsize", lsolOut s⟩
      withData env j (.done j (j.out.any env.writes) (saveStatus env j.out))

/-- The filter (lsol_c.cc:117-122): it is set even if there is no model, and its status replaces the one of loading. -/
def lsolFilter (env : Env) (s : Cmdline.St) (m : Option M) : Ret (Option M × Int) :=
  if s.exist "filter".toList = some true then
    match setModelParameter env.files m "filter" (Cli.str s "filter") with
    | .gives (m, r) => .gives (some m, r)
    | .thrown => .thrown
    | .undef k => .undef k
  else .gives (m, if m = none then 4 else 0)

/-- `test` (lsol_c.cc:107-144). -/
def lsolTest (env : Env) (s : Cmdline.St) : Ran :=
  if s.exist "model".toList = some true then
    match restoreModel env (Cli.str s "model") with
    | .thrown => .thrown
    | .undef k => .undef k
    | .gives m =>
      match lsolFilter env s m with
      | .thrown => .thrown
      | .undef k => .undef k
      | .gives (m, r) =>
        if r ≠ 0 then .exit r
        else
          match m with
          | none => .undef .nullDeref
          | some m =>
            let j : Job := ⟨m, Cli.str s "input", Cli.str s "format", 1, Cli.num s "batchsize", Cli.num s "bufsize", lsolOut s⟩
            withData env j (.done j (j.out.any env.writes) 0)
  else .exit 4

/-- `main` of `lsol_c` (lsol_c.cc:26-48). -/
def lsolMain (env : Env) (argv : List (List Char)) : Ran :=
  match lsolFront argv with
  | .exit c => .exit c
  | .run s =>
    if Cli.str s "task" = "train".toList then lsolTrain env s
    else if Cli.str s "task" = "test".toList then lsolTest env s
    else .exit 4

end Sol.CApi
