import Verif.Spec.Handles
/-!
# Model of what `lsol_c` does with its objects (tools/lsol_c.cc: `train`, `test`)

The calls of the C interface are reduced to what they do with the model and the data iterator: make, use or release one
(src/sol/c_api.cc; `DeletePointer`, include/sol/util/util.h:21-25, does nothing with a null pointer).

Simplifications: what the command line says and what the calls return is given; every call returns, without an exception.
-/

namespace Sol.Handles
open Sol.Spec

/-- What `train` meets: `source`: `--model` or a name in `--algo`; `made`: the pointer to the model is not null; `params`: for each setting
    the status of `sol_SetModelParameter`, or `none` if it is not two texts around `=`; `load`: the status of `sol_LoadData`; `output`: the
    status of `sol_SaveModel`, if there is `--output`. -/
structure Train where
  source : Bool
  made : Bool
  params : List (Option Int)
  load : Int
  output : Option Int

/-- `DeletePointer` of a pointer that is null or not. -/
def release (o : Obj) (set : Bool) : List HandleAct := if set then [.free o] else []

/-- The loop over the settings (lsol_c.cc:69-79); the second part is `ret`, or `none` for the `return` inside (lsol_c.cc:72). -/
def setAll : List (Option Int) → List HandleAct × Option Int
  | [] => ([], some 0)
  | none :: _ => ([], none)
  | some st :: l => if st ≠ 0 then ([.use .model], some st) else (.use .model :: (setAll l).1, (setAll l).2)

/-- `train` after the settings (lsol_c.cc:83-104), with the status so far. -/
def trainRest (a : Train) (ret : Int) : List HandleAct :=
  let loaded := if ret = 0 then [.make .iter, .use .iter] else []
  let trained := if ret = 0 ∧ a.load = 0 then [.use .model, .use .iter] ++ (if a.output.isSome then [.use .model] else []) else []
  loaded ++ trained ++ release .model a.made ++ release .iter (ret = 0)

/-- `train` (lsol_c.cc:50-105); `Status_Invalid_Argument` is only known as not 0. -/
def train (invalid : Int) (a : Train) : List HandleAct :=
  if a.source then
    if a.made then
      match setAll a.params with
      | (acts, some ret) => .make .model :: acts ++ trainRest a ret
      | (acts, none) => .make .model :: acts
    else trainRest a invalid
  else []

/-- What `test` meets: `source`: `--model`; `filter`: the status of setting it, if there is `--filter`. -/
structure Test where
  source : Bool
  made : Bool
  filter : Option Int
  load : Int

/-- `test` (lsol_c.cc:107-144). -/
def test (invalid : Int) (a : Test) : List HandleAct :=
  if a.source then
    let ret := a.filter.getD (if a.made then 0 else invalid)
    (if a.made then [.make .model] else []) ++ (if a.filter.isSome then [.use .model] else []) ++
      (if ret = 0 then [.make .iter, .use .iter] else []) ++ (if ret = 0 ∧ a.load = 0 then [.use .model, .use .iter] else []) ++
      release .model a.made ++ release .iter (ret = 0)
  else []

end Sol.Handles
