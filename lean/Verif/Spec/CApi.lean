import Verif.Model.CApi
import Verif.Spec.Cli
import Verif.Spec.Save
/-! What the C interface and its tool are asked to do. -/

namespace Sol.Spec
open Sol.Cmdline Sol.Cli Sol.Params Sol.CApi

/-- Where `lsol_c` should put its output. -/
def Target (g : List (Opt × Option Val)) (out : Option (List Char)) : Prop :=
  (¬ Present g "output" ∧ out = none) ∨ (Present g "output" ∧ ∃ p, Value lsolOpts g "output" (.str p) ∧ out = some p)

/-- `lsol_c` is asked to train. -/
structure AsksLsolTrain (env : Env) (g : List (Opt × Option Val)) (j : Job) : Prop where
  task : Value lsolOpts g "task" (.str "train".toList)
  input : Value lsolOpts g "input" (.str j.path)
  output : Target g j.out
  model : ∃ m p l, Start lsolOpts env g m ∧ Value lsolOpts g "params" (.str p) ∧ ParamList FirstWord p l ∧
    setAll env.files m l = (j.model, .accepted)
  sized : Sized lsolOpts g j
  passes : Value lsolOpts g "pass" (.int j.passes)
  data : Readable env j

/-- `lsol_c` is asked to test. -/
structure AsksLsolTest (env : Env) (g : List (Opt × Option Val)) (j : Job) : Prop where
  task : Value lsolOpts g "task" (.str "test".toList)
  input : Value lsolOpts g "input" (.str j.path)
  output : Target g j.out
  model : ∃ p m, Present g "model" ∧ Value lsolOpts g "model" (.str p) ∧ env.load p = .model m ∧
    ((¬ Present g "filter" ∧ j.model = m) ∨
      (Present g "filter" ∧ ∃ f, Value lsolOpts g "filter" (.str f) ∧ Params.set env.files m "filter" f = (j.model, .accepted)))
  sized : Sized lsolOpts g j
  passes : j.passes = 1
  data : Readable env j

/-- The text that is shown for a real number: six digits. -/
def shownReal : F32 → List Char
  | .fin q => FloatText.put (.fin q)
  | .nan => ['n', 'u', 'l', 'l']
  | .pinf => ['1', 'e', '+', '9', '9', '9', '9']
  | .ninf => ['-', '1', 'e', '+', '9', '9', '9', '9']

/-- The text that is shown for a value of the settings: whole numbers in decimal, real numbers with six digits. -/
def shownText : Tok → List Char
  | .str s => s
  | .int n => showInt n
  | .real x => shownReal x

/-- A list of names and texts that shows everything that a model reports, each name once. -/
structure Shows (m : M) (l : List (String × List Char)) : Prop where
  once : (l.map Prod.fst).Nodup
  all : ∀ k v, (k, v) ∈ l ↔ ∃ x, info m k = some x ∧ v = shownText x

end Sol.Spec
