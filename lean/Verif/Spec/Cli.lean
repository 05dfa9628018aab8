import Verif.Model.Cli
import Verif.Spec.Cmdline
import Verif.Spec.StrUtil
/-! What the executables are asked to do. -/

namespace Sol.Spec
open Sol.Cmdline Sol.Cli Sol.Params

/-- A blank of the parameter text. -/
def Gap1 (c : Char) : Prop := c = ' ' ∨ c = '\t'

/-- `k` is the first word of `a`. -/
def FirstWord (a k : List Char) : Prop :=
  (k = [] ∧ ∀ c ∈ a, Gap1 c) ∨
    ∃ x y, a = x ++ k ++ y ∧ k ≠ [] ∧ (∀ c ∈ x, Gap1 c) ∧ (∀ c ∈ k, ¬ Gap1 c) ∧ (∀ c ∈ y.head?, Gap1 c)

/-- `name=value`, with blanks around both; `word` says how the name and the value stand between the blanks. -/
def Setting (word : List Char → List Char → Prop) (text : List Char) (p : String × List Char) : Prop :=
  ∃ a b, Pieces '=' text [a, b] ∧ word a p.1.toList ∧ word b p.2

/-- A list `name=value;name=value;…`. -/
def ParamList (word : List Char → List Char → Prop) (text : List Char) (l : List (String × List Char)) : Prop :=
  ∃ ps, Pieces ';' text ps ∧ List.Forall₂ (Setting word) ps l

/-- An option with this name is given. -/
def Present (g : List (Opt × Option Val)) (name : String) : Prop := ∃ o x, (o, x) ∈ g ∧ o.name = name.toList

/-- The value of the option with this name. -/
def Value (os : List Opt) (g : List (Opt × Option Val)) (name : String) (x : Val) : Prop :=
  ∃ o ∈ os, o.name = name.toList ∧ ValueOf g o x

/-- The data can be read. -/
def Readable (env : Env) (j : Job) : Prop :=
  0 < j.buf ∧ (0 < j.batch ∨ (j.batch = 0 ∧ j.passes ≤ 0)) ∧ env.opens j.path j.format = true

/-- The sizes and the format are those that are given. -/
def Sized (os : List Opt) (g : List (Opt × Option Val)) (j : Job) : Prop :=
  Value os g "format" (.str j.format) ∧ Value os g "batchsize" (.int j.batch) ∧ Value os g "bufsize" (.int j.buf)

/-- Where the output goes. -/
def Output (o : List Char) (out : Option (List Char)) : Prop := (o = [] ∧ out = none) ∨ (o ≠ [] ∧ out = some o)

/-- The model that training starts from: the one in a file, or a new one of a class. -/
def Start (os : List Opt) (env : Env) (g : List (Opt × Option Val)) (m : M) : Prop :=
  (Present g "model" ∧ ∃ p, Value os g "model" (.str p) ∧ env.load p = .model m) ∨
    (¬ Present g "model" ∧ ∃ a n c, Value os g "algo" (.str a) ∧ Value os g "classes" (.int n) ∧ 1 < n ∧
      (modelName c).toList = a.map Char.toLower ∧ m = fresh c n)

/-- `sol_train` is asked to do `j`. -/
structure AsksTrain (env : Env) (g : List (Opt × Option Val)) (ws : List (List Char)) (j : Job) : Prop where
  words : (ws = [j.path] ∧ j.out = none) ∨ ∃ o, ws = [j.path, o] ∧ Output o j.out
  model : ∃ m p l, Start trainOpts env g m ∧ Value trainOpts g "params" (.str p) ∧ ParamList FirstWord p l ∧
    setAll env.files m l = (j.model, .accepted)
  sized : Sized trainOpts g j
  passes : Value trainOpts g "pass" (.int j.passes)
  data : Readable env j

/-- `sol_test` is asked to do `j`. -/
structure AsksTest (env : Env) (g : List (Opt × Option Val)) (ws : List (List Char)) (j : Job) : Prop where
  words : ∃ p m, env.load p = .model m ∧ ((ws = [p, j.path] ∧ j.out = none) ∨ ∃ o, ws = [p, j.path, o] ∧ Output o j.out) ∧
    ((¬ Present g "filter" ∧ j.model = m) ∨
      (Present g "filter" ∧ ∃ f, Value testOpts g "filter" (.str f) ∧ set env.files m "filter" f = (j.model, .accepted)))
  sized : Sized testOpts g j
  passes : j.passes = 1
  data : Readable env j

/-- The output was asked for and can be written. -/
def Writes (env : Env) (j : Job) : Bool := j.out.any env.writes

end Sol.Spec
