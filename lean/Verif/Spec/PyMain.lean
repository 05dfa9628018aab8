import Verif.Model.PyMain
import Verif.Spec.SolTrain
/-!
# Specification of the Python scripts: arguments that ask the script and the executable for the same
-/

namespace Sol.Spec
open Sol.Params Sol.Cmdline Sol.Cli

/-- Texts `name=value`. -/
def Items (items : List (List Char)) (l : List (String × List Char)) : Prop :=
  List.Forall₂ (fun t p => t = p.1.toList ++ '=' :: p.2 ∧ '=' ∉ p.1.toList ∧ '=' ∉ p.2) items l

/-- The sizes of batches and buffers are positive and fit. -/
def SizesFit (a : PyMain.Args) : Prop := 1 ≤ a.batch ∧ a.batch ≤ 2147483647 ∧ 1 ≤ a.buf ∧ a.buf ≤ 2147483647

/-- The command line asks `sol_train` to train the model `m₀` with the settings `l`, in some order, on the data of the script's arguments;
    batches and buffers have any size. -/
structure Alike (env : Env) (g : List (Opt × Option Val)) (ws : List (List Char)) (a : PyMain.Args) (m₀ : M) (l : List (String × List Char))
    (out : List Char) : Prop where
  words : ws = [a.input, out]
  start : Start trainOpts env g m₀
  params : ∃ p l', Value trainOpts g "params" (.str p) ∧ ParamList FirstWord p l' ∧ l'.Perm l
  format : Value trainOpts g "format" (.str a.dataType)
  passes : Value trainOpts g "pass" (.int a.passes)
  batch : ∃ n, Value trainOpts g "batchsize" (.int n) ∧ 0 < n
  buf : ∃ n, Value trainOpts g "bufsize" (.int n) ∧ 0 < n

/-- The number of different labels. -/
def classesOf (pts : List DataFile.Point) : Nat := (pts.map (·.label)).toFinset.card

/-- The lines that sol_test.py writes: the label, the prediction and the scores; `fixed`, `shown`: how a single score and several scores
    are written. -/
def testLines (fixed shown : F32 → List Char) (classNum : Int) (rows : List (Train.Row F32)) : List (List Char) :=
  rows.map fun r => ['\t'].intercalate (intText r.label :: intText r.pred :: r.scores.map (if classNum = 2 then fixed else shown))

end Sol.Spec
