import Verif.Spec.SolTrain
/-!
# Specification of training followed by a test
-/

namespace Sol.Spec
open Sol.Params Sol.Loss

variable [FFun F32]

/-- What the calls of `train_test` should have done with the model `m`: it is trained on the points like `sol_train` does; the rate of
    mistakes is returned; the file is the text of the trained model; the trained model, the one in the file, is tested on the other points
    like `sol_test` does, and the rate of mistakes is returned last. -/
def TrainedThenTested (powf : F32 → F32 → F32) (ρ : Nat → F32) (d : Train.Disp) (W : Whole.World) (m : M) (pts tests : List DataFile.Point)
    (passes : Nat) (output : Option (List Char)) (e : Res (PySol.Py × List PySol.Ret)) : Prop :=
  ∃ m' s x rs rows y, Whole.trainModel powf ρ d m [lessons pts .endOfFile passes] = .ok m' ∧ e = .ok (s, .rate x :: (rs ++ [.rate y])) ∧
    RateOfAll powf ρ d m [lessons pts .endOfFile passes] x ∧
    (output = none → rs = []) ∧ (∀ p, output = some p → ∃ r, rs = [r] ∧ Tells W m' (.save p) [] r) ∧
    Whole.testModel m' [tests.map Whole.exOf] = .ok (rows, y)

end Sol.Spec
