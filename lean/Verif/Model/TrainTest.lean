import Verif.Model.SolTrain
/-!
# Model of `train_test` of python/sol_train.py

Simplifications: those of Model/SolTrain.lean and Model/PySol.lean; time and logging are left out (the message before the test names the data
set of the training, sol_train.py:110).
-/

namespace Sol.TrainTest
open Sol.Params Sol.Loss Sol.Whole Sol.PySol Sol.Cv Sol.PyCv Sol.SolTrain
open Sol.DataSet (Files DataSet)

variable {V : Type} [FFun F32] [PyVal V] (pw : Int → F32) (powf : F32 → F32 → F32) (ρ : Nat → F32) (d : Train.Disp) (st : Style V)
  (writes : List Char → Bool) (load : List Char → Loaded) (choice : Nat → Nat)

/-- The calls of the methods of the new object (sol_train.py:86, 94, 113). -/
def calls (j : Job V) (test : DataSet) : List Op := j.calls ++ [.score test.dataPath test.dtype]

/-- `train_test` (sol_train.py:98-119): the files before the model is saved, and what the calls of the methods returned. -/
inductive TrainTests (j : Job V) (test : DataSet) (fs : Files) : Option (Files × Res (Py × List Ret)) → Prop
  | unsettled (h : Settles pw powf ρ d st writes load choice j fs none) : TrainTests j test fs none
  | refused {fs' : Files} {p q : Dict V} (h : Settles pw powf ρ d st writes load choice j fs (some (fs', p))) (hq : q.Perm p)
      (hm : newObject (World.files ⟨fs', writes, load⟩) j.cls j.ds.classNum q = none) : TrainTests j test fs none
  | done {fs' : Files} {p q : Dict V} {s : Py} {e : Res (Py × List Ret)}
      (h : Settles pw powf ρ d st writes load choice j fs (some (fs', p))) (hq : q.Perm p)
      (hm : newObject (World.files ⟨fs', writes, load⟩) j.cls j.ds.classNum q = some s)
      (hs : Session pw powf ρ d ⟨fs', writes, load⟩ s (calls j test) e) : TrainTests j test fs (some (fs', e))

end Sol.TrainTest
