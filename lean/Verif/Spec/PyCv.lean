import Verif.Model.PyCv
import Verif.Spec.Cv
import Verif.Spec.PySol
/-!
# Specification of cross validation on files: the accuracy on points that were held out
-/

namespace Sol.Spec
open Sol.Params Sol.Online Sol.Loss Sol.Whole

variable [FFun F32] {V : Type} [PyCv.PyVal V]

/-- The examples of all folds but `v`, several times over. -/
def held (folds : List (List (Ex F32))) (passes v : Nat) : List (Ex F32) := (List.replicate passes (folds.eraseIdx v).flatten).flatten

/-- The model `m`, trained like `sol_train` does on the other folds, has the accuracy `a` on the fold `v`, like `sol_test` reports it. -/
def HeldOut (powf : F32 → F32 → F32) (ρ : Nat → F32) (d : Train.Disp) (m : M) (folds : List (List (Ex F32))) (passes v : Nat) (a : ℚ) : Prop :=
  ∃ m' l rows q, trainModel powf ρ d m [held folds passes v] = .ok m' ∧ folds[v]? = some l ∧ testModel m' [l] = .ok (rows, .fin q) ∧ a = 1 - q

/-- The sizes of batches and buffers, if given, are positive numbers. -/
def Roomy (d : Cv.Dict V) : Prop :=
  ∀ p ∈ d, p.1 ∈ ["batch_size", "buf_size"] → ∃ n : Nat, 0 < n ∧ PyCv.PyVal.toInt p.2 = some (n : Int)

/-- These are the accuracies on the folds of the model with the settings `c`, and with `extra` in their place where it has settings. -/
def Scores (powf : F32 → F32 → F32) (ρ : Nat → F32) (d : Train.Disp) (files : List Char → Option (List Char)) (cls : Cls) (classNum : Int)
    (folds : List (List (Ex F32))) (passes : Nat) (extra c : Cv.Dict V) (vas : List ℚ) : Prop :=
  ∃ m, PyCv.createWith files cls classNum (Cv.update c extra) = some m ∧ vas.length = folds.length ∧
    ∀ (v : Nat) va, vas[v]? = some va → HeldOut powf ρ d m folds passes v va

/-- The settings are a combination of the given values, and no other combination has a better average accuracy on the folds. -/
def BestOnHeldOut (powf : F32 → F32 → F32) (ρ : Nat → F32) (d : Train.Disp) (files : List Char → Option (List Char)) (cls : Cls) (classNum : Int)
    (folds : List (List (Ex F32))) (passes : Nat) (params : List (String × List V)) (extra c : Cv.Dict V) : Prop :=
  Combination params c ∧ ∃ vas, Scores powf ρ d files cls classNum folds passes extra c vas ∧
    ∀ c' vas', Combination params c' → Scores powf ρ d files cls classNum folds passes extra c' vas' →
      vas'.sum / folds.length ≤ vas.sum / folds.length

end Sol.Spec
