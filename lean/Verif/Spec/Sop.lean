import Verif.Spec.Regret
import Mathlib.Analysis.SpecialFunctions.Log.Basic
/-! The examples that a training learns from. -/

namespace Sol.Spec

open Sol.Online Sol.Sparse

/-- The examples for which the model was asked to learn. -/
def learnt {α : Type} : List (Ex α × α) → List Event → List (Ex α)
  | (e, _) :: l, ev :: evs => if ev.fired then e :: learnt l evs else learnt l evs
  | _, _ => []

/-- The sum of the squares of a feature in the examples. -/
noncomputable def squares (es : List (Ex ℝ)) (i : Nat) : ℝ := (es.map fun e => feat e.x i ^ 2).sum

end Sol.Spec
