import Verif.Spec.Online
import Mathlib.Algebra.Order.Field.Basic
/-! The algorithm that FOBOS-L1 postpones: gradient descent that shrinks every weight after every example. -/

namespace Sol.Spec

open Sol.Online Sol.Olm Sol.Sparse Sol.Loss

variable {α : Type} [Field α] [LinearOrder α]

/-- Soft thresholding: move `a` by `b` towards zero, at most to zero. -/
def soft (a b : α) : α := if b < a then a - b else if a < -b then a + b else 0

/-- Shrink every weight by `r` and the bias by `b`. -/
def shrink (r b : α) (w : List α) : List α := w.mapIdx fun i a => soft a (if i = 0 then b else r)

/-- Gradient descent with step size `eta0`; after every example all weights are shrunk by `eta * lambda` and the bias by
    `bias0 * eta * lambda`.  At the end only numbers within `thresh` of zero are set to zero. -/
def eagerL1 [IsStrictOrderedRing α] [FFun α] [FSqrt α] (eta0 lambda bias0 thresh : α) : Alg α Unit where
  grow _ _ a := a
  beginIter s _ := .ok s
  prep _ s _ := .ok s
  handler _ _ _ := none
  update c s x _ := etaStep c { s with eta := eta0 } x
  endIter s _ := .ok { s with w := s.w.map (shrink (s.eta * lambda) (bias0 * s.eta * lambda)) }
  endTrain _ s := .ok { s with w := s.w.map (List.map fun v => if |v| < thresh then 0 else v), fresh := false }

end Sol.Spec
