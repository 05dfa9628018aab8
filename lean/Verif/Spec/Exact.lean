import Verif.Model.Sparse
import Mathlib.Algebra.BigOperators.Group.List.Basic
/-! Vocabulary for the exact-arithmetic theorems: vectors as functions of the index. -/

namespace Sol.Spec

open Sol.Sparse

variable {α : Type}

/-- The value of feature `i`, if listed. -/
def featureAt (x : SVec α) (i : Nat) : Option α := (x.find? fun p => p.1 == i).map (·.2)

/-- The value of feature `i`, 0 if not listed. -/
def feat [Zero α] (x : SVec α) (i : Nat) : α := (featureAt x i).getD 0

/-- Coordinate `i` of a weight vector, 0 outside. -/
def coord [Zero α] (w : List α) (i : Nat) : α := w.getD i 0

/-- The linear function with coefficients `u` at the example, without bias. -/
def linear [AddMonoid α] [Mul α] (u : Nat → α) (x : SVec α) : α := (x.map fun p => u p.1 * p.2).sum

/-- The squared norm of the example. -/
def sqnorm [AddMonoid α] [Mul α] (x : SVec α) : α := (x.map fun p => p.2 * p.2).sum

end Sol.Spec
