import Verif.Spec.Exact
import Verif.Spec.Online
import Mathlib.Algebra.Field.Defs
/-! The confidence of linear models whose weights have variances. -/

namespace Sol.Spec

open Sol.Online Sol.Olm Sol.Sparse

variable {α : Type} [Field α]

/-- The variance of weight `i` of the first classifier; `a` for weights of features that have not been seen. -/
def varianceOf (a : α) (v : List (List α)) (i : Nat) : α := (v.getD 0 []).getD i a

/-- The variance of the score of `x`, if weight `i` has the variance `σ i` and the weights are independent; `bias` says whether
    the bias counts. -/
def spread (bias : Bool) (σ : Nat → α) (x : SVec α) : α := (x.map fun p => σ p.1 * p.2 ^ 2).sum + if bias then σ 0 else 0

/-- A problem with two classes: hinge loss, labels +1 and -1, features numbered from 1. -/
structure TwoClass (c : Cfg α) (s : St α (List (List α))) (e : Ex α) : Prop where
  kind : c.kind = .hinge
  clf : c.clf = 1
  fit : Fit c (vecs c.clf) s
  good : Good e.x
  feats : ∀ p ∈ e.x, 1 ≤ p.1
  label : e.label = 1 ∨ e.label = -1

end Sol.Spec
