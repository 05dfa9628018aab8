import Verif.Model.Olm
import Verif.Spec.Exact
import Mathlib.Algebra.Field.Defs
/-! # Specification: dual averaging from the history of the updates -/

namespace Sol.Spec

open Sol.Online Sol.Sparse Sol.Loss

variable {α : Type} [Field α]

/-- The sum of the gradients of class `k` at coordinate `i`; coordinate 0 also stands for the bias, whose feature is 1. -/
def gradTotal (hist : List (List α × SVec α)) (k i : Nat) : α :=
  (hist.map fun p => p.1.getD k 0 * (feat p.2 i + if i = 0 then 1 else 0)).sum

/-- The weights: minus the step size times the sums; the bias has its own factor. -/
def dualWeights (c : Cfg α) (eta : α) (d : Nat) (hist : List (List α × SVec α)) : List (List α) :=
  (List.range c.clf).map fun k => (List.range d).map fun i =>
    -(if i = 0 then c.biasEta0 * eta else eta) * gradTotal hist k i

/-- Dual averaging that remembers nothing but the list of its updates (class gradients and example) and computes all weights
    from scratch. -/
def gradSum (sigma eps : α) : Alg α (List (List α × SVec α)) where
  grow _ _ a := a
  beginIter s _ := .ok s
  prep c s _ :=
    let eta := 1 / ((((s.t - 1 : Int) : α) + eps) * sigma)
    .ok { s with eta := eta, w := dualWeights c eta s.dim s.alg }
  handler _ _ _ := none
  update _ s x _ := .ok { s with alg := (s.g, x) :: s.alg }
  endIter s _ := .ok s
  endTrain c s :=
    let eta := 1 / (((s.t : α) + eps) * sigma)
    .ok { s with eta := eta, w := dualWeights c eta s.dim s.alg, fresh := false }

end Sol.Spec
