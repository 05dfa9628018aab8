import Mathlib.Data.List.Forall2
import Verif.Model.Cv
/-!
# Specification of cross validation: combinations of values, validation on a fold, the best average
-/

namespace Sol.Spec
open Sol.Cv (Lib Dict)

universe u

variable {V α : Type} {M : Type u}

/-- One of the values for each of the parameters. -/
def Combination (params : List (String × List V)) (d : Dict V) : Prop :=
  List.Forall₂ (fun p q => q.1 = p.1 ∧ q.2 ∈ p.2) params d

/-- The settings `f` are those of `e`, and those of `d` where `e` has none. -/
def Overlaid (d e f : Dict V) : Prop := ∀ k, f.lookup k = (e.lookup k).or (d.lookup k)

/-- Training on folds, one after the other, leads from one model to another; `a`: the accuracy on the last of them. -/
inductive Learns (lib : Lib V M α) : M → List Nat → M → α → Prop
  | last (m m' : M) (i : Nat) (a : α) : lib.fit m i = some (m', a) → Learns lib m [i] m' a
  | more (m m' m'' : M) (i : Nat) (is : List Nat) (b a : α) : lib.fit m i = some (m', b) → Learns lib m' is m'' a → Learns lib m (i :: is) m'' a

/-- The folds but `v`. -/
def otherFolds (n v : Nat) : List Nat := (List.range n).filter (· ≠ v)

/-- A new model trained on all folds but `v`, several times over, has the accuracies `tr` in training and `va` on the fold `v`. -/
def Validates (lib : Lib V M α) (passes n v : Nat) (d : Dict V) (tr va : α) : Prop :=
  ∃ m₀ m, lib.create d = some m₀ ∧ Learns lib m₀ (List.replicate passes (otherFolds n v)).flatten m tr ∧ lib.score m v = some va

end Sol.Spec
