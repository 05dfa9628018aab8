import Verif.Spec.Exact
import Verif.Spec.Online
import Mathlib.Algebra.BigOperators.Fin
import Mathlib.Data.Finset.Fold
import Mathlib.Data.Finset.Lattice.Fold
import Mathlib.Analysis.Real.Sqrt
/-! Losses along a training run and those of a fixed linear function. -/

namespace Sol.Spec

open Sol.Online Sol.Sparse Sol.Loss

section
variable {α A : Type} [Zero α] [One α] [Add α] [Sub α] [Mul α] [Div α] [Neg α] [FCmp α] [IntCast α] [FFun α] [FSqrt α]

/-- `sts` are the models before each of the examples. -/
inductive Visits (G : Alg α A) (c : Cfg α) : St α A → List (Ex α × α) → List (St α A) → St α A → Prop where
  | nil (s) : Visits G c s [] [] s
  | cons {s s1 s2 e r l sts} : trainOne G c s e r = .ok s1 → Visits G c s1 l sts s2 →
      Visits G c s ((e, r) :: l) (s :: sts) s2

end

section
variable {α : Type} [Ring α] [LinearOrder α]

/-- The hinge loss with margin `m` of a score for a label +1 or -1. -/
def hingeOf (m : α) (e : Ex α) (v : Nat → α) : α := max 0 (m - (e.label : α) * v 0)

/-- The max-score hinge loss with margin `m` for `n` classes: how far the strongest other class is from staying `m` below. -/
def maxHingeOf (n : Nat) (m : α) (e : Ex α) (v : Nat → α) : α :=
  ((Finset.range n).erase e.label.toNat).fold max 0 fun k => m - v e.label.toNat + v k

/-- The scores of the linear functions `U k`, the bias being the coefficient 0. -/
def scoresOf (U : Nat → Nat → α) (x : SVec α) (k : Nat) : α := linear (U k) x + U k 0

/-- The losses `L` of the models `sts`, each on its example. -/
def suffered {A : Type} (L : Ex α → (Nat → α) → α) (sts : List (St α A)) (l : List (Ex α × α)) : List α :=
  (sts.zip l).map fun z => L z.2.1 (scoresOf (fun k i => coord (z.1.w.getD k []) i) z.2.1.x)

/-- The losses of the fixed linear functions `U` on the examples. -/
def fixed (L : Ex α → (Nat → α) → α) (U : Nat → Nat → α) (l : List (Ex α × α)) : List α :=
  l.map fun q => L q.1 (scoresOf U q.1.x)

end

/-- How much of a coordinate the examples show: the root of the sum of the squares of a feature; for the bias (coordinate 0),
    which belongs to every example, the root of their number. -/
noncomputable def extent (l : List (Ex ℝ × ℝ)) (i : Nat) : ℝ :=
  Real.sqrt (l.map fun q => if i = 0 then 1 else feat q.1.x i ^ 2).sum

end Sol.Spec
