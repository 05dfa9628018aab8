import Mathlib.Data.Real.Basic
/-! Vocabulary for the loss theorems. -/

namespace Sol.Spec

/-- Inner product of two score vectors. -/
def dot : List ℝ → List ℝ → ℝ
  | a :: l, b :: r => a * b + dot l r
  | _, _ => 0

/-- Difference of two score vectors. -/
def diff (p' p : List ℝ) : List ℝ := List.zipWith (· - ·) p' p

/-- No wrong class reaches the score of the true class minus `m`. -/
def Separated (p : List ℝ) (label : Nat) (m : ℝ) : Prop :=
  ∀ (j : Nat) (a b : ℝ), j ≠ label → p[j]? = some a → p[label]? = some b → a + m ≤ b

/-- Some wrong class is not below the true class. -/
def Contested (p : List ℝ) (label : Nat) : Prop :=
  ∃ (j : Nat) (a b : ℝ), j ≠ label ∧ p[j]? = some a ∧ p[label]? = some b ∧ b ≤ a

end Sol.Spec
