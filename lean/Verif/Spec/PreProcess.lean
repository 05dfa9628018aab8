import Verif.Spec.Decimal
import Verif.Spec.Exact
import Mathlib.Algebra.Order.Group.Unbundled.Abs
/-! Feature lists as text, and norms of examples. -/

namespace Sol.Spec

open Sol.Sparse

/-- Indent in front of a number. -/
def Indent (s : List Char) : Prop := ∀ c ∈ s, c = ' ' ∨ c = '\t'

/-- Lines of a feature list and the indexes in them: comments, and numbers followed by anything that is not a digit. -/
inductive Listing : List (List Char) → List Nat → Prop
  | nil : Listing [] []
  | comment {sp t : List Char} {ls : List (List Char)} {is : List Nat} : Indent sp → '\n' ∉ t → Listing ls is →
      Listing ((sp ++ '#' :: t) :: ls) is
  | entry {sp t : List Char} {ls : List (List Char)} {is : List Nat} {i : Nat} : Indent sp → 1 ≤ i → i < 2147483648 →
      (∀ c ∈ t.head?, c.isDigit = false) → '\n' ∉ t → Listing ls is → Listing ((sp ++ decText i ++ t) :: ls) (i :: is)

/-- The text with these lines. -/
def unlines (ls : List (List Char)) : List Char := ls.flatMap (· ++ ['\n'])

/-- The sum of the absolute values. -/
def absnorm {α : Type} [Lattice α] [AddGroup α] (x : SVec α) : α := (x.map fun p => |p.2|).sum

end Sol.Spec
