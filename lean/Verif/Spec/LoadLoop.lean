import Mathlib.Data.List.Basic
/-!
# Lines of a text
-/

namespace Sol.Spec

/-- `l` is one of the lines of the text. -/
def IsLine (l text : List Char) : Prop :=
  '\n' ∉ l ∧ ∃ a b, text = a ++ (l ++ b) ∧ (a = [] ∨ ∃ a', a = a' ++ ['\n']) ∧ (b = [] ∨ ∃ b', b = '\n' :: b')

/-- `l` is the first line of the text. -/
def StartsWithLine (l text : List Char) : Prop := '\n' ∉ l ∧ (text = l ∨ ∃ b, text = l ++ '\n' :: b)

/-- A text without its newlines. -/
def joined (text : List Char) : List Char := text.filter fun c => c != '\n'

end Sol.Spec
