import Verif.Model.Vw
import Verif.Spec.Decimal
/-!
# Specification of the experiments with Vowpal Wabbit
-/

namespace Sol.Spec
open Sol.DataSet (Files DataSet)

/-- The text of a whole number, with or without a sign. -/
def NumberText (s : List Char) (l : Int) : Prop :=
  ∃ ds, ds ≠ [] ∧ Digits ds ∧ (((s = ds ∨ s = '+' :: ds) ∧ l = decVal ds) ∨ (s = '-' :: ds ∧ l = -(decVal ds : Int)))

/-- Spaces inside a line. -/
def Spaces (s : List Char) : Prop := ∀ c ∈ s, c = ' ' ∨ c = '\t' ∨ c = '\r'

/-- The text of the features of a point: a space or tabulator, and text that ends with something else. -/
def FeatureText (t : List Char) : Prop :=
  ∃ sep mid last, t = sep :: (mid ++ [last]) ∧ (sep = ' ' ∨ sep = '\t') ∧ '\n' ∉ mid ∧ last ≠ '\n' ∧ 32 < last.toNat

/-- A line of libsvm text with this label and these features. -/
def SvmLine (line : List Char) (r : Int × List Char) : Prop :=
  ∃ a s b, line = a ++ s ++ r.2 ++ b ∧ Spaces a ∧ Spaces b ∧ NumberText s r.1 ∧ FeatureText r.2

/-- Libsvm text with these labels and features. -/
def SvmText (text : List Char) (rows : List (Int × List Char)) : Prop :=
  ∃ ls : List (List Char), text = (ls.map (· ++ ['\n'])).flatten ∧ List.Forall₂ SvmLine ls rows

/-- The text that `vw` is given: the label, a bar, and the features. -/
def vwText (rows : List (Int × List Char)) : List Char := (rows.map fun r => intText r.1 ++ " |".toList ++ r.2 ++ ['\n']).flatten

/-- Classes count from 1 if there are not two of them. -/
def fromOne (classNum : Nat) (rows : List (Int × List Char)) : List (Int × List Char) :=
  if classNum = 2 then rows else rows.map fun r => (r.1 + 1, r.2)

/-- The prediction in a line: its sign if there are two classes, and the class itself if not. -/
def PredictionLine (positive : List Char → Option Bool) (classNum : Nat) (p : List Char) (v : Int) : Prop :=
  p ≠ [] ∧ (∀ c ∈ p, 32 < c.toNat) ∧ if classNum = 2 then ∃ b, positive p = some b ∧ v = (if b then 1 else -1) else NumberText p v

/-- The predictions in a text. -/
def Predictions (positive : List Char → Option Bool) (classNum : Nat) (text : List Char) (vs : List Int) : Prop :=
  ∃ ps : List (List Char), text = (ps.map (· ++ ['\n'])).flatten ∧ List.Forall₂ (PredictionLine positive classNum) ps vs

/-- The share of the points whose label is predicted; of two classes the label 0 is the negative one. -/
def share (classNum : Nat) (rows : List (Int × List Char)) (vs : List Int) : ℚ :=
  ((rows.zip vs).countP fun p => p.2 = if classNum = 2 ∧ p.1.1 = 0 then -1 else p.1.1 : Nat) / (rows.length : ℚ)

end Sol.Spec
