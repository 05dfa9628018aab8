import Mathlib.Data.List.Defs
import Mathlib.Data.Finset.Card
import Mathlib.Data.Finset.Dedup
/-! What the data tools are about: blocks of a list, largest and distinct indexes, points per label. -/

namespace Sol.Spec

/-- The blocks of `size` elements of a list, `k` of them. -/
def blocks {P : Type} (pts : List P) (size k : Nat) : List (List P) :=
  (List.range k).map fun i => (pts.drop (i * size)).take size

/-- How many indexes occur. -/
def distinct (l : List Nat) : Nat := l.toFinset.card

/-- The table of a data set: the labels that occur, in increasing order, with their frequencies. -/
structure Histogram (labels : List Int) (table : List (Int × Nat)) : Prop where
  sorted : (table.map (·.1)).Pairwise (· < ·)
  exact : ∀ l n, (l, n) ∈ table ↔ n = labels.count l ∧ 1 ≤ n

end Sol.Spec
