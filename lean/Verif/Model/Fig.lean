import Mathlib.Data.Rat.Defs
/-!
# Model of what `plot` draws (experiments/fig.py:34-78)

Simplifications: coordinates are exact numbers; the drawing itself, axes, legend and the file are those of another package.
-/

namespace Sol.Fig

/-- fig.py:34-35; the triples are the parts of red, green and blue. -/
def colourList : List String := ["r", "m", "k", "b", "(0.12, 0.56, 1)", "(0.58, 0.66, 0.2)", "(0.48, 0.41, 0.93)", "(0, 0.75, 0.75)"]

/-- fig.py:36 -/
def markerList : List String := ["s", "h", "*", "o", "d", "^", "v", "<", ">"]

/-- How a line is drawn. -/
structure Style where
  colour : String
  marker : String
  zorder : Int
deriving DecidableEq

/-- One round of the loop (fig.py:62-65): the points of line `i` with `x` in the limits; `none`: an exception of the index. -/
def pick (lo hi : ℚ) (xs ys : List ℚ) (acc : List ℚ × List ℚ) (k : Nat) : Option (List ℚ × List ℚ) :=
  (xs[k]?).bind fun x => if x ≥ lo ∧ x ≤ hi then (ys[k]?).map fun y => (acc.1 ++ [x], acc.2 ++ [y]) else some acc

/-- The points of a line (fig.py:59-68). -/
def points (xlim : Option (ℚ × ℚ)) (xs ys : List ℚ) : Option (List ℚ × List ℚ) :=
  match xlim with
  | some (lo, hi) => (List.range xs.length).foldlM (pick lo hi xs ys) ([], [])
  | none => some (xs, ys)

/-- The counters and the style of a line (fig.py:53-58): `c` and `m` are `c_ind` and `m_ind`. -/
def styleOf (i c m : Nat) : Option Style :=
  (colourList[c % colourList.length]?).bind fun col => (markerList[m % markerList.length]?).map fun mark => ⟨col, mark, 200 - i⟩

/-- The loop over the lines (fig.py:53-78) for the lines `i`, `i + 1`, ... of the data. -/
def draw (xlim : Option (ℚ × ℚ)) : Nat → Nat → Nat → List (List ℚ × List ℚ) → Option (List (Style × List ℚ × List ℚ))
  | _, _, _, [] => some []
  | i, c, m, (xs, ys) :: l =>
    (styleOf i c m).bind fun s => (points xlim xs ys).bind fun p => (draw xlim (i + 1) (c + 1) (m + 1) l).map fun r => (s, p) :: r

/-- `plot`: both counters start at 0 (fig.py:39-40). -/
def plot (xlim : Option (ℚ × ℚ)) (data : List (List ℚ × List ℚ)) : Option (List (Style × List ℚ × List ℚ)) := draw xlim 0 0 0 data

end Sol.Fig
