import Verif.Spec.Cli
import Verif.Spec.DataTools
import Verif.Spec.Decimal
import Verif.Spec.PreProcess
import Verif.Spec.Tools
/-!
# Specification of the data tools as programs: orders on the command line, and the report of `analyze`
-/

namespace Sol.Spec
open Sol.Cmdline
open Sol.Tools (Pt)

/-- The arguments give the options `g` of a table: all that are needed, and not `help`. -/
structure Orders (os : List Opt) (args : List (List Char)) (g : List (Opt × Option Val)) : Prop where
  told : ∃ ws, Says os args g ws
  needed : ∀ o ∈ os, o.need = true → Given g o
  run : ¬ Present g "help"

/-- Text options and their values. -/
def Texts (os : List Opt) (g : List (Opt × Option Val)) (l : List (String × List Char)) : Prop :=
  ∀ x ∈ l, Value os g x.1 (.str x.2)

/-- A threshold is given, or none. -/
def Threshold (os : List Opt) (g : List (Opt × Option Val)) : Option F32 → Prop
  | none => ¬ Present g "binary_thresh"
  | some t => Present g "binary_thresh" ∧ Value os g "binary_thresh" (.real t)

/-- A number of a report with two decimals, right to a little more than half of the last one. -/
def Percent (q : ℚ) (t : List Char) : Prop :=
  ∃ k : Nat, |(k : ℚ) / 100 - q| ≤ 51 / 10 ^ 4 ∧
    t = decText (k / 100) ++ ['.', Nat.digitChar (k / 10 % 10), Nat.digitChar (k % 10)]

/-- The indexes of all features. -/
def indexesOf (pts : List (Pt F32)) : List Nat := pts.flatMap fun p => p.feats.map (·.1.toNat)

/-- The lines of a report on a data set with the largest index `m`. -/
def reportLines (pts : List (Pt F32)) (m : Nat) (table : List (Int × Nat)) (sparsity : List Char) : List (List Char) :=
  ["data number  : ".toList ++ decText pts.length, "feat number  : ".toList ++ decText (indexesOf pts).length,
   "dimension    : ".toList ++ decText m, "nonzero feat : ".toList ++ decText (distinct (indexesOf pts)),
   "class num    : ".toList ++ decText table.length, "data sparsity: ".toList ++ sparsity ++ ['%']] ++
  table.map fun c => "data number of class ".toList ++ intText c.1 ++ " : ".toList ++ decText c.2

/-- The text is a report on the data set; `width`: the number of columns that the share of unused ones is taken of, from the
    largest index. -/
def Reports (width : Nat → Nat) (pts : List (Pt F32)) (text : List Char) : Prop :=
  ∃ m table s, m ∈ indexesOf pts ∧ (∀ i ∈ indexesOf pts, i ≤ m) ∧ Histogram (pts.map (·.label)) table ∧
    Percent (100 - 100 * distinct (indexesOf pts) / width m) s ∧ text = unlines (reportLines pts m table s)

end Sol.Spec
