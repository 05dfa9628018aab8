import Verif.Base.F32
import Verif.Model.Tools
import Verif.Spec.FloatText
/-!
# Specification of data files: what a file is expected to keep of a data set
-/

namespace Sol.Spec
open Sol.Tools (Pt)

/-- A `float` that exists: an infinity, the NaN, or a number of the format. -/
def IsFloat : F32 → Prop
  | .fin q => Single q
  | _ => True

/-- A number that text can carry: zero, or a magnitude from 1e-27 to 3.4e38. -/
def TextValue (v : F32) : Prop := ∃ q, v = .fin q ∧ Single q ∧ (q = 0 ∨ 1 / 10 ^ 27 ≤ |q|) ∧ |q| ≤ 34 * 10 ^ 37

/-- Outside 0.0001 … 0.01, where text has no more than seven decimals. -/
def Plainly (v : F32) : Prop := ∃ q, v = .fin q ∧ (|q| < 1 / 10 ^ 4 ∨ 1 / 100 ≤ |q|)

/-- The value `w` is what text keeps of the value `v`: whole numbers of at most six digits exactly, others nearly. -/
def NearValue (v w : F32) : Prop :=
  ∃ q r, v = .fin q ∧ w = .fin r ∧ (q = 0 ↔ r = 0) ∧ (∀ n : ℤ, |n| < 10 ^ 6 → q = n → r = q) ∧
    |r - q| ≤ |q| * (6 / 10 ^ 6) + (if |q| < 1 / 10 ^ 4 ∨ 1 / 100 ≤ |q| then 0 else 1 / 10 ^ 7)

/-- Same label, same indexes in the same order, and values that are near. -/
def NearPoint (p q : Pt F32) : Prop :=
  q.label = p.label ∧ List.Forall₂ (fun f g => g.1 = f.1 ∧ NearValue f.2 g.2) p.feats q.feats

/-- What a binary file can hold. -/
structure BinaryPoint (p : Pt F32) : Prop where
  label : -2147483648 ≤ p.label ∧ p.label < 2147483648
  values : ∀ f ∈ p.feats, IsFloat f.2
  count : 5 * p.feats.length < 2 ^ 64

/-- What a line of a libsvm file can hold. -/
structure SvmPoint (p : Pt F32) : Prop where
  label : p.label.natAbs ≤ 2147483599
  values : ∀ f ∈ p.feats, f.1.toNat < 2 ^ 31 ∧ TextValue f.2
  ascending : (p.feats.map (·.1)).Pairwise (· < ·)
  count : p.feats.length ≤ 2 ^ 24

/-- What a line of a csv file with the columns 1 to `dim - 1` can hold. -/
structure CsvPoint (dim : Nat) (p : Pt F32) : Prop where
  label : p.label.natAbs ≤ 2147483599
  values : ∀ f ∈ p.feats, 1 ≤ f.1.toNat ∧ f.1.toNat < dim ∧ TextValue f.2 ∧ f.2 ≠ .fin 0
  ascending : (p.feats.map (·.1)).Pairwise (· < ·)

end Sol.Spec
