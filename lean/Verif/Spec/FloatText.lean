import Mathlib.Algebra.Order.Floor.Ring
import Mathlib.Data.Rat.Floor
import Verif.Base.F32
/-!
# Numbers printed with six digits
-/

namespace Sol.Spec

/-- The finite values of binary32. -/
def Single (q : ℚ) : Prop := ∃ n e : ℤ, |n| < 2 ^ 24 ∧ -149 ≤ e ∧ e ≤ 104 ∧ q = n * (2 : ℚ) ^ e

/-- `d` has six significant decimal digits (counted in `q`) and is as near to `q` as such a number can be. -/
def SixDigits (q d : ℚ) : Prop :=
  (q = 0 ∧ d = 0) ∨ ∃ (x N : ℤ), (10 : ℚ) ^ x ≤ |q| ∧ |q| < (10 : ℚ) ^ (x + 1) ∧ d = N * (10 : ℚ) ^ (x - 5) ∧
    |d - q| ≤ (10 : ℚ) ^ (x - 5) / 2

/-- `y` is `x` after it was printed with six digits and read back. -/
def Printed (x y : F32) : Prop := ∃ q d, x = .fin q ∧ SixDigits q d ∧ y = F32.round d

/-- The number has at most six significant decimal digits. -/
def ShortNumber (q : ℚ) : Prop := q = 0 ∨ ∃ (x N : ℤ), (10 : ℚ) ^ x ≤ |q| ∧ |q| < (10 : ℚ) ^ (x + 1) ∧ q = N * (10 : ℚ) ^ (x - 5)

end Sol.Spec
