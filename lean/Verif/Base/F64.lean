import Verif.Base.F32
/-!
# Rounding to IEEE binary64

To nearest, ties to even, with gradual underflow.  Used for the numbers of the JSON text.
-/

namespace Sol.F64
open Sol.F32 (pow2 divRound)

/-- Exponent of the last of the 53 bits of `a / b` (at least -1074). -/
def ulpExp (a b : Nat) : Int :=
  let e : Int := (a.log2 : Int) - (b.log2 : Int) - 52
  let e := if (a : Rat) < (b : Rat) * pow2 (e + 52) then e - 1 else e
  max e (-1074)

/-- Magnitude `a / b` rounded, in units of `2^ulpExp`. -/
def roundMag (a b : Nat) : Rat :=
  let e := ulpExp a b
  let n := if 0 ≤ e then divRound a (b * 2 ^ e.toNat) else divRound (a * 2 ^ (-e).toNat) b
  (n : Rat) * pow2 e

/-- The nearest `double`; `none` if the number is too large. -/
def round (q : Rat) : Option Rat :=
  if q = 0 then some 0
  else
    let m := roundMag q.num.natAbs q.den
    if pow2 1024 ≤ m then none else some (if 0 < q then m else -m)

/-! Known values. -/

/-- 0.1 = 3602879701896397 * 2^-55. -/
example : round (1 / 10) = some (3602879701896397 / 2 ^ 55) := by decide +kernel
example : round (2 ^ 53 + 1) = some (2 ^ 53) := by decide +kernel
example : round (-(2 ^ 53 + 3)) = some (-(2 ^ 53 + 4)) := by decide +kernel
example : round (1 / 2 ^ 1075) = some 0 := by decide +kernel
example : round (3 / 2 ^ 1075) = some (1 / 2 ^ 1073) := by decide +kernel
example : round (10 ^ 309) = none := by decide +kernel

end Sol.F64
