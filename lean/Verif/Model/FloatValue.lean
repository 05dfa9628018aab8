import Verif.Base.F32
import Verif.Model.NumericParser
/-!
# The `float` that `ParseFloat` returns

`Verif.Model.NumericParser.parseFloat` gives the mantissa `s * acc` and the exponent `exp_acc`; here they become a `float`.
`powf` of the C library is a parameter.
-/

namespace Sol.FloatValue
open Sol.NumericParser

/-- The value returned by `ParseFloat` (numeric_parser.h:144-148): `float(s * acc)`, or `s * acc * powf(10.f, (float)(exp_acc))`, where
    `pw k` is `powf(10.f, (float)k)`.  The `int` is converted to `float` before it is multiplied. -/
def floatOf (pw : Int → F32) (d : Dec) : F32 := if d.exp = 0 then (d.mant : F32) else (d.mant : F32) * pw d.exp

/-- `ParseFloat` (numeric_parser.h:104-149) with its result as a `float`. -/
def parseValue (pw : Int → F32) (p : Ptr) : Res (F32 × Ptr) := do
  let (d, e) ← parseFloat p
  .ok (floatOf pw d, e)

end Sol.FloatValue
