import Verif.Spec.FloatText
/-!
# Powers of ten
-/

namespace Sol.Spec

/-- What is assumed of `powf(10.f, (float)k)`: a result that is exact up to 2^-40 (as of a computation in `double`), rounded to `float`. -/
def Powf (pw : Int → F32) : Prop := ∀ k, ∃ q : ℚ, |q - (10 : ℚ) ^ k| ≤ (10 : ℚ) ^ k / 2 ^ 40 ∧ pw k = F32.round q

end Sol.Spec
