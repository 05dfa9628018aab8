import Verif.Base.F64
/-! Numbers with few digits. -/

namespace Sol.Spec

/-- The `double` nearest to a number below `2^32` with at most six digits behind the point. -/
def SixDecimals (v : ℚ) : Prop := ∃ k : Nat, k < 2 ^ 32 * 1000000 ∧ F64.round ((k : ℚ) / 1000000) = some v

end Sol.Spec
