import Verif.Model.Save
/-!
# Specification: which parameters are stored in the same place
-/

namespace Sol.Spec
open Sol.Params

/-- The parameter that a name stands for: where the weight of the regularizer is a number of features, `B` is `lambda`; `t` sets the time
    `t0` of the regularizer also; there is one display. -/
def slotOf (c : Cls) (name : String) : String :=
  if name = "B" ∧ c ∈ [Cls.pet, .sofs, .adaFobosOfs, .adaRdaOfs] then "lambda"
  else if name = "t0" then "t"
  else if name = "step_show" then "exp_show"
  else name

end Sol.Spec
