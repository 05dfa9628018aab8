import Verif.Model.Save
/-!
# What accepted parameters mean
-/

namespace Sol.Spec
open Sol.Params

/-- The setting that a parameter name stands for: the feature selection classes call the weight of their regularizer "B". -/
def settingOf (c : Cls) (name : String) : String :=
  if c ∈ [Cls.pet, .sofs, .adaFobosOfs, .adaRdaOfs] ∧ name = "B" then "lambda" else name

/-- Parameters with a real number. -/
def realSettings : List String :=
  ["bias_eta", "cost_margin", "lambda", "power_t", "eta", "C", "alpha", "r", "a", "phi", "sigma", "rou", "delta"]

/-- The normalisation that a text stands for. -/
def normOf : List (List Char × PreProcess.Norm) :=
  [("None".toList, .none), ("0".toList, .none), ("L1".toList, .l1), ("1".toList, .l1), ("L2".toList, .l2), ("2".toList, .l2)]

end Sol.Spec
