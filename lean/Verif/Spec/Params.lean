import Verif.Model.Params
/-!
# Where parameters are stored

`forget name m` is the model without the variable that the parameter `name` is stored in, for the parameters that the code stores
before it checks them.  Two models that agree after `forget name` agree in everything else.
-/

namespace Sol.Spec
open Sol.Params

/-- Parameters of every class that are changed before they are checked. -/
def delicateAll : List String :=
  ["bias_eta", "active_smoothness", "cost_margin", "loss", "filter", "exp_show", "step_show"]

/-- Parameters of one class that are changed before they are checked. -/
def delicateOwn : Cls → List String
  | .ogd => ["eta"]
  | .fobosL1 => ["eta"]
  | .pet => ["eta"]
  | .stg => ["eta", "k"]
  | .alma2 => ["alpha", "k", "norm"]
  | .rda => ["sigma"]
  | .rdaL1 => ["sigma"]
  | .erdaL1 => ["sigma", "rou"]
  | .adaFobos => ["delta", "eta"]
  | .adaFobosL1 => ["delta", "eta"]
  | .adaFobosOfs => ["delta", "eta"]
  | .adaRda => ["delta", "eta"]
  | .adaRdaL1 => ["delta", "eta"]
  | .adaRdaOfs => ["delta", "eta"]
  | .fofs => ["eta", "lambda", "B"]
  | _ => []

/-- The parameter is changed before it is checked. -/
def Delicate (c : Cls) (name : String) : Prop := name ∈ delicateAll ∨ name ∈ delicateOwn c

instance (c : Cls) (name : String) : Decidable (Delicate c name) := inferInstanceAs (Decidable (_ ∨ _))

/-- The model without the variable of a parameter that is changed before it is checked. -/
def forget (name : String) (m : M) : M :=
  if ¬ Delicate m.cls name then m
  else if name = "bias_eta" then { m with biasEta := 0 }
  else if name = "active_smoothness" then { m with smooth := 0 }
  else if name = "cost_margin" then { m with cost := 0 }
  else if name = "loss" then { m with loss := none, hinge := false, reinit := false }
  else if name = "filter" then { m with sel := .none }
  else if name = "exp_show" then { m with disp := none }
  else if name = "step_show" then { m with disp := none }
  else if name = "norm" then { m with norm := .none }
  else if name = "eta" then { m with eta := 0 }
  else if name = "k" then { m with k := 0 }
  else if name = "alpha" then { m with alpha := 0 }
  else if name = "sigma" then { m with sigma := 0 }
  else if name = "rou" then { m with rou := 0 }
  else if name = "delta" then { m with delta := 0 }
  else if name = "lambda" then { m with fofsLambda := 0 }
  else if name = "B" then { m with fofsB := 0 }
  else m

end Sol.Spec
