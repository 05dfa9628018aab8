import Verif.Base.F64
/-!
# Model of `OnlineLinearModel::model_sparsity` (src/sol/model/online_linear_model.cc:140-150), after `EndTrain`

Simplification: the number of weights that are not zero is below 2^53, so its conversion to `double` is exact.
-/

namespace Sol.Sparsity

/-- The loops at online_linear_model.cc:142-148: weights that are not zero, without the biases. -/
def nonZero (w : List (List F32)) : Nat := (w.map fun v => ((v.drop 1).filter fun a => !(a =? 0)).length).sum

/-- `this->clf_num_ * (this->dim_ - 1)`, an `int` times a `uint32_t` (online_linear_model.cc:149). -/
def weightNum (clf dim : Nat) : Nat := clf * (dim - 1) % 4294967296

/-- `float(n / double(d))`. -/
def share (n d : Nat) : F32 :=
  if d = 0 then (if n = 0 then .nan else .pinf)
  else match F64.round ((n : Rat) / d) with
    | some r => F32.round r
    | none => .pinf

/-- The returned number (online_linear_model.cc:149). -/
def modelSparsity (w : List (List F32)) (clf dim : Nat) : F32 := 1 - share (nonZero w) (weightNum clf dim)

end Sol.Sparsity
