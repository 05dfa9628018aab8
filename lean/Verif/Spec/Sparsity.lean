import Verif.Base.F32
/-! The sparsity of a model. -/

namespace Sol.Spec

/-- The weights of a model without the biases. -/
def allWeights (w : List (List F32)) : List F32 := (w.map List.tail).flatten

/-- The share of the weights that are 0. -/
def zeroShare (w : List (List F32)) : ℚ := (allWeights w).count (0 : F32) / (allWeights w).length

end Sol.Spec
