import Verif.Spec.Online
import Verif.Model.Select
/-! # Specification: sessions of training and evaluation -/

namespace Sol.Spec

open Sol.Online Sol.Olm Sol.Select Sol.Loss Sol.Sparse

/-- A call of `Train` (examples with the random numbers of active learning) or of `Test`. -/
inductive Act (α : Type) where
  | learn (l : List (Ex α × α))
  | eval (l : List (Ex α))

variable {α A : Type} [Zero α] [One α] [Add α] [Sub α] [Mul α] [Div α] [Neg α] [FCmp α] [IntCast α] [FFun α] [FSqrt α]

/-- The calls one after the other: the model in the end and what the calls of `Train` returned. -/
def course (G : Alg α A) (c : Cfg α) : St α A → List (Act α) → Res (St α A × List α)
  | s, [] => .ok (s, [])
  | s, .learn l :: acts => do
    let (s, r) ← train G c s l
    let (s, rs) ← course G c s acts
    .ok (s, r :: rs)
  | s, .eval e :: acts => do
    let (s, _) ← test G c s e
    course G c s acts

/-- The calls of `Train` only. -/
def studies : List (Act α) → List (Act α)
  | [] => []
  | .learn l :: acts => .learn l :: studies acts
  | .eval _ :: acts => studies acts

/-- All examples of the session are usable. -/
def Sound (c : Cfg α) (acts : List (Act α)) : Prop :=
  ∀ a ∈ acts, match a with
    | .learn l => Usable c l
    | .eval l => ∀ e ∈ l, Good e.x

/-- The algorithms whose `EndTrain` does nothing but note that training has ended. -/
inductive Idle : {A : Type} → Alg α A → Prop where
  | perceptron : Idle perceptron
  | ogd (eta0 pow) : Idle (ogd eta0 pow)
  | pa (coeff) : Idle (pa coeff)
  | pa1 (C coeff) : Idle (pa1 C coeff)
  | pa2 (C coeff) : Idle (pa2 C coeff)
  | alma2 (C alpha sqp1) : Idle (alma2 C alpha sqp1)
  | arow (r) : Idle (arow r)
  | cw (a phi bias) : Idle (cw a phi bias)
  | eccw (a phi bias) : Idle (eccw a phi bias)
  | adaFobos (delta) : Idle (adaFobos delta)
  | pet (eta0 pow B) : Idle (pet eta0 pow B)
  | fofs (normCoeff momentum B) : Idle (fofs normCoeff momentum B)
  | sofs (r B clf) : Idle (sofs r B clf)
  | adaFobosOfs (delta B clf) : Idle (adaFobosOfs delta B clf)

/-- The algorithms that compute their weights from sums of gradients before every prediction, and the shape of their vectors. -/
inductive Averaging (c : Cfg α) : {A : Type} → Alg α A → (Nat → A → Prop) → Prop where
  | rda (sigma eps) : Averaging c (rda sigma eps) (vecs c.clf)
  | rdaL1 (sigma eps lambda thresh) : Averaging c (rdaL1 sigma eps lambda thresh) (vecs c.clf)
  | erdaL1 (sigma eps lambda rou thresh) : Averaging c (erdaL1 sigma eps lambda rou thresh) (vecs c.clf)
  | adaRdaL1 (delta lambda thresh) : Averaging c (adaRdaL1 delta lambda thresh) (adaRdaInv c.clf)

end Sol.Spec
