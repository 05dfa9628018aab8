import Verif.Model.Olm
/-! Vocabulary for the theorems about training. -/

namespace Sol.Spec

open Sol.Online Sol.Sparse Sol.Loss

variable {α A : Type} [Zero α] [One α] [Add α] [Sub α] [Mul α] [Div α] [Neg α] [FCmp α] [IntCast α] [FFun α]

/-- A feature vector as the readers deliver it: ascending indexes, and the index 2^32-1 (whose successor is 0) is absent. -/
def Good (x : SVec α) : Prop := Ascending x ∧ ∀ p ∈ x, p.1 < 4294967295

/-- Binary losses go with one classifier, multi-class losses with several (checked by `Model::SetParameter`). -/
def Matches (k : Kind) (clf : Nat) : Prop :=
  match k with
  | .bool | .hinge | .logistic | .square => clf = 1
  | _ => 2 ≤ clf

/-- Labels of a multi-class model are class numbers. -/
def LabelOk (clf : Nat) (label : Int) : Prop := clf = 1 ∨ (0 ≤ label ∧ label < clf)

/-- `n` vectors of dimension `d`. -/
def Vecs {β : Type} (n d : Nat) (l : List (List β)) : Prop := l.length = n ∧ ∀ v ∈ l, v.length = d

/-- All vectors of the model have the dimension of the model; `inv` says it of the vectors of the subclass. -/
structure Fit (c : Cfg α) (inv : Nat → A → Prop) (s : St α A) : Prop where
  dim : 1 ≤ s.dim
  w : Vecs c.clf s.dim s.w
  g : s.g.length = c.clf
  alg : inv s.dim s.alg

/-- What an observer sees of one training example. -/
structure Event where
  /-- the predicted label -/
  pred : Int
  /-- the example was passed over by active learning -/
  skip : Bool
  /-- the model was asked to learn from it -/
  fired : Bool

/-- The example `e` with random number `r` leads from `s` to `s'`, with observation `ev`. -/
def Happens (G : Alg α A) (c : Cfg α) (s : St α A) (e : Ex α) (r : α) (ev : Event) (s' : St α A) : Prop :=
  ∃ s0 s1 p, G.beginIter (enter G s e.x) e.x = .ok s0 ∧ G.prep c s0 e.x = .ok s1 ∧
    predict c s1 e.x = .ok (p, ev.pred) ∧ skipped c p ev.pred r = .ok ev.skip ∧
    (ev.fired = true ↔ ev.skip = false ∧ ∃ l g m v,
      gradient c.kind (costMargin c e.label s1.margin) (G.handler c s1 e.x) s1.vi e.label p ev.pred s1.g
        = .ok (l, g, m, v) ∧ if c.lazyUpdate then ev.pred ≠ e.label else (0 <? l) = true) ∧
    trainOne G c s e r = .ok s'

/-- A whole training run. -/
inductive Trace (G : Alg α A) (c : Cfg α) : St α A → List (Ex α × α) → List Event → St α A → Prop where
  | nil (s) : Trace G c s [] [] s
  | cons {s s1 s2 e r ev l evs} : Happens G c s e r ev s1 → Trace G c s1 l evs s2 →
      Trace G c s ((e, r) :: l) (ev :: evs) s2

/-- Number of examples predicted wrongly. -/
def wrong : List (Ex α × α) → List Event → Nat
  | (e, _) :: l, ev :: evs => (if ev.pred = e.label then 0 else 1) + wrong l evs
  | _, _ => 0

/-- The examples of a stream are usable by the model. -/
def Usable (c : Cfg α) (l : List (Ex α × α)) : Prop := ∀ p ∈ l, Good p.1.x ∧ LabelOk c.clf p.1.label

end Sol.Spec

namespace Sol.Olm

open Sol.Spec

variable {α : Type}

/-- The invariant of algorithms without vectors of their own. -/
def none' (A : Type) : Nat → A → Prop := fun _ _ => True

/-- The invariant of algorithms with one own vector per classifier. -/
def vecs (n : Nat) : Nat → List (List α) → Prop := fun d l => Vecs n d l

/-- The invariant of STG: one time stamp per dimension. -/
def stamps : Nat → List Int → Prop := fun d l => l.length = d

/-- The invariant of SOP. -/
def sopInv (n : Nat) : Nat → SopSt α → Prop := fun d s => s.X.length = d ∧ Vecs n d s.v

/-- The invariant of AdaRDA. -/
def adaRdaInv (n : Nat) : Nat → AdaRdaSt α → Prop := fun d s => Vecs n d s.H ∧ Vecs n d s.ut

/-- The invariant of AdaFOBOS_L1. -/
def adaL1Inv (n : Nat) : Nat → AdaL1 α → Prop := fun d s => Vecs n d s.H ∧ s.last.length = d

end Sol.Olm

namespace Sol.Spec

open Sol.Olm Sol.Online Sol.Loss Sol.Sparse

variable {α : Type} [Zero α] [One α] [Add α] [Sub α] [Mul α] [Div α] [Neg α] [FCmp α] [IntCast α] [FFun α] [FSqrt α]

/-- The algorithms without feature selection, with any parameters, and the shape of their own vectors. -/
inductive Known (c : Cfg α) : {A : Type} → Alg α A → (Nat → A → Prop) → Prop where
  | perceptron : Known c perceptron (none' Unit)
  | ogd (eta0 pow) : Known c (ogd eta0 pow) (none' Unit)
  | pa (coeff) : Known c (pa coeff) (none' Unit)
  | pa1 (C coeff) : Known c (pa1 C coeff) (none' Unit)
  | pa2 (C coeff) : Known c (pa2 C coeff) (none' Unit)
  | alma2 (C alpha sqp1) : Known c (alma2 C alpha sqp1) (none' Int)
  | arow (r) : Known c (arow r) (vecs c.clf)
  | cw (a phi bias) : Known c (cw a phi bias) (vecs c.clf)
  | eccw (a phi bias) : Known c (eccw a phi bias) (vecs c.clf)
  | stg (eta0 pow k lambda thresh t0) : Known c (stg eta0 pow k lambda thresh t0) stamps
  | fobosL1 (eta0 pow lambda thresh t0) : Known c (fobosL1 eta0 pow lambda thresh t0) stamps
  | rda (sigma eps) : Known c (rda sigma eps) (vecs c.clf)
  | rdaL1 (sigma eps lambda thresh) : Known c (rdaL1 sigma eps lambda thresh) (vecs c.clf)
  | erdaL1 (sigma eps lambda rou thresh) : Known c (erdaL1 sigma eps lambda rou thresh) (vecs c.clf)
  | sop (a) : Known c (sop a) (sopInv c.clf)
  | adaFobos (delta) : Known c (adaFobos delta) (vecs c.clf)
  | adaFobosL1 (delta lambda thresh t0) : Known c (adaFobosL1 delta lambda thresh t0) (adaL1Inv c.clf)
  | adaRda (delta) : Known c (adaRda delta) (adaRdaInv c.clf)
  | adaRdaL1 (delta lambda thresh) : Known c (adaRdaL1 delta lambda thresh) (adaRdaInv c.clf)

/-- The algorithms that change their weights in `Update` only. -/
inductive Margin : {A : Type} → Alg α A → Prop where
  | perceptron : Margin perceptron
  | ogd (eta0 pow) : Margin (ogd eta0 pow)
  | pa (coeff) : Margin (pa coeff)
  | pa1 (C coeff) : Margin (pa1 C coeff)
  | pa2 (C coeff) : Margin (pa2 C coeff)
  | alma2 (C alpha sqp1) : Margin (alma2 C alpha sqp1)
  | arow (r) : Margin (arow r)
  | cw (a phi bias) : Margin (cw a phi bias)
  | eccw (a phi bias) : Margin (eccw a phi bias)
  | adaFobos (delta) : Margin (adaFobos delta)
  | adaRda (delta) : Margin (adaRda delta)

/-- The same numbers followed by zeros. -/
def Extended (w w' : List α) : Prop := ∃ n, w' = w ++ List.replicate n 0

end Sol.Spec
