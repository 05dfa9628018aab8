import Verif.Model.Loss
import Verif.Model.Sparse
/-!
# Model of src/sol/model/online_model.cc and online_linear_model.cc

The training loop of all linear models.  What the subclasses override is a record of functions (`Alg`).
Examples are as after `PreProcess` (Model/PreProcess).  The random numbers of active learning are an input of every
iteration.  Simplifications: `cur_iter_num_` and the counters do not overflow; progress output is left out (it does not
write to the model).
-/

namespace Sol.Online

open Sol.Loss Sol.Sparse

/-- Settings (online_model.h:89-113, model.h:170-191). -/
structure Cfg (α : Type) where
  /-- `clf_num_` -/
  clf : Nat
  /-- `loss_` -/
  kind : Kind
  /-- `bias_eta0_` -/
  biasEta0 : α
  /-- `lazy_update_` -/
  lazyUpdate : Bool
  /-- `active_smoothness_`, 0 when active learning is off -/
  smooth : α
  /-- `cost_margin_` when `cost_sensitive_learning_` is set -/
  cost : Option α

/-- The state of a linear model; `A` is what the subclass adds. -/
structure St (α A : Type) where
  /-- `dim_` -/
  dim : Nat
  /-- `weights_`, one vector per classifier -/
  w : List (List α)
  /-- `gradients_` -/
  g : List α
  /-- `eta_` -/
  eta : α
  /-- `margin_` of the hinge loss -/
  margin : α
  /-- `Vi_` (cw.h), written by the margin handler -/
  vi : α
  /-- `cur_iter_num_` -/
  t : Int
  /-- `cur_data_num_` -/
  data : Nat
  /-- `update_num_` -/
  upd : Nat
  /-- `cur_err_num_` -/
  err : Nat
  /-- `model_updated_` -/
  fresh : Bool
  alg : A

/-- What a subclass overrides. -/
structure Alg (α A : Type) where
  /-- own vectors in `update_dim`: old dimension, new dimension -/
  grow : Nat → Nat → A → A
  /-- `OnlineRegularizer::BeginIterate` -/
  beginIter : St α A → SVec α → Res (St α A)
  /-- `TrainPredict` before it calls the base class -/
  prep : Cfg α → St α A → SVec α → Res (St α A)
  /-- the margin handler of the loss -/
  handler : Cfg α → St α A → SVec α → Option (List α → Res (α × α))
  /-- `Update` -/
  update : Cfg α → St α A → SVec α → α → Res (St α A)
  /-- `OnlineRegularizer::EndIterate` -/
  endIter : St α A → SVec α → Res (St α A)
  /-- `EndTrain` -/
  endTrain : Cfg α → St α A → Res (St α A)

/-- A labelled example. -/
structure Ex (α : Type) where
  label : Int
  x : SVec α

/-- `v.resize(n); v.slice_op(val = a, d)`: what lies behind the first `d` elements becomes `a`. -/
def growTo {β : Type} (d n : Nat) (a : β) (v : List β) : List β := v.take d ++ List.replicate (n - d) a

section
variable {α A : Type} [Zero α] [One α] [Add α] [Sub α] [Mul α] [Div α] [Neg α] [FCmp α] [IntCast α] [FFun α]

/-- `update_dim` (online_linear_model.cc:129-138 and the overrides). -/
def updateDim (G : Alg α A) (s : St α A) (n : Nat) : St α A :=
  if s.dim < n then { s with dim := n, w := s.w.map (growTo s.dim n 0), alg := G.grow s.dim n s.alg } else s

/-- One score: `dotmul(w(c), x) + w(c)[0]` (online_linear_model.cc:107). -/
def score (w : List α) (x : SVec α) : Res α := do
  let v ← dotmul w x
  let b ← lget w 0
  .ok (v + b)

/-- The loop at online_linear_model.cc:106-108 (and :119-121). -/
def scores : List (List α) → SVec α → Res (List α)
  | [], _ => .ok []
  | w :: l, x => do
    let a ← score w x
    let r ← scores l x
    .ok (a :: r)

/-- online_linear_model.cc:109-113. -/
def labelOf (clf : Nat) (predicts : List α) : Res Int :=
  if clf = 1 then do
    let p ← lget predicts 0
    .ok (sign p)
  else .ok (maxElement predicts)

/-- `Predict` (online_linear_model.cc:116-127): scores and label. -/
def predict (c : Cfg α) (s : St α A) (x : SVec α) : Res (List α × Int) := do
  let p ← scores s.w x
  let l ← labelOf c.clf p
  .ok (p, l)

/-- `std::abs`. -/
def fabs (a : α) : α := if a <? 0 then -a else a

/-- The margin of active learning (online_linear_model.cc:61-69). -/
def activeMargin (c : Cfg α) (predicts : List α) (label : Int) : Res α :=
  if c.clf = 1 then do
    let p ← lget predicts 0
    .ok (fabs p)
  else do
    let tmp ← get predicts label
    let p ← set predicts label FFun.lowest
    let m ← get p (maxElement p)
    .ok (tmp - m)

/-- Active learning: is the example skipped (online_linear_model.cc:57-75)?  `rnd` is the random number. -/
def skipped (c : Cfg α) (predicts : List α) (label : Int) (rnd : α) : Res Bool :=
  if (0 : α) <? c.smooth then do
    let m ← activeMargin c predicts label
    .ok (c.smooth / (c.smooth + m) <? rnd)
  else .ok false

/-- Cost-sensitive learning (online_linear_model.cc:77-84). -/
def costMargin (c : Cfg α) (label : Int) (margin : α) : α :=
  match c.cost with
  | some m => if label = 1 then m else 1
  | none => margin

/-- Whether the rule asks for an update (online_linear_model.cc:87-95). -/
def fires (c : Cfg α) (pred label : Int) (loss : α) : Bool :=
  if c.lazyUpdate then decide (pred ≠ label) else (0 : α) <? loss

/-- The update (online_linear_model.cc:87-95). -/
def maybeUpdate (G : Alg α A) (c : Cfg α) (s : St α A) (e : Ex α) (pred : Int) (loss : α) : Res (St α A) :=
  if fires c pred e.label loss then G.update c { s with upd := s.upd + 1 } e.x loss else .ok s

/-- The part of `Iterate` after active learning (online_linear_model.cc:76-101). -/
def learn (G : Alg α A) (c : Cfg α) (s : St α A) (e : Ex α) (predicts : List α) (pred : Int) : Res (St α A) := do
  let (l, g, m, v) ← gradient c.kind (costMargin c e.label s.margin) (G.handler c s e.x) s.vi e.label predicts pred s.g
  let s ← maybeUpdate G c { s with g := g, margin := m, vi := v } e pred l
  G.endIter s e.x

/-- `OnlineModel::Iterate` (online_model.cc:194-199). -/
def enter (G : Alg α A) (s : St α A) (x : SVec α) : St α A :=
  let s := updateDim G s (Sparse.dim x)
  { s with t := s.t + 1, data := s.data + 1 }

/-- `OnlineLinearModel::Iterate` (online_linear_model.cc:49-101): new state and predicted label. -/
def iterate (G : Alg α A) (c : Cfg α) (s : St α A) (e : Ex α) (rnd : α) : Res (St α A × Int) := do
  let s ← G.beginIter (enter G s e.x) e.x
  let s ← G.prep c s e.x
  let (p, pred) ← predict c s e.x
  let sk ← skipped c p pred rnd
  if sk then .ok ({ s with t := s.t - 1 }, pred)
  else do
    let s ← learn G c s e p pred
    .ok (s, pred)

/-- One round of the loop of `Train` (online_model.cc:162-165). -/
def trainOne (G : Alg α A) (c : Cfg α) (s : St α A) (e : Ex α) (rnd : α) : Res (St α A) := do
  let (s, pred) ← iterate G c s e rnd
  .ok (if pred ≠ e.label then { s with err := s.err + 1 } else s)

/-- The loop of `Train` over all examples (online_model.cc:157-178). -/
def trainLoop (G : Alg α A) (c : Cfg α) : St α A → List (Ex α × α) → Res (St α A)
  | s, [] => .ok s
  | s, (e, r) :: l => do
    let s ← trainOne G c s e r
    trainLoop G c s l

/-- `Train` without `BeginTrain` (online_model.cc:144-192): final state and returned error rate. -/
def train (G : Alg α A) (c : Cfg α) (s : St α A) (l : List (Ex α × α)) : Res (St α A × α) := do
  let s ← trainLoop G c s l
  .ok ({ s with fresh := true }, (((s.err : Int) : α)) / (((s.data : Int) : α)))

/-- The loop of `Test` (model.cc:129-148): number of errors. -/
def testLoop (c : Cfg α) (s : St α A) : List (Ex α) → Nat → Res Nat
  | [], n => .ok n
  | e :: l, n => do
    let (_, pred) ← predict c s e.x
    testLoop c s l (if pred ≠ e.label then n + 1 else n)

/-- `Test` (model.cc:117-151): the model afterwards and the error rate. -/
def test (G : Alg α A) (c : Cfg α) (s : St α A) (l : List (Ex α)) : Res (St α A × α) := do
  let s ← (if s.fresh then G.endTrain c s else .ok s : Res (St α A))
  let n ← testLoop c s l 0
  .ok (s, ((n : Int) : α) / ((l.length : Int) : α))

end

/-- `EndTrain` of `Model`: the model is marked as finished (model.h:69). -/
def finish {α A : Type} (_ : Cfg α) (s : St α A) : Res (St α A) := .ok { s with fresh := false }

/-- A subclass that overrides nothing but `Update`, without own state. -/
def plain {α : Type} (upd : Cfg α → St α Unit → SVec α → α → Res (St α Unit)) : Alg α Unit where
  grow _ _ a := a
  beginIter s _ := .ok s
  prep _ s _ := .ok s
  handler _ _ _ := none
  update := upd
  endIter s _ := .ok s
  endTrain := finish

/-- Loop over the classifiers with non-zero gradient, one vector per classifier. -/
def each1 {α : Type} [Zero α] [FCmp α] {β : Type} (f : α → β → Res β) : List α → List β → Res (List β)
  | g :: gl, v :: l => do
    let r ← (if g =? 0 then .ok v else f g v : Res β)
    let rest ← each1 f gl l
    .ok (r :: rest)
  | _, l => .ok l

/-- `v[0] = f(v[0])`. -/
def atBias {α : Type} (f : α → α) (v : List α) : Res (List α) := do
  let b ← lget v 0
  lset v 0 (f b)

end Sol.Online
