import Verif.Base.Num
/-!
# Model of src/sol/loss/*.cc

Scores, gradients and labels as in the code: `predict` and `gradient` are arrays of `cls_num` numbers (one for binary
losses), labels are `int32` values, an index outside an array is undefined behaviour.
The numbers are any type with the C++ operations.  `lowest` is `-FLT_MAX`, `tiny` is `1e-12f`.
A margin handler (hinge_loss.h:22-25) is a function of the gradient array: the handlers of CW and ECCW (cw.cc:68-81,
eccw.cc:69-82) read the example, their own state and the gradient; they return the margin and write one number (`Vi_`).
Simplifications: `-label` does not overflow (labels other than -2^31); the score and gradient arrays have the same length.
-/

namespace Sol.Loss

/-- Constants and elementary functions of the number type. -/
class FFun (α : Type) where
  exp : α → α
  log : α → α
  lowest : α
  tiny : α

variable {α : Type} [Zero α] [One α] [Add α] [Sub α] [Mul α] [Div α] [Neg α] [FCmp α] [IntCast α] [FFun α]

/-- `std::max(a, b)`. -/
def fmax (a b : α) : α := if a <? b then b else a

/-- `a[i]` with a signed index. -/
def get (a : List α) (i : Int) : Res α := if 0 ≤ i then lget a i.toNat else .ub .outOfBounds

/-- `a[i] = v` with a signed index. -/
def set (a : List α) (i : Int) (v : α) : Res (List α) := if 0 ≤ i then lset a i.toNat v else .ub .outOfBounds

/-- The loop of `std::max_element`: best position so far with its value, next position. -/
def maxLoop (best : Nat) (bv : α) (i : Nat) : List α → Nat
  | [] => best
  | v :: l => if bv <? v then maxLoop i v (i + 1) l else maxLoop best bv (i + 1) l

/-- `std::max_element(a, a + n) - a`. -/
def maxElement : List α → Int
  | [] => 0
  | v :: l => maxLoop 0 v 1 l

/-- `Loss::Sign` (loss.h:38). -/
def sign (x : α) : Int := if (0 : α) ≤? x then 1 else -1

/-- hinge_loss.cc:44-51, 59-66; logistic_loss.cc:46-53, 68-75: the best wrong class. -/
def rival (predict : List α) (label pl : Int) : Res Int :=
  if pl = label then do
    let _ ← get predict label
    let p ← set predict label FFun.lowest
    .ok (maxElement p)
  else .ok pl

/-- The loop at hinge_loss.cc:98-105 (and :116-123, logistic_loss.cc:100-107, :125-132). -/
def falseLoop (pl : α) : List α → α × α → α × α
  | [], a => a
  | v :: l, (fp, fn) => falseLoop pl l (if pl ≤? v then (fp + v, fn + 1) else (fp, fn))

/-- hinge_loss.cc:97-107: sum of the scores of the wrong classes that are not below the true class, and their number. -/
def falses (predict : List α) (label : Int) : Res (α × α) := do
  let p ← get predict label
  let (fp, fn) := falseLoop p predict (0, FFun.tiny)
  .ok (fp - p, fn - 1)

/-- `log(1 + exp(z))` with the cut-offs (logistic_loss.cc:18-23). -/
def softplus (z : α) : α :=
  if ((100 : Int) : α) <? z then z else if z <? ((-100 : Int) : α) then 0 else FFun.log (1 + FFun.exp z)

inductive Kind where
  | bool | maxBool | uniBool | hinge | maxHinge | uniHinge | logistic | maxLogistic | uniLogistic | square
deriving DecidableEq, Repr

/-- `loss(dp, predict, predict_label, cls_num)`; `margin` is `margin_` of `HingeBase`. -/
def loss (k : Kind) (margin : α) (label : Int) (predict : List α) (pl : Int) : Res α :=
  match k with
  | .bool => .ok (if pl = label then 0 else 1)
  | .maxBool => .ok (if pl = label then 0 else 1)
  | .uniBool => .ok (if pl = label then 0 else 1)
  | .hinge => do
    let p ← lget predict 0
    .ok (fmax 0 (margin - p * (label : α)))
  | .maxHinge => do
    let q ← rival predict label pl
    let a ← get predict label
    let b ← get predict q
    .ok (fmax 0 (margin - a + b))
  | .uniHinge => do
    let (fp, fn) ← falses predict label
    let a ← get predict label
    .ok (fmax 0 (margin - a + fp / fn))
  | .logistic => do
    let p ← lget predict 0
    .ok (softplus (-p * (label : α)))
  | .maxLogistic => do
    let q ← rival predict label pl
    let a ← get predict label
    let b ← get predict q
    .ok (softplus (b - a))
  | .uniLogistic => do
    let (fp, fn) ← falses predict label
    let a ← get predict label
    .ok (softplus (fp / fn - a))
  | .square => do
    let p ← lget predict 0
    .ok ((p - (label : α)) * (p - (label : α)) * (1 / (1 + 1)))

/-- Gradients of the uniform losses: `v` for the classes that are not below the true class, 0 for the others, `u` for the
    true class (e.g. hinge_loss.cc:151-158). -/
def uniGrad (predict : List α) (label : Int) (v u : α) : Res (List α) := do
  let p ← get predict label
  set (predict.map fun x => if p ≤? x then v else 0) label u

/-- All zero except `u` at `q` and `v` at `label` (e.g. hinge_loss.cc:85-87). -/
def pairGrad (gradient : List α) (q : Int) (u : α) (label : Int) (v : α) : Res (List α) := do
  let g ← set (gradient.map fun _ => (0 : α)) q u
  set g label v

/-- `std::count_if` (bool_loss.cc:68-70) minus one, as a `size_t` (the true class is counted, so no wrap-around). -/
def falseCount (predict : List α) (label : Int) : Res Nat := do
  let p ← get predict label
  .ok ((predict.countP fun v => p ≤? v) - 1)

/-- `gradient(dp, predict, predict_label, gradient, cls_num)`: the reported loss, the gradient array, `margin_`
    and the number `v` of the margin handler afterwards. -/
def gradient (k : Kind) (margin : α) (handler : Option (List α → Res (α × α))) (v : α) (label : Int) (predict : List α)
    (pl : Int) (g : List α) : Res (α × List α × α × α) :=
  match k with
  | .bool => do
    -- bool_loss.cc:19-29
    let g ← lset g 0 (if pl = label then 0 else ((-label : Int) : α))
    .ok (if pl = label then 0 else 1, g, margin, v)
  | .maxBool =>
    -- bool_loss.cc:38-52
    if pl = label then .ok (0, g, margin, v)
    else do
      let g ← pairGrad g pl 1 label (-1)
      .ok (1, g, margin, v)
  | .uniBool =>
    -- bool_loss.cc:61-82
    if pl = label then .ok (0, g, margin, v)
    else do
      let n ← falseCount predict label
      let g ← uniGrad predict label (1 / ((n : Int) : α)) (-1)
      .ok (1, g, margin, v)
  | .hinge => do
    -- hinge_loss.cc:24-38
    let p ← lget predict 0
    let (m, v) ← (match handler with
      | some f => do
        let g ← lset g 0 1
        f g
      | none => .ok (margin, v) : Res (α × α))
    let l := fmax 0 (m - p * (label : α))
    let g ← lset g 0 (if (0 : α) <? l then ((-label : Int) : α) else 0)
    .ok (l, g, m, v)
  | .maxHinge => do
    -- hinge_loss.cc:56-91
    let q ← rival predict label pl
    let a ← get predict label
    let b ← get predict q
    match handler with
    | some f => do
      let g ← pairGrad g q 1 label (-1)
      let (m, v) ← f g
      let l := fmax 0 (m - a + b)
      if l ≤? (0 : α) then do
        let g ← set g q 0
        let g ← set g label 0
        .ok (l, g, m, v)
      else .ok (l, g, m, v)
    | none =>
      let l := fmax 0 (margin - a + b)
      if (0 : α) <? l then do
        let g ← pairGrad g q 1 label (-1)
        .ok (l, g, margin, v)
      else .ok (l, g, margin, v)
  | .uniHinge => do
    -- hinge_loss.cc:112-162; the inner `float loss` shadows the returned variable
    let (fp, fn) ← falses predict label
    let a ← get predict label
    let alpha := 1 / fn
    match handler with
    | some f => do
      let g ← uniGrad predict label alpha (-1)
      let (m, v) ← f g
      if fmax 0 (m - a + fp * alpha) ≤? (0 : α) then .ok (0, g.map fun _ => 0, m, v) else .ok (0, g, m, v)
    | none =>
      if (0 : α) <? fmax 0 (margin - a + fp * alpha) then do
        let g ← uniGrad predict label alpha (-1)
        .ok (0, g, margin, v)
      else .ok (0, g, margin, v)
  | .logistic => do
    -- logistic_loss.cc:26-40
    let p ← lget predict 0
    let z := -p * (label : α)
    let y := ((-label : Int) : α)
    let g ← lset g 0 (if ((100 : Int) : α) <? z then y else if z <? ((-100 : Int) : α) then 0
      else y / (1 + FFun.exp (-z)))
    .ok (softplus z, g, margin, v)
  | .maxLogistic => do
    -- logistic_loss.cc:65-92
    let q ← rival predict label pl
    let a ← get predict label
    let b ← get predict q
    let z := b - a
    let u := if ((100 : Int) : α) <? z then 1 else if z <? ((-100 : Int) : α) then 0 else 1 / (1 + FFun.exp (-z))
    let u' := if ((100 : Int) : α) <? z then -1 else if z <? ((-100 : Int) : α) then 0 else -(1 / (1 + FFun.exp (-z)))
    let g ← pairGrad g q u label u'
    .ok (softplus z, g, margin, v)
  | .uniLogistic => do
    -- logistic_loss.cc:121-167
    let (fp, fn) ← falses predict label
    let a ← get predict label
    let z := fp / fn - a
    if ((100 : Int) : α) <? z then do
      let g ← uniGrad predict label (1 / fn) (-1)
      .ok (z, g, margin, v)
    else if z <? ((-100 : Int) : α) then .ok (0, g.map fun _ => 0, margin, v)
    else do
      let alpha := 1 / (1 + FFun.exp (-z))
      let g ← uniGrad predict label (alpha / fn) (-alpha)
      .ok (FFun.log (1 + FFun.exp z), g, margin, v)
  | .square => do
    -- square_loss.cc:22-27
    let p ← lget predict 0
    let d := p - (label : α)
    let g ← lset g 0 d
    .ok (d * d * (1 / (1 + 1)), g, margin, v)

end Sol.Loss
