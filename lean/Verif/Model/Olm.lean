import Verif.Model.Online
/-!
# Model of src/sol/model/olm/*.cc without feature selection

Each algorithm is an `Alg` (what it overrides).  Parameters of the algorithm are parameters of its definition.
Simplification: time stamps kept as `real_t` are integers (fewer than 2^24 iterations, where `float` is exact).
-/

namespace Sol.Olm

open Sol.Online Sol.Sparse Sol.Loss

variable {α : Type} [Zero α] [One α] [Add α] [Sub α] [Mul α] [Div α] [Neg α] [FCmp α] [IntCast α] [FFun α] [FSqrt α]

/-- `bias_eta()` (online_model.h:79). -/
def biasEta {A : Type} (c : Cfg α) (s : St α A) : α := c.biasEta0 * s.eta

/-- `w -= k * x; w[0] -= b` (e.g. pa.cc:27-29). -/
def step (k b : α) (x : SVec α) (w : List α) : Res (List α) := do
  let w ← calcExp (· - ·) (fun _ _ y => .ok (k * y)) w x
  atBias (· - b) w

/-- The weight update shared by OGD, PA and variants: `w(c) -= eta_ * g(c) * x; w(c)[0] -= bias_eta() * g(c)`. -/
def etaStep {A : Type} (c : Cfg α) (s : St α A) (x : SVec α) : Res (St α A) := do
  let w ← each1 (fun g w => step (s.eta * g) (biasEta c s * g) x w) s.g s.w
  .ok { s with w := w }

/-- `Perceptron::Update` (perceptron.cc:37-47). -/
def perceptron : Alg α Unit := plain fun c s x _ => do
  let s := { s with eta := 1 }
  let w ← each1 (fun g w => step g (biasEta c s * g) x w) s.g s.w
  .ok { s with w := w }

/-- `OGD::Update` (ogd.cc:33-43); `pow` is `pow_(·, power_t_)`. -/
def ogd (eta0 : α) (pow : Int → α) : Alg α Unit := plain fun c s x _ =>
  etaStep c { s with eta := eta0 / pow s.t } x

/-- `std::min`. -/
def fmin (a b : α) : α := if b <? a then b else a

/-- `PA::Update` (pa.cc:20-30); `coeff` is `eta_coeff_`. -/
def pa (coeff : α) : Alg α Unit := plain fun c s x l => etaStep c { s with eta := l / (coeff * norm2 x) } x

/-- `PAI::Update` (pa.cc:42-52). -/
def pa1 (C coeff : α) : Alg α Unit := plain fun c s x l =>
  etaStep c { s with eta := fmin C (l / (coeff * norm2 x)) } x

/-- `PAII::Update` (pa.cc:68-77). -/
def pa2 (C coeff : α) : Alg α Unit := plain fun c s x l =>
  etaStep c { s with eta := l / (coeff * norm2 x + 1 / (1 + 1) / C) } x

/-! ### ALMA2 -/

/-- `w_norm = sqrt(Norm2(w)); if (w_norm > 1) w /= w_norm` (alma2.cc:82-83). -/
def project (w : List α) : List α :=
  let n := FSqrt.sqrt (dnorm2 w)
  if 1 <? n then w.map (· / n) else w

/-- The margin after `k` updates (alma2.cc:68, :86). -/
def almaMargin (alpha sqp1 : α) (k : Int) : α := (1 - alpha) * (1 / alpha) * sqp1 / FSqrt.sqrt (k : α)

/-- `ALMA2::Update` (alma2.cc:72-88); the own state is `k_`; `sqp1` is `square_p1_`. -/
def alma2 (C alpha sqp1 : α) : Alg α Int where
  grow _ _ a := a
  beginIter s _ := .ok s
  prep _ s _ := .ok s
  handler _ _ _ := none
  update c s x _ := do
    let s := { s with eta := C / (sqp1 * FSqrt.sqrt ((s.alg : Int) : α)) }
    let w ← each1 (fun g w => do
      let w ← step (s.eta * g) (biasEta c s * g) x w
      .ok (project w)) s.g s.w
    .ok { s with w := w, alg := s.alg + 1, margin := almaMargin alpha sqp1 (s.alg + 1) }
  endIter s _ := .ok s
  endTrain := finish

/-! ### Confidence-weighted algorithms -/

/-- One class of the confidence loops (arow.cc:53-59, cw.cc:74-79). -/
def confOne (bias : Bool) (x : SVec α) (g : α) (sig : List α) (v : α) : Res α :=
  if g =? 0 then .ok v
  else do
    let d ← dotOp (fun s y => s * (y * y)) sig x
    let v := v + d * (g * g)
    if bias then do
      let s0 ← lget sig 0
      .ok (v + s0 * (g * g))
    else .ok v

/-- The loop over the classes. -/
def confLoop (bias : Bool) (x : SVec α) : List α → List (List α) → α → Res α
  | g :: gl, sig :: l, v => do
    let v ← confOne bias x g sig v
    confLoop bias x gl l v
  | _, _, v => .ok v

/-- `w -= k * Sigma * x; w[0] -= b * Sigma[0]` (arow.cc:66-68). -/
def sigStep (k b : α) (x : SVec α) (w sig : List α) : Res (List α) := do
  let w ← calcExp (· - ·) (fun _ i y => do let s ← lget sig i; .ok (k * s * y)) w x
  let s0 ← lget sig 0
  atBias (· - b * s0) w

/-- AROW's variances: `Sigma /= (1 + Sigma * L2(x) * r1); Sigma[0] /= (1 + Sigma[0] * r1)` (arow.cc:72-73). -/
def arowSig (r1 : α) (x : SVec α) (sig : List α) : Res (List α) := do
  let sig ← calcExp (· / ·) (fun sg i y => do let s ← lget sg i; .ok (1 + s * (y * y) * r1)) sig x
  atBias (fun s => s / (1 + s * r1)) sig

/-- Own vectors of AROW, CW, ECCW in `update_dim` (arow.cc:77-87, cw.cc:106-117, eccw.cc:111-122). -/
def growSig (a : α) (d n : Nat) (sig : List (List α)) : List (List α) := sig.map (growTo d n a)

/-- `AROW::Update` (arow.cc:49-75). -/
def arow (r : α) : Alg α (List (List α)) where
  grow := growSig 1
  beginIter s _ := .ok s
  prep _ s _ := .ok s
  handler _ _ _ := none
  update c s x l := do
    let beta ← confLoop (!(c.biasEta0 =? 0)) x s.g s.alg 0
    let s := { s with eta := l * (1 / (beta + r)) }
    let ws ← each1 (fun g (p : List α × List α) => do
      let w ← sigStep (s.eta * g) (biasEta c s * g) x p.1 p.2
      let sig ← arowSig (g * g / r) x p.2
      .ok (w, sig)) s.g (s.w.zip s.alg)
    .ok { s with w := ws.map (·.1), alg := ws.map (·.2) }
  endIter s _ := .ok s
  endTrain := finish

/-- `2`, `4`, `8` and so on. -/
def num (n : Int) : α := (n : α)

/-- CW's variances: `Sigma /= (1 + tmp * Sigma * L2(x)); Sigma[0] /= (1 + tmp * Sigma[0])` (cw.cc:101-102). -/
def cwSig (tmp : α) (x : SVec α) (sig : List α) : Res (List α) := do
  let sig ← calcExp (· / ·) (fun sg i y => do let s ← lget sg i; .ok (1 + tmp * s * (y * y))) sig x
  atBias (fun s => s / (1 + tmp * s)) sig

/-- The margin handler of CW and ECCW (cw.cc:68-81, eccw.cc:69-82): margin and `Vi_`; `bias` says whether `bias_eta()`
    was non-zero at `BeginTrain`. -/
def cwHandler (phi : α) (bias : Bool) (sigs : List (List α)) (x : SVec α) (g : List α) : Res (α × α) := do
  let v ← confLoop bias x g sigs 0
  .ok (phi * v, v)

/-- The step size of CW (cw.cc:86-90). -/
def cwAlpha (phi vi l : α) : α :=
  let mi := phi * vi - l
  let tmp := 1 + num 2 * phi * mi
  (-(1 + num 2 * phi * mi) + FSqrt.sqrt (tmp * tmp - num 8 * phi * (mi - phi * vi))) / (num 4 * phi * vi)

/-- The weight and variance update of CW and ECCW (cw.cc:94-103, eccw.cc:100-108). -/
def cwStep {A : Type} (c : Cfg α) (s : St α A) (sigs : List (List α)) (tmp : α) (x : SVec α) :
    Res (List (List α × List α)) :=
  each1 (fun g (p : List α × List α) => do
    let w ← sigStep (s.eta * g) (biasEta c s * g) x p.1 p.2
    let sig ← cwSig tmp x p.2
    .ok (w, sig)) s.g (s.w.zip sigs)

/-- `CW` (cw.cc:61-117); `a` is `a_`. -/
def cw (a phi : α) (bias : Bool) : Alg α (List (List α)) where
  grow := growSig a
  beginIter s _ := .ok s
  prep _ s _ := .ok s
  handler _ s x := some (cwHandler phi bias s.alg x)
  update c s x l := do
    let alpha := cwAlpha phi s.vi l
    let s := { s with eta := alpha }
    let ws ← cwStep c s s.alg (num 2 * alpha * phi) x
    .ok { s with w := ws.map (·.1), alg := ws.map (·.2) }
  endIter s _ := .ok s
  endTrain := finish

/-- The step size of ECCW (eccw.cc:87-91, :123-127); `psi = 1 + phi^2/2`, `xi = 1 + phi^2`. -/
def eccwAlpha (phi vi l : α) : α :=
  let psi := 1 + phi * phi / num 2
  let xi := 1 + phi * phi
  let mi := phi * vi - l
  let tmp := mi * phi * phi
  (-mi * psi + FSqrt.sqrt (tmp * tmp * (1 / num 4) + vi * phi * phi * xi)) / (vi * xi)

/-- `sqrtf(ui)` of ECCW (eccw.cc:92-95, :99). -/
def eccwSqrtU (phi vi alpha : α) : α :=
  let u := 1 / num 2 * (-alpha * vi * phi + FSqrt.sqrt (alpha * alpha * vi * vi * phi * phi + num 4 * vi))
  FSqrt.sqrt (u * u)

/-- `ECCW` (eccw.cc:62-122). -/
def eccw (a phi : α) (bias : Bool) : Alg α (List (List α)) where
  grow := growSig a
  beginIter s _ := .ok s
  prep _ s _ := .ok s
  handler _ s x := some (cwHandler phi bias s.alg x)
  update c s x l := do
    let alpha := eccwAlpha phi s.vi l
    let s := { s with eta := alpha }
    let ws ← cwStep c s s.alg (alpha * phi * eccwSqrtU phi s.vi alpha) x
    .ok { s with w := ws.map (·.1), alg := ws.map (·.2) }
  endIter s _ := .ok s
  endTrain := finish

/-! ### Lazy L1 regularisation -/

/-- `FinalizeRegularization` of the L1 regularisers (regularizer.cc:44-49). -/
def sparsify (thresh : α) (w : List α) : List α := w.map fun v => if v <? thresh && -thresh <? v then 0 else v

/-- A dense assignment `w = f(w, u)` (matrix_expression.h:99-116): different shapes throw. -/
def dense2 {β : Type} (f : α → β → α) (w : List α) (u : List β) : Res (List α) :=
  if w.length = u.length then .ok (List.zipWith f w u) else .ub .exception

/-- Loop over all classifiers. -/
def eachAll {β : Type} (f : β → Res β) : List β → Res (List β)
  | [] => .ok []
  | v :: l => do
    let r ← f v
    let rest ← eachAll f l
    .ok (r :: rest)

/-- The truncation loop of STG over the features of one class (ogd.cc:99-106): weights and time stamps. -/
def stgLoop (k t : Int) (alpha : α) : SVec α → List α → List Int → Res (List α × List Int)
  | [], w, last => .ok (w, last)
  | (i, _) :: x, w, last => do
    let l ← lget last i
    if t - l < k then stgLoop k t alpha x w last
    else do
      let st := (t - l) - (t - l) % k
      let a ← lget w i
      let w ← lset w i (trunc a ((st : α) * alpha))
      let last ← lset last i (l + st)
      stgLoop k t alpha x w last

/-- The loop of `STG::TrainPredict` over the classes (ogd.cc:96-110). -/
def stgClasses (k t : Int) (alpha b : α) (x : SVec α) : List (List α) → List Int → Res (List (List α) × List Int)
  | [], last => .ok ([], last)
  | w :: l, last => do
    let (w, last) ← stgLoop k t alpha x w last
    let w ← atBias (fun v => trunc v b) w
    let last ← lset last 0 t
    let (rest, last) ← stgClasses k t alpha b x l last
    .ok (w :: rest, last)

/-- The loop of the `EndTrain` methods of STG (ogd.cc:115-119). -/
def stgEnd {A : Type} (lambda : α) (s : St α A) (last : List Int) : Res (List (List α)) :=
  eachAll (fun w => dense2 (fun a l => trunc a (s.eta * lambda * (((s.t - l : Int) : α)))) w last) s.w

/-- `STG` (ogd.cc:85-131); the own state is `last_trunc_time_`. -/
def stg (eta0 : α) (pow : Int → α) (k : Int) (lambda thresh : α) (t0 : Int) : Alg α (List Int) where
  grow d n l := growTo d n t0 l
  beginIter s _ := .ok s
  prep c s x := do
    let (w, last) ← stgClasses k (s.t - 1) (s.eta * lambda) (lambda * biasEta c s) x s.w s.alg
    .ok { s with w := w, alg := last }
  handler _ _ _ := none
  update c s x _ := etaStep c { s with eta := eta0 / pow s.t } x
  endIter s _ := .ok s
  endTrain _ s := do
    let w ← stgEnd lambda s s.alg
    .ok { s with w := w.map (sparsify thresh), fresh := false }

/-- `LazyOnlineL1Regularizer::BeginIterate` (regularizer.cc:67-75). -/
def lazyBegin (t0 : Int) (last : List Int) (n : Nat) : List Int :=
  if last.length < n then growTo last.length n t0 last else last

/-- The loop of `LazyOnlineL1Regularizer::EndIterate` (regularizer.cc:83-85). -/
def stampLoop (ts : Int) : SVec α → List Int → Res (List Int)
  | [], last => .ok last
  | (i, _) :: x, last => do
    let last ← lset last i ts
    stampLoop ts x last

/-- `LazyOnlineL1Regularizer::EndIterate` (regularizer.cc:77-87). -/
def lazyEnd {A : Type} (s : St α A) (last : List Int) (x : SVec α) : Res (List Int) := do
  let last ← stampLoop (s.t - 1) x last
  lset last 0 (s.t - 1)

/-- The truncation of one class at the features of `x` (ogd.cc:148-152). -/
def fobosTrunc (rate b : α) (t : Int) (last : List Int) (x : SVec α) (w : List α) : Res (List α) := do
  let w ← calcExp (fun _ r => r) (fun w i _ => do
    let a ← lget w i
    let l ← lget last i
    .ok (trunc a (rate * (((t - l : Int) : α))))) w x
  atBias (fun v => trunc v b) w

/-- `FOBOS_L1` (ogd.cc:144-167); the own state is `last_update_time_`. -/
def fobosL1 (eta0 : α) (pow : Int → α) (lambda thresh : α) (t0 : Int) : Alg α (List Int) where
  grow _ _ l := l
  beginIter s x := .ok { s with alg := lazyBegin t0 s.alg (Sparse.dim x) }
  prep c s x := do
    let w ← eachAll (fobosTrunc (s.eta * lambda) (biasEta c s * lambda) (s.t - 1) s.alg x) s.w
    .ok { s with w := w }
  handler _ _ _ := none
  update c s x _ := etaStep c { s with eta := eta0 / pow s.t } x
  endIter s x := do
    let last ← lazyEnd s s.alg x
    .ok { s with alg := last }
  endTrain c s := do
    let w ← stgEnd lambda s s.alg
    let w ← eachAll (atBias fun v => trunc v (biasEta c s * lambda)) w
    .ok { s with w := w.map (sparsify thresh), fresh := false }

/-! ### Dual averaging -/

/-- `u += g * x; u[0] += g` (rda.cc:55-56). -/
def addGrad (g : α) (x : SVec α) (u : List α) : Res (List α) := do
  let u ← calcExp (· + ·) (fun _ _ y => .ok (g * y)) u x
  atBias (· + g) u

/-- `w = f(u.slice(x)); w[0] = b(u[0])` for one class. -/
def fromDual (f b : α → α) (x : SVec α) (w u : List α) : Res (List α) := do
  let w ← calcExp (fun _ r => r) (fun _ i _ => do let a ← lget u i; .ok (f a)) w x
  let a ← lget u 0
  lset w 0 (b a)

/-- `w = f(u); w[0] = b(u[0])` for one class. -/
def fromDualAll (f b : α → α) (w u : List α) : Res (List α) := do
  let w ← dense2 (fun _ a => f a) w u
  let a ← lget u 0
  lset w 0 (b a)

/-- Loop over all classifiers with a second vector per classifier. -/
def eachWith (f : List α → List α → Res (List α)) : List (List α) → List (List α) → Res (List (List α))
  | w :: l, u :: us => do
    let r ← f w u
    let rest ← eachWith f l us
    .ok (r :: rest)
  | l, _ => .ok l

/-- `RDA` (rda.cc:39-79); the own state is `ut_`; `eps` is `1e-20`. -/
def rda (sigma eps : α) : Alg α (List (List α)) where
  grow := growSig 0
  beginIter s _ := .ok s
  prep c s x := do
    let s := { s with eta := 1 / ((((s.t - 1 : Int) : α) + eps) * sigma) }
    let w ← eachWith (fromDual (fun a => -s.eta * a) (fun a => -biasEta c s * a) x) s.w s.alg
    .ok { s with w := w }
  handler _ _ _ := none
  update _ s x _ := do
    let u ← each1 (fun g u => addGrad g x u) s.g s.alg
    .ok { s with alg := u }
  endIter s _ := .ok s
  endTrain c s := do
    let s := { s with eta := 1 / (((s.t : α) + eps) * sigma) }
    let w ← eachWith (fromDualAll (fun a => -s.eta * a) (fun a => -biasEta c s * a)) s.w s.alg
    .ok { s with w := w, fresh := false }

/-- `RDA_L1` (rda.cc:109-132); note the missing `eps` in `TrainPredict`. -/
def rdaL1 (sigma eps lambda thresh : α) : Alg α (List (List α)) where
  grow := growSig 0
  beginIter s _ := .ok s
  prep c s x := do
    let t : α := ((s.t - 1 : Int) : α)
    let s := { s with eta := 1 / (t * sigma) }
    let w ← eachWith (fromDual (fun a => -s.eta * trunc a (lambda * t)) (fun a => -biasEta c s * trunc a (lambda * t)) x)
      s.w s.alg
    .ok { s with w := w }
  handler _ _ _ := none
  update _ s x _ := do
    let u ← each1 (fun g u => addGrad g x u) s.g s.alg
    .ok { s with alg := u }
  endIter s _ := .ok s
  endTrain c s := do
    let t := (s.t : α) + eps
    let s := { s with eta := 1 / (t * sigma) }
    let w ← eachWith (fromDualAll (fun a => -s.eta * trunc a (lambda * t)) (fun a => -biasEta c s * trunc a (lambda * t)))
      s.w s.alg
    .ok { s with w := w.map (sparsify thresh), fresh := false }

/-- `ERDA_L1` (rda.cc:149-174). -/
def erdaL1 (sigma eps lambda rou thresh : α) : Alg α (List (List α)) where
  grow := growSig 0
  beginIter s _ := .ok s
  prep c s x := do
    let t := ((s.t - 1 : Int) : α) + eps
    let s := { s with eta := 1 / (FSqrt.sqrt t * sigma) }
    let th := lambda * t + sigma * rou * FSqrt.sqrt t
    let w ← eachWith (fromDual (fun a => -s.eta * trunc a th) (fun a => -biasEta c s * trunc a th) x) s.w s.alg
    .ok { s with w := w }
  handler _ _ _ := none
  update _ s x _ := do
    let u ← each1 (fun g u => addGrad g x u) s.g s.alg
    .ok { s with alg := u }
  endIter s _ := .ok s
  endTrain c s := do
    let t := (s.t : α) + eps
    let s := { s with eta := 1 / (FSqrt.sqrt t * sigma) }
    let th := lambda * t + sigma * rou * FSqrt.sqrt t
    let w ← eachWith (fromDualAll (fun a => -s.eta * trunc a th) (fun a => -biasEta c s * trunc a th)) s.w s.alg
    .ok { s with w := w.map (sparsify thresh), fresh := false }

/-- Own state of SOP: `X_` and `v_`. -/
structure SopSt (α : Type) where
  X : List α
  v : List (List α)

/-- `SOP` (sop.cc:48-87). -/
def sop (a : α) : Alg α (SopSt α) where
  grow d n s := ⟨growTo d n 0 s.X, growSig 0 d n s.v⟩
  beginIter s _ := .ok s
  prep _ s x := do
    let w ← eachWith (fun w v => calcExp (fun _ r => r) (fun _ i y => do
      let vi ← lget v i
      let xi ← lget s.alg.X i
      .ok (vi / (a + xi + y * y))) w x) s.w s.alg.v
    .ok { s with w := w }
  handler _ _ _ := none
  update c s x _ := do
    let s := { s with eta := 1 }
    let v ← each1 (fun g v => step g (biasEta c s * g) x v) s.g s.alg.v
    let X ← calcExp (· + ·) (fun _ _ y => .ok (y * y)) s.alg.X x
    .ok { s with alg := ⟨X, v⟩ }
  endIter s _ := .ok s
  endTrain _ s := do
    let w ← eachWith (fun w v => do
      let q ← dense2 (fun vi xi => vi / (a + xi)) v s.alg.X
      dense2 (fun _ r => r) w q) s.w s.alg.v
    .ok { s with w := w, fresh := false }

/-! ### Adaptive subgradient methods -/

/-- `H = Sqrt(L2(H - delta) + L2(g * x)) + delta` and `H[0] = sqrtf(...) + delta` (ada_fobos.cc:48-50). -/
def adaH (delta g : α) (x : SVec α) (H : List α) : Res (List α) := do
  let H ← calcExp (fun _ r => r) (fun H i y => do
    let h ← lget H i
    .ok (FSqrt.sqrt ((h - delta) * (h - delta) + (g * y) * (g * y)) + delta)) H x
  atBias (fun h => FSqrt.sqrt ((h - delta) * (h - delta) + g * g) + delta) H

/-- `w -= k * x / H; w[0] -= b / H[0]` (ada_fobos.cc:52-54). -/
def adaStep (k b : α) (x : SVec α) (w H : List α) : Res (List α) := do
  let w ← calcExp (· - ·) (fun _ i y => do let h ← lget H i; .ok (k * y / h)) w x
  let h0 ← lget H 0
  atBias (· - b / h0) w

/-- `AdaFOBOS::Update` (ada_fobos.cc:43-56), own state `H_`. -/
def adaFobosUpdate {A : Type} (delta : α) (c : Cfg α) (s : St α A) (H : List (List α)) (x : SVec α) :
    Res (List (List α × List α)) :=
  each1 (fun g (p : List α × List α) => do
    let H ← adaH delta g x p.2
    let w ← adaStep (s.eta * g) (biasEta c s * g) x p.1 H
    .ok (w, H)) s.g (s.w.zip H)

/-- `AdaFOBOS` (ada_fobos.cc:20-68). -/
def adaFobos (delta : α) : Alg α (List (List α)) where
  grow := growSig delta
  beginIter s _ := .ok s
  prep _ s _ := .ok s
  handler _ _ _ := none
  update c s x _ := do
    let ws ← adaFobosUpdate delta c s s.alg x
    .ok { s with w := ws.map (·.1), alg := ws.map (·.2) }
  endIter s _ := .ok s
  endTrain := finish

/-- Own state of the L1 variant: `H_` and `last_update_time_`. -/
structure AdaL1 (α : Type) where
  H : List (List α)
  last : List Int

/-- `AdaFOBOS_L1` (ada_fobos.cc:96-125). -/
def adaFobosL1 (delta lambda thresh : α) (t0 : Int) : Alg α (AdaL1 α) where
  grow d n a := { a with H := growSig delta d n a.H }
  beginIter s x := .ok { s with alg := { s.alg with last := lazyBegin t0 s.alg.last (Sparse.dim x) } }
  prep c s x := do
    let w ← eachWith (fun w H => do
      let w ← calcExp (fun _ r => r) (fun w i _ => do
        let a ← lget w i
        let l ← lget s.alg.last i
        let h ← lget H i
        .ok (trunc a (s.eta * lambda * (((s.t - 1 - l : Int) : α)) / h))) w x
      let h0 ← lget H 0
      atBias (fun v => trunc v (biasEta c s * lambda / h0)) w) s.w s.alg.H
    .ok { s with w := w }
  handler _ _ _ := none
  update c s x _ := do
    let ws ← adaFobosUpdate delta c s s.alg.H x
    .ok { s with w := ws.map (·.1), alg := { s.alg with H := ws.map (·.2) } }
  endIter s x := do
    let last ← lazyEnd s s.alg.last x
    .ok { s with alg := { s.alg with last := last } }
  endTrain c s := do
    let w ← eachWith (fun w H => do
      let r ← dense2 (fun h l => s.eta * lambda * (((s.t - l : Int) : α)) / h) H s.alg.last
      let w ← dense2 (fun a r => trunc a r) w r
      let h0 ← lget H 0
      atBias (fun v => trunc v (biasEta c s * lambda / h0)) w) s.w s.alg.H
    .ok { s with w := w.map (sparsify thresh), fresh := false }

/-- Own state of AdaRDA: `H_` and `ut_`. -/
structure AdaRdaSt (α : Type) where
  H : List (List α)
  ut : List (List α)

/-- One class of `AdaRDA::Update` (ada_rda.cc:55-64): weights, `H_`, `ut_`. -/
def adaRdaOne (delta eta bias0 g : α) (x : SVec α) (p : List α × List α × List α) : Res (List α × List α × List α) := do
  let H ← adaH delta g x p.2.1
  let u ← addGrad g x p.2.2
  let w ← calcExp (fun _ r => r) (fun _ i _ => do
    let a ← lget u i
    let h ← lget H i
    .ok (-eta * a / h)) p.1 x
  let w ← atBias (· * bias0) w
  .ok (w, H, u)

/-- `EndTrain` of AdaRDA for one class (ada_rda.cc:70-72, :146-147). -/
def adaRdaEnd (f : α → α) (eta bias0 : α) (w u H : List α) : Res (List α) := do
  let q ← dense2 (fun a h => -eta * f a / h) u H
  let w ← dense2 (fun _ r => r) w q
  atBias (· * bias0) w

/-- Loop over all classifiers with two more vectors per classifier. -/
def eachWith2 (f : List α → List α → List α → Res (List α)) :
    List (List α) → List (List α) → List (List α) → Res (List (List α))
  | w :: l, u :: us, h :: hs => do
    let r ← f w u h
    let rest ← eachWith2 f l us hs
    .ok (r :: rest)
  | l, _, _ => .ok l

/-- `AdaRDA::Update` (ada_rda.cc:50-66). -/
def adaRdaUpdate {A : Type} (delta : α) (c : Cfg α) (s : St α A) (a : AdaRdaSt α) (x : SVec α) :
    Res (List (List α × List α × List α)) :=
  each1 (fun g p => adaRdaOne delta s.eta c.biasEta0 g x p) s.g (s.w.zip (a.H.zip a.ut))

/-- `AdaRDA` (ada_rda.cc:20-90). -/
def adaRda (delta : α) : Alg α (AdaRdaSt α) where
  grow d n a := ⟨growSig delta d n a.H, growSig 0 d n a.ut⟩
  beginIter s _ := .ok s
  prep _ s _ := .ok s
  handler _ _ _ := none
  update c s x _ := do
    let ws ← adaRdaUpdate delta c s s.alg x
    .ok { s with w := ws.map (·.1), alg := ⟨ws.map (·.2.1), ws.map (·.2.2)⟩ }
  endIter s _ := .ok s
  endTrain c s := do
    let w ← eachWith2 (adaRdaEnd (fun a => a) s.eta c.biasEta0) s.w s.alg.ut s.alg.H
    .ok { s with w := w, fresh := false }

/-- `AdaRDA_L1` (ada_rda.cc:126-150). -/
def adaRdaL1 (delta lambda thresh : α) : Alg α (AdaRdaSt α) where
  grow d n a := ⟨growSig delta d n a.H, growSig 0 d n a.ut⟩
  beginIter s _ := .ok s
  prep c s x := do
    let th := lambda * (s.t : α)
    let w ← eachWith2 (fun w u H => do
      let w ← calcExp (fun _ r => r) (fun _ i _ => do
        let a ← lget u i
        let h ← lget H i
        .ok (-s.eta * trunc a th / h)) w x
      let u0 ← lget u 0
      let h0 ← lget H 0
      lset w 0 (-biasEta c s * trunc u0 th / h0)) s.w s.alg.ut s.alg.H
    .ok { s with w := w }
  handler _ _ _ := none
  update c s x _ := do
    let ws ← adaRdaUpdate delta c s s.alg x
    .ok { s with w := ws.map (·.1), alg := ⟨ws.map (·.2.1), ws.map (·.2.2)⟩ }
  endIter s _ := .ok s
  endTrain c s := do
    let th := lambda * (s.t : α)
    let w ← eachWith2 (adaRdaEnd (fun a => trunc a th) s.eta c.biasEta0) s.w s.alg.ut s.alg.H
    .ok { s with w := w.map (sparsify thresh), fresh := false }

end Sol.Olm
