import Verif.Base.F32Sqrt
import Verif.Model.FloatText
import Verif.Model.Loss
import Verif.Model.PreProcess
/-!
# Model of `SetParameter`: src/sol/model/model.cc, online_model.cc, regularizer.cc, olm/*.cc

The state is what the parameters of a model are stored in, with the vectors that are resized or overwritten when a parameter is
set.  A parameter call ends normally, with `std::invalid_argument` (which `sol_SetModelParameter` turns into an error code), with
another exception, or with undefined behaviour; the state reached by then is kept.
Simplifications: `pow_` (function of `power_t_`), `square_p1_` (of `p_`), `B_` of ALMA2 (of `alpha_`), `psi_` and `xi_` (of `phi_`)
are assigned together with the number they are computed from and are not kept apart; the work vectors that are resized with the
weights but not assigned by a parameter (heaps, `abs_weights_`, `H_sum_`, `Sigma_sum_`, `last_trunc_time_`) are left out; resizing
does not run out of memory; loss names are compared without regard to the case of ASCII letters (see Model/StrUtil.lean).
-/

namespace Sol.Params
open Sol.Text Sol.FloatText Sol.PreProcess

/-- The model classes (the `RegisterModel` lines of olm/*.cc). -/
inductive Cls where
  | perceptron | ogd | stg | fobosL1 | pet | pa | pa1 | pa2 | alma2 | arow | sofs | cw | eccw | rda | rdaL1 | erdaL1 | sop
  | adaFobos | adaFobosL1 | adaFobosOfs | adaRda | adaRdaL1 | adaRdaOfs | fofs
deriving DecidableEq, Repr

/-- The regularizers (regularizer.h): none, only a weight, `OnlineL1Regularizer`, `LazyOnlineL1Regularizer`. -/
inductive Reg where
  | none | plain | l1 | lazyL1
deriving DecidableEq, Repr

/-- `regularizer_` of each class (the constructors). -/
def regOf : Cls → Reg
  | .stg => .l1
  | .fobosL1 => .lazyL1
  | .pet => .plain
  | .sofs => .plain
  | .rdaL1 => .l1
  | .erdaL1 => .l1
  | .adaFobosL1 => .lazyL1
  | .adaFobosOfs => .plain
  | .adaRdaL1 => .l1
  | .adaRdaOfs => .plain
  | _ => .none

/-- The progress display (online_model.cc:24-51) with the number it was made with. -/
inductive Disp where
  | exp (base : Int)
  | step (step : Int)
deriving DecidableEq, Repr

/-- The state that parameters are stored in.  Every class has all fields; the ones it does not use keep their initial value. -/
structure M where
  cls : Cls
  /-- `class_num_` -/
  classNum : Int
  /-- `loss_`; `none` is the null pointer -/
  loss : Option Loss.Kind
  /-- ALMA2, CW, ECCW: `hinge_base_` points to `loss_` -/
  hinge : Bool
  norm : Norm
  sel : Sel
  /-- `require_reinit_` -/
  reinit : Bool
  biasEta : F32
  initialT : Int
  /-- `cur_iter_num_` -/
  t : Int
  dim : Nat
  lazy : Bool
  smooth : F32
  /-- `cost_margin_` -/
  cost : F32
  costSensitive : Bool
  /-- `iter_displayer_`; `none` is the null pointer -/
  disp : Option Disp
  /-- `lambda_` of the regularizer -/
  lambda : F32
  thresh : F32
  /-- `initial_t_` and `last_update_time_` of `LazyOnlineL1Regularizer` -/
  t0 : F32
  lastTime : List F32
  /-- `eta0_` of OGD, `eta_` of AdaFOBOS, AdaRDA and FOFS -/
  eta : F32
  powerT : F32
  delta : F32
  p : Int
  alpha : F32
  C : F32
  k : Int
  r : F32
  a : F32
  phi : F32
  sigma : F32
  rou : F32
  /-- `lambda_` and `B_` of FOFS -/
  fofsLambda : F32
  fofsB : Nat
  /-- the weights of each class -/
  w : List (List F32)
  /-- `H_` of AdaFOBOS and AdaRDA, `Sigmas_` of AROW, CW and ECCW -/
  scale : List (List F32)
  /-- `ut_` of RDA and AdaRDA, `v_` of SOP -/
  sum : List (List F32)
  /-- `X_` of SOP -/
  X : List F32
deriving DecidableEq, Repr

/-- `clf_num_` (model.cc:41). -/
def M.clf (m : M) : Int := if m.classNum = 2 then 1 else m.classNum

/-- How a call ends. -/
inductive End where
  | accepted
  /-- `std::invalid_argument` -/
  | rejected
  /-- another exception -/
  | thrown
  | undef (k : UB)
deriving DecidableEq, Repr

/-- `std::invalid_argument` or another exception of a conversion. -/
def endOf : Exn → End
  | .invalidArgument => .rejected
  | _ => .thrown

/-- `stof(value)` inside `SetParameter`. -/
def num (m : M) (v : List Char) (f : F32 → M × End) : M × End :=
  match stof v with
  | .ok x => f x
  | .error e => (m, endOf e)

/-- `stoi(value)` inside `SetParameter`. -/
def int (m : M) (v : List Char) (f : Int → M × End) : M × End :=
  match stoi v with
  | .ok (x, _) => f x
  | .error e => (m, endOf e)

/-- `Check(c)` at the end of a branch, in the state `m` (error_code.h). -/
def check (c : Bool) (m : M) : M × End := if c then (m, .accepted) else (m, .rejected)

/-- The next statement, if no exception was thrown. -/
def andThen (r : M × End) (f : M → M × End) : M × End := if r.2 = .accepted then f r.1 else r

/-- Losses for binary problems (`Loss::Type::BC`). -/
def isBC : Loss.Kind → Bool
  | .bool => true
  | .hinge => true
  | .logistic => true
  | _ => false

/-- Losses for multi-class problems (`Loss::Type::MC`). -/
def isMC : Loss.Kind → Bool
  | .maxBool => true
  | .uniBool => true
  | .maxHinge => true
  | .uniHinge => true
  | .maxLogistic => true
  | .uniLogistic => true
  | _ => false

/-- `Loss::Type::HINGE`. -/
def isHinge : Loss.Kind → Bool
  | .hinge => true
  | .maxHinge => true
  | .uniHinge => true
  | _ => false

/-- `Loss::Type::BOOL`. -/
def isBool : Loss.Kind → Bool
  | .bool => true
  | .maxBool => true
  | .uniBool => true
  | _ => false

/-- The registered names of the losses (`RegisterLoss`). -/
def lossName : Loss.Kind → String
  | .bool => "bool"
  | .maxBool => "maxscore-bool"
  | .uniBool => "uniform-bool"
  | .hinge => "hinge"
  | .maxHinge => "maxscore-hinge"
  | .uniHinge => "uniform-hinge"
  | .logistic => "logistic"
  | .maxLogistic => "maxscore-logistic"
  | .uniLogistic => "uniform-logistic"
  | .square => "square"

/-- All losses. -/
def losses : List Loss.Kind :=
  [.bool, .maxBool, .uniBool, .hinge, .maxHinge, .uniHinge, .logistic, .maxLogistic, .uniLogistic, .square]

/-- `Loss::Create`; `none` for the null pointer. -/
def lossNamed (v : List Char) : Option Loss.Kind := losses.find? fun k => (lossName k).toList == v.map Char.toLower

/-- The registered names of the models (`RegisterModel`). -/
def modelName : Cls → String
  | .perceptron => "perceptron"
  | .ogd => "ogd"
  | .stg => "stg"
  | .fobosL1 => "fobos-l1"
  | .pet => "pet"
  | .pa => "pa"
  | .pa1 => "pa1"
  | .pa2 => "pa2"
  | .alma2 => "alma2"
  | .arow => "arow"
  | .sofs => "sofs"
  | .cw => "cw"
  | .eccw => "eccw"
  | .rda => "rda"
  | .rdaL1 => "rda-l1"
  | .erdaL1 => "erda-l1"
  | .sop => "sop"
  | .adaFobos => "ada-fobos"
  | .adaFobosL1 => "ada-fobos-l1"
  | .adaFobosOfs => "adafobos-ofs"
  | .adaRda => "ada-rda"
  | .adaRdaL1 => "ada-rda-l1"
  | .adaRdaOfs => "adarda-ofs"
  | .fofs => "fofs"

/-- `regularizer_->SetParameter(name, value)` (regularizer.cc:18-27, 34-42, 56-65); `none` for a status other than `Status_OK`. -/
def regSet (m : M) (name : String) (v : List Char) : Option (M × End) :=
  if name = "lambda" then
    if regOf m.cls = .none then none else some (num m v fun x => ({ m with lambda := x }, .accepted))
  else if name = "sparse_thresh" then
    if regOf m.cls = .l1 ∨ regOf m.cls = .lazyL1 then some (num m v fun x => ({ m with thresh := x }, .accepted)) else none
  else if name = "t0" then
    if regOf m.cls = .lazyL1 then
      some (num m v fun x => ({ m with t0 := x, lastTime := m.lastTime.map fun _ => x }, .accepted))
    else none
  else none

/-- `stoi(value, &sz)` of the branch for "norm" (model.cc:79-89): the number if all of the text was read, -1 for no number;
    `none` for an exception other than `invalid_argument`. -/
def normVal (v : List Char) : Option Int :=
  match stoi v with
  | .ok (n, rest) => some (if rest = [] ∨ rest.head? = some '\x00' then n else -1)
  | .error .invalidArgument => some (-1)
  | .error _ => none

/-- `Model::SetParameter` (model.cc:55-115); `files` gives the content of the files that can be opened. -/
def modelSet (files : List Char → Option (List Char)) (m : M) (name : String) (v : List Char) : M × End :=
  if name = "model" then check (decide (v = (modelName m.cls).toList)) m
  else if name = "cls_num" then int m v fun n => check (decide (n = m.classNum)) m
  else if name = "clf_num" then int m v fun n => check (decide (n = m.clf)) m
  else if name = "loss" then
    match lossNamed v with
    | none => ({ m with loss := none, hinge := false }, .rejected)
    | some k =>
      if (if m.clf = 1 then isBC k else isMC k) then ({ m with loss := some k, hinge := false, reinit := true }, .accepted)
      else ({ m with loss := some k, hinge := false }, .rejected)
  else if name = "norm" then
    match normVal v with
    | none => (m, .thrown)
    | some n =>
      if v = "None".toList ∨ n = 0 then ({ m with norm := .none }, .accepted)
      else if v = "L1".toList ∨ n = 1 then ({ m with norm := .l1 }, .accepted)
      else if v = "L2".toList ∨ n = 2 then ({ m with norm := .l2 }, .accepted)
      else (m, .rejected)
  else if name = "filter" then
    match loadPreSel (files v) with
    | .ub k => (m, .undef k)
    | .ok (.ok, s) => ({ m with sel := s }, .accepted)
    | .ok (.threw e, s) => ({ m with sel := s }, endOf e)
    | .ok (_, s) => ({ m with sel := s }, .rejected)
  else
    match regSet m name v with
    | some r => r
    | none => (m, .rejected)

/-- New elements of a vector that grows. -/
def growTo (n : Nat) (x : F32) (w : List F32) : List F32 := w ++ List.replicate (n - w.length) x

/-- The value of new elements of `H_` and `Sigmas_` (ada_fobos.cc:58-68, ada_rda.cc:77-90, arow.cc:77-87, cw.cc:106-117,
    eccw.cc:111-122). -/
def newScale (m : M) : F32 :=
  match m.cls with
  | .arow => 1
  | .sofs => 1
  | .cw => m.a
  | .eccw => m.a
  | _ => m.delta

/-- `update_dim` (online_linear_model.cc:129-138, online_model.h:76 and the classes' own). -/
def updateDim (m : M) (n : Nat) : M :=
  if m.dim < n then
    { m with dim := n, w := m.w.map (growTo n 0), scale := m.scale.map (growTo n (newScale m)), sum := m.sum.map (growTo n 0),
             X := if m.X = [] then [] else growTo n 0 m.X }
  else m

/-- `OnlineModel::SetParameter` (online_model.cc:81-117). -/
def onlineSet (files : List Char → Option (List Char)) (m : M) (name : String) (v : List Char) : M × End :=
  if name = "bias_eta" then num m v fun x => check ((0 : F32) ≤? x) { m with biasEta := x }
  else if name = "t" then
    int m v fun n =>
      if 0 ≤ n then
        -- the result of `regularizer_->SetParameter` is not looked at
        match regSet { m with initialT := n, t := n } "t0" v with
        | some r => r
        | none => ({ m with initialT := n, t := n }, .accepted)
      else (m, .rejected)
  else if name = "dim" then int m v fun n => (updateDim m (n % 4294967296).toNat, .accepted)
  else if name = "lazy_update" then ({ m with lazy := decide (v = "true".toList) }, .accepted)
  else if name = "active_smoothness" then num m v fun x => check ((0 : F32) <? x) { m with smooth := x }
  else if name = "cost_margin" then
    if m.clf ≠ 1 then (m, .rejected)
    else
      num m v fun x =>
        if (0 : F32) <? x then ({ m with cost := x, costSensitive := true, reinit := true }, .accepted)
        else ({ m with cost := x }, .rejected)
  else if name = "exp_show" then int { m with disp := none } v fun n => ({ m with disp := some (.exp n) }, .accepted)
  else if name = "step_show" then int { m with disp := none } v fun n => ({ m with disp := some (.step n) }, .accepted)
  else modelSet files m name v

/-- The branch "loss" of the classes that admit hinge losses only (arow.cc:39-43, alma2.cc:52-57, cw.cc:47-52, eccw.cc:48-53). -/
def hingeLoss (files : List Char → Option (List Char)) (m : M) (v : List Char) (keep : Bool) : M × End :=
  andThen (onlineSet files m "loss" v) fun m =>
    if m.loss.any isHinge then ({ m with hinge := keep }, .accepted) else (m, .rejected)

/-- The branch "loss" of the classes that admit bool losses only (perceptron.cc:27-31, sop.cc:38-42). -/
def boolLoss (files : List Char → Option (List Char)) (m : M) (v : List Char) : M × End :=
  andThen (onlineSet files m "loss" v) fun m => if m.loss.any isBool then (m, .accepted) else (m, .rejected)

/-- `this->H_[c] = x` and `this->Sigmas_[c] = x` for all classes. -/
def fill (x : F32) (vs : List (List F32)) : List (List F32) := vs.map fun v => v.map fun _ => x

/-- `OGD::SetParameter` (ogd.cc:23-32, 59-70). -/
def ogdSet (files : List Char → Option (List Char)) (m : M) (name : String) (v : List Char) : M × End :=
  if name = "power_t" then num m v fun x => if (0 : F32) ≤? x then ({ m with powerT := x }, .accepted) else (m, .rejected)
  else if name = "eta" then num m v fun x => check ((0 : F32) ≤? x) { m with eta := x }
  else onlineSet files m name v

/-- `STG::SetParameter` (ogd.cc:76-83). -/
def stgSet (files : List Char → Option (List Char)) (m : M) (name : String) (v : List Char) : M × End :=
  if name = "k" then int m v fun n => check (decide (0 < n)) { m with k := n }
  else ogdSet files m name v

/-- `PAI::SetParameter`, `PAII::SetParameter` (pa.cc:34-40, 60-66). -/
def paSet (files : List Char → Option (List Char)) (m : M) (name : String) (v : List Char) : M × End :=
  if name = "C" then num m v fun x => ({ m with C := x }, .accepted)
  else onlineSet files m name v

/-- `ALMA2::SetParameter` (alma2.cc:35-64). -/
def almaSet (files : List Char → Option (List Char)) (m : M) (name : String) (v : List Char) : M × End :=
  if name = "p" then
    int m v fun n =>
      -- `p_ - 1` (alma2.cc:38)
      if n = -2147483648 then ({ m with p := n }, .undef .signedOverflow) else ({ m with p := n, reinit := true }, .accepted)
  else if name = "alpha" then
    num m v fun x =>
      if (0 : F32) <? x && x ≤? (1 : F32) then ({ m with alpha := x, reinit := true }, .accepted)
      else ({ m with alpha := x }, .rejected)
  else if name = "C" then num m v fun x => ({ m with C := x }, .accepted)
  else if name = "k" then
    int m v fun n => if 0 < n then ({ m with k := n, reinit := true }, .accepted) else ({ m with k := n }, .rejected)
  else if name = "loss" then hingeLoss files m v true
  else if name = "norm" then andThen (onlineSet files m name v) fun m => check (decide (m.norm = .l2)) m
  else onlineSet files m name v

/-- `AROW::SetParameter` (arow.cc:36-47). -/
def arowSet (files : List Char → Option (List Char)) (m : M) (name : String) (v : List Char) : M × End :=
  if name = "r" then num m v fun x => ({ m with r := x }, .accepted)
  else if name = "loss" then hingeLoss files m v false
  else onlineSet files m name v

/-- `CW::SetParameter`, `ECCW::SetParameter` (cw.cc:38-59, eccw.cc:39-60). -/
def cwSet (files : List Char → Option (List Char)) (m : M) (name : String) (v : List Char) : M × End :=
  if name = "a" then num m v fun x => ({ m with a := x, scale := fill x m.scale }, .accepted)
  else if name = "phi" then num m v fun x => ({ m with phi := x, reinit := true }, .accepted)
  else if name = "loss" then hingeLoss files m v true
  else if name = "bias_eta" then
    andThen (onlineSet files m name v) fun m => ({ m with reinit := true }, .accepted)
  else onlineSet files m name v

/-- `RDA::SetParameter` (rda.cc:30-37). -/
def rdaSet (files : List Char → Option (List Char)) (m : M) (name : String) (v : List Char) : M × End :=
  if name = "sigma" then num m v fun x => check ((0 : F32) <? x) { m with sigma := x }
  else onlineSet files m name v

/-- `ERDA_L1::SetParameter` (rda.cc:140-147). -/
def erdaSet (files : List Char → Option (List Char)) (m : M) (name : String) (v : List Char) : M × End :=
  if name = "rou" then num m v fun x => check ((0 : F32) ≤? x) { m with rou := x }
  else rdaSet files m name v

/-- `SOP::SetParameter` (sop.cc:35-46). -/
def sopSet (files : List Char → Option (List Char)) (m : M) (name : String) (v : List Char) : M × End :=
  if name = "a" then num m v fun x => ({ m with a := x }, .accepted)
  else if name = "loss" then boolLoss files m v
  else onlineSet files m name v

/-- `Perceptron::SetParameter` (perceptron.cc:25-35). -/
def perceptronSet (files : List Char → Option (List Char)) (m : M) (name : String) (v : List Char) : M × End :=
  if name = "loss" then boolLoss files m v
  else onlineSet files m name v

/-- `AdaFOBOS::SetParameter`, `AdaRDA::SetParameter` (ada_fobos.cc:30-41, ada_rda.cc:37-48). -/
def adaSet (files : List Char → Option (List Char)) (m : M) (name : String) (v : List Char) : M × End :=
  if name = "delta" then
    num m v fun x =>
      if (0 : F32) <? x then ({ m with delta := x, scale := fill x m.scale }, .accepted) else ({ m with delta := x }, .rejected)
  else if name = "eta" then num m v fun x => check ((0 : F32) ≤? x) { m with eta := x }
  else onlineSet files m name v

/-- `FOFS::SetParameter` (fofs.cc:19-32). -/
def fofsSet (files : List Char → Option (List Char)) (m : M) (name : String) (v : List Char) : M × End :=
  if name = "eta" then num m v fun x => check ((0 : F32) ≤? x) { m with eta := x }
  else if name = "lambda" then num m v fun x => check ((0 : F32) ≤? x) { m with fofsLambda := x }
  else if name = "B" then
    int m v fun n => check (decide (0 < (n % 4294967296).toNat)) { m with fofsB := (n % 4294967296).toNat }
  else onlineSet files m name v

/-- The name "B" of the classes whose regularizer weight is a number of features (ogd.cc:176-182, arow.cc:129-135,
    ada_fobos.cc:144-150, ada_rda.cc:170-176). -/
def ofB (name : String) : String := if name = "B" then "lambda" else name

/-- `SetParameter` of every class. -/
def set (files : List Char → Option (List Char)) (m : M) (name : String) (v : List Char) : M × End :=
  match m.cls with
  | .perceptron => perceptronSet files m name v
  | .ogd => ogdSet files m name v
  | .stg => stgSet files m name v
  | .fobosL1 => ogdSet files m name v
  | .pet => ogdSet files m (ofB name) v
  | .pa => onlineSet files m name v
  | .pa1 => paSet files m name v
  | .pa2 => paSet files m name v
  | .alma2 => almaSet files m name v
  | .arow => arowSet files m name v
  | .sofs => arowSet files m (ofB name) v
  | .cw => cwSet files m name v
  | .eccw => cwSet files m name v
  | .rda => rdaSet files m name v
  | .rdaL1 => rdaSet files m name v
  | .erdaL1 => erdaSet files m name v
  | .sop => sopSet files m name v
  | .adaFobos => adaSet files m name v
  | .adaFobosL1 => adaSet files m name v
  | .adaFobosOfs => adaSet files m (ofB name) v
  | .adaRda => adaSet files m name v
  | .adaRdaL1 => adaSet files m name v
  | .adaRdaOfs => adaSet files m (ofB name) v
  | .fofs => fofsSet files m name v

/-- The loss of a new model (online_linear_model.cc:37-41 and the constructors of Perceptron, SOP, ALMA2, CW and ECCW). -/
def newLoss (c : Cls) (multi : Bool) : Loss.Kind :=
  match c with
  | .perceptron => if multi then .maxBool else .bool
  | .sop => if multi then .maxBool else .bool
  | _ => if multi then .maxHinge else .hinge

/-- Whether the class has `H_` or `Sigmas_`. -/
def hasScale : Cls → Bool
  | .arow => true
  | .sofs => true
  | .cw => true
  | .eccw => true
  | .adaFobos => true
  | .adaFobosL1 => true
  | .adaFobosOfs => true
  | .adaRda => true
  | .adaRdaL1 => true
  | .adaRdaOfs => true
  | _ => false

/-- Whether the class has `ut_` or `v_`. -/
def hasSum : Cls → Bool
  | .rda => true
  | .rdaL1 => true
  | .erdaL1 => true
  | .adaRda => true
  | .adaRdaL1 => true
  | .adaRdaOfs => true
  | .sop => true
  | _ => false

/-- `hinge_base_` is set by the constructor. -/
def hasHinge : Cls → Bool
  | .alma2 => true
  | .cw => true
  | .eccw => true
  | _ => false

/-- The first element of `H_` or `Sigmas_`. -/
def firstScale : Cls → F32
  | .arow => .fin 1
  | .sofs => .fin 1
  | .cw => .fin 1
  | .eccw => .fin 1
  | _ => .fin 10

/-- The number of weight vectors. -/
def vectors (classNum : Int) : Nat := if classNum = 2 then 1 else classNum.toNat

/-- A new model (the constructors: model.cc:39-51, online_model.cc:60-77, online_linear_model.cc:24-42, olm/*.cc).  Variables that
    are not initialised (`cost_margin_`) are 0. -/
def fresh (c : Cls) (classNum : Int) : M where
  cls := c
  classNum := classNum
  loss := some (newLoss c (decide (classNum ≠ 2)))
  hinge := hasHinge c
  norm := if c = .alma2 then .l2 else .none
  sel := Sel.none
  reinit := true
  biasEta := 0
  initialT := 0
  t := 0
  dim := 1
  lazy := false
  smooth := 0
  cost := 0
  costSensitive := false
  disp := some (.exp 2)
  lambda := 0
  thresh := F32.round (1 / 1000000)
  t0 := 0
  lastTime := [0]
  eta := 1
  powerT := F32.round (1 / 2)
  delta := .fin 10
  p := 2
  alpha := F32.round (9 / 10)
  C := if c = .alma2 then F32.sqrt (.fin 2) else 1
  k := 1
  r := 1
  a := 1
  phi := F32.round (5244 / 10000)
  sigma := 1
  rou := 0
  fofsLambda := 0
  fofsB := 0
  w := List.replicate (vectors classNum) [0]
  scale := if hasScale c then List.replicate (vectors classNum) [firstScale c] else []
  sum := if hasSum c then List.replicate (vectors classNum) [0] else []
  X := if c = .sop then [0] else []

/-- `Model::Create` for a known class (model.cc:26-37); `none` if `Check(class_num > 1)` fails. -/
def create (c : Cls) (classNum : Int) : Option M := if 1 < classNum then some (fresh c classNum) else none

end Sol.Params
