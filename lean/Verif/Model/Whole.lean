import Verif.Model.DataFile
import Verif.Model.DataIter
import Verif.Model.LoadText
import Verif.Model.Select
import Verif.Model.Train
/-!
# Model of `sol_train` and `sol_test` from the command line to the files they write

The command line (Model/Cli.lean), the data file (Model/DataFile.lean), the data iterator (Model/DataIter.lean), the settings
(Model/Params.lean), the training algorithms (Model/Olm.lean, Model/Select.lean), the loops over the data (Model/Train.lean) and the
model file (Model/LoadText.lean) are put together.  `powf` is the library function, `ρ` the sequence of random numbers of active
learning, `d` the progress display (it only prints, see `C61_plain` and `C62_reports`).
Simplifications: those of the parts; the start time `t0` of the lazy regularizers is taken down to a whole number (Model/Olm.lean
keeps times as integers); what is printed is left out; the data file is the same at every pass and is not the file that `sol_test`
writes (which is emptied before the data are read, sol_test.cc:75-76).
-/

namespace Sol.Whole
open Sol.Params Sol.Online Sol.Olm Sol.Select Sol.Loss Sol.Sparse

variable [FFun F32]

/-- What a class adds to `OnlineLinearModel`: what it overrides, its own state before training, `BeginTrain` after that of
    `OnlineModel`, and what is kept of its own state. -/
structure Kit (A : Type) where
  G : Alg F32 A
  first : A
  begin : Cfg F32 → St F32 A → Res (St F32 A)
  last : A → M → M

/-- `static_cast<index_t>(lambda)` (ogd.cc:186, arow.cc:139, ada_fobos.cc:154, ada_rda.cc:180). -/
def budget : F32 → Res Nat
  | .fin q => if -1 < q ∧ q < 4294967296 then .ok ⌊q⌋.toNat else .ub .badCast
  | _ => .ub .badCast

/-- `pow_(iter, power_t_)` (ogd.cc:51-70). -/
def powOf (powf : F32 → F32 → F32) (powerT : F32) (iter : Int) : F32 :=
  if powerT =? 0 then 1
  else if powerT =? F32.round (1 / 2) then FSqrt.sqrt ((iter : Int) : F32)
  else if powerT =? 1 then ((iter : Int) : F32)
  else powf ((iter : Int) : F32) powerT

/-- A time stamp kept as `real_t`. -/
def timeOf : F32 → Int
  | .fin q => ⌊q⌋
  | _ => 0

/-- `real_t(1e-20)`. -/
def eps : F32 := F32.round (1 / 10 ^ 20)

/-- `eta_coeff_` (pa.cc:17-19). -/
def coeffOf (classNum : Int) : F32 := if classNum = 2 then 1 else 1 + 1

/-- A class without own state. -/
def bare (G : Alg F32 Unit) : Kit Unit := ⟨G, (), fun _ s => .ok s, fun _ m => m⟩

/-- A class with `Sigmas_` or `H_`. -/
def scaled (G : Alg F32 (List (List F32))) (m : M) : Kit (List (List F32)) :=
  ⟨G, m.scale, fun _ s => .ok s, fun a m => { m with scale := a }⟩

/-- A class with `ut_`. -/
def summed (G : Alg F32 (List (List F32))) (m : M) : Kit (List (List F32)) :=
  ⟨G, m.sum, fun _ s => .ok s, fun a m => { m with sum := a }⟩

/-- AdaRDA and AdaRDA_L1. -/
def adaKit (G : Alg F32 (AdaRdaSt F32)) (m : M) : Kit (AdaRdaSt F32) :=
  ⟨G, ⟨m.scale, m.sum⟩, fun _ s => .ok s, fun a m => { m with scale := a.H, sum := a.ut }⟩

/-- `BeginTrain` of a class that stores a pointer to its hinge loss (alma2.cc:66-70, cw.cc:61-82, eccw.cc:62-83). -/
def needHinge {A : Type} (hinge : Bool) (f : St F32 A → St F32 A) (_ : Cfg F32) (s : St F32 A) : Res (St F32 A) :=
  if hinge then .ok (f s) else .ub .nullDeref

/-- An empty heap (heap.h:26). -/
def noHeap : Heap.State := ⟨0, 0, [], []⟩

/-- A kit of some class. -/
abbrev AnyKit := Σ A : Type, Kit A

/-- PET with the budget `B` (ogd.cc:172-241); without one it is OGD. -/
def petKit (eta0 : F32) (pow : Int → F32) (B : Nat) : AnyKit :=
  if B = 0 then ⟨Unit, bare (ogd eta0 pow)⟩
  else ⟨PetSt F32, pet eta0 pow B, ⟨[], noHeap⟩, fun _ s => petBegin (pet eta0 pow B) B s, fun _ m => m⟩

/-- SOFS with the budget `B` (arow.cc:115-251); without one it is AROW. -/
def sofsKit (m : M) (clf B : Nat) : AnyKit :=
  if B = 0 then ⟨_, scaled (arow m.r) m⟩
  else ⟨OfsSt F32, sofs m.r B clf, ⟨m.scale, [], noHeap⟩, fun c s => ofsBegin more (sofs m.r B clf) c B s,
    fun a m => { m with scale := a.sig }⟩

/-- AdaFOBOS_OFS with the budget `B` (ada_fobos.cc:130-257); without one it is AdaFOBOS. -/
def adaFobosOfsKit (m : M) (clf B : Nat) : AnyKit :=
  if B = 0 then ⟨_, scaled (adaFobos m.delta) m⟩
  else ⟨OfsSt F32, adaFobosOfs m.delta B clf, ⟨m.scale, [], noHeap⟩, fun c s => ofsBegin less (adaFobosOfs m.delta B clf) c B s,
    fun a m => { m with scale := a.sig }⟩

/-- AdaRDA_OFS with the budget `B` (ada_rda.cc:156-310); without one it is AdaRDA. -/
def adaRdaOfsKit (m : M) (clf B : Nat) : AnyKit :=
  if B = 0 then ⟨_, adaKit (adaRda m.delta) m⟩
  else ⟨RdaOfsSt F32, adaRdaOfs m.delta B clf, ⟨⟨m.scale, [], noHeap⟩, m.sum⟩,
    fun c s => adaRdaOfsBegin (adaRdaOfs m.delta B clf) c B s, fun a m => { m with scale := a.ofs.sig, sum := a.ut }⟩

/-- The algorithm of every class with the parameters of the model.  `p_ - 1` does not overflow (see `almaSet`); `bias_eta()` is
    taken at `BeginTrain`, where `eta_` is 1 (cw.cc:65, eccw.cc:66). -/
def kitOf (powf : F32 → F32 → F32) (m : M) : Res AnyKit :=
  let clf := vectors m.classNum
  let pow := powOf powf m.powerT
  match m.cls with
  | .perceptron => .ok ⟨_, bare perceptron⟩
  | .ogd => .ok ⟨_, bare (ogd m.eta pow)⟩
  | .stg => .ok ⟨List Int, stg m.eta pow m.k m.lambda m.thresh m.initialT, [],
      -- ogd.cc:85-89
      fun _ s => .ok { s with alg := List.replicate s.dim m.initialT }, fun _ m => m⟩
  | .fobosL1 => .ok ⟨List Int, fobosL1 m.eta pow m.lambda m.thresh (timeOf m.t0), m.lastTime.map timeOf, fun _ s => .ok s,
      fun a m => { m with lastTime := a.map fun t => ((t : Int) : F32) }⟩
  | .pet => (budget m.lambda).bind fun B => .ok (petKit m.eta pow B)
  | .pa => .ok ⟨_, bare (pa (coeffOf m.classNum))⟩
  | .pa1 => .ok ⟨_, bare (pa1 m.C (coeffOf m.classNum))⟩
  | .pa2 => .ok ⟨_, bare (pa2 m.C (coeffOf m.classNum))⟩
  | .alma2 =>
    let sqp1 : F32 := FSqrt.sqrt ((m.p - 1 : Int) : F32)
    .ok ⟨Int, alma2 m.C m.alpha sqp1, m.k, needHinge m.hinge fun s => { s with margin := almaMargin m.alpha sqp1 m.k },
      fun k m => { m with k := k }⟩
  | .arow => .ok ⟨_, scaled (arow m.r) m⟩
  | .sofs => (budget m.lambda).bind fun B => .ok (sofsKit m clf B)
  | .cw => .ok ⟨_, { scaled (cw m.a m.phi (!(m.biasEta * 1 =? 0))) m with begin := needHinge m.hinge id }⟩
  | .eccw => .ok ⟨_, { scaled (eccw m.a m.phi (!(m.biasEta * 1 =? 0))) m with begin := needHinge m.hinge id }⟩
  | .rda => .ok ⟨_, summed (rda m.sigma eps) m⟩
  | .rdaL1 => .ok ⟨_, summed (rdaL1 m.sigma eps m.lambda m.thresh) m⟩
  | .erdaL1 => .ok ⟨_, summed (erdaL1 m.sigma eps m.lambda m.rou m.thresh) m⟩
  | .sop => .ok ⟨SopSt F32, sop m.a, ⟨m.X, m.sum⟩, fun _ s => .ok s, fun a m => { m with X := a.X, sum := a.v }⟩
  | .adaFobos => .ok ⟨_, scaled (adaFobos m.delta) m⟩
  | .adaFobosL1 => .ok ⟨AdaL1 F32, adaFobosL1 m.delta m.lambda m.thresh (timeOf m.t0), ⟨m.scale, m.lastTime.map timeOf⟩,
      fun _ s => .ok s, fun a m => { m with scale := a.H, lastTime := a.last.map fun t => ((t : Int) : F32) }⟩
  | .adaFobosOfs => (budget m.lambda).bind fun B => .ok (adaFobosOfsKit m clf B)
  | .adaRda => .ok ⟨_, adaKit (adaRda m.delta) m⟩
  | .adaRdaL1 => .ok ⟨_, adaKit (adaRdaL1 m.delta m.lambda m.thresh) m⟩
  | .adaRdaOfs => (budget m.lambda).bind fun B => .ok (adaRdaOfsKit m clf B)
  | .fofs =>
    -- fofs.cc:36-37
    let G := fofs (1 / FSqrt.sqrt m.fofsLambda) (1 - m.fofsLambda * m.eta) m.fofsB
    .ok ⟨PetSt F32, G, ⟨[], noHeap⟩, fun _ s => petBegin G m.fofsB s, fun _ m => m⟩

/-- The settings that the training loop looks at. -/
def cfgOf (m : M) (k : Kind) : Cfg F32 :=
  ⟨vectors m.classNum, k, m.biasEta, m.lazy, m.smooth, if m.costSensitive then some m.cost else none⟩

/-- `eta_` is the parameter `eta` of these classes; the others have `eta0_` or none. -/
def etaIsParam : Cls → Bool
  | .adaFobos => true
  | .adaFobosL1 => true
  | .adaFobosOfs => true
  | .adaRda => true
  | .adaRdaL1 => true
  | .adaRdaOfs => true
  | .fofs => true
  | _ => false

/-- The state of a model that has not been trained since it was created or loaded (online_model.cc:60-77,
    online_linear_model.cc:24-42, hinge_loss.cc:17). -/
def startSt {A : Type} (m : M) (a : A) : St F32 A :=
  ⟨m.dim, m.w, List.replicate (vectors m.classNum) 0, if etaIsParam m.cls then m.eta else 1, 1, 0, m.t, 0, 0, 0, false, a⟩

/-- `OnlineModel::BeginTrain` and `Model::BeginTrain` (online_model.cc:119-130, model.cc:153-158); `false`: an `invalid_argument`,
    which `Train` catches (online_model.cc:135-141). -/
def beginTrain (m : M) : Res Bool :=
  match m.loss with
  | none => if m.costSensitive then .ub .nullDeref else .ub .exception
  | some k => .ok (!m.costSensitive || (isHinge k && isBC k))

/-- `Train` on the batches `bs`, and `EndTrain`, which `model_sparsity` calls (online_model.cc:132-192,
    online_linear_model.cc:140-150), with the given algorithm. -/
def trainKit (ρ : Nat → F32) (d : Train.Disp) (m : M) (k : Kind) {A : Type} (K : Kit A) (bs : List (List (Ex F32))) : Res M := do
  let c := cfgOf m k
  let s ← K.begin c (startSt m K.first)
  let r ← Train.train K.G c ⟨m.sel, m.norm⟩ ρ s d bs
  let s ← K.G.endTrain c r.1
  .ok (K.last s.alg { m with dim := s.dim, w := s.w, t := s.t, reinit := false })

/-- The model that `sol_train` saves (sol_train.cc:89-97) after training a model that was just created or loaded. -/
def trainModel (powf : F32 → F32 → F32) (ρ : Nat → F32) (d : Train.Disp) (m : M) (bs : List (List (Ex F32))) : Res M :=
  match m.loss with
  | none => (beginTrain m).bind fun _ => .ok m
  | some k =>
    (beginTrain m).bind fun go =>
      if go then (kitOf powf m).bind fun K => trainKit ρ d m k K.2 bs else .ok m

/-- A line of the predictions (model.cc:140-144). -/
def rowText (r : Train.Row F32) : List Char :=
  showInt r.label ++ '\t' :: (showInt r.pred ++ (r.scores.flatMap (fun v => '\t' :: FloatText.put v) ++ ['\n']))

/-- The file of predictions (model.cc:123-125, 139-145). -/
def predText (rows : List (Train.Row F32)) : List Char := "label\tpredict\tscores\n".toList ++ rows.flatMap rowText

/-- `Model::Test` of a loaded model (model.cc:117-151): the lines and the error rate.  The loss is not looked at. -/
def testModel (m : M) (bs : List (List (Ex F32))) : Res (List (Train.Row F32) × F32) := do
  let r ← Train.testBatches (cfgOf m .hinge) ⟨m.sel, m.norm⟩ (startSt m ()) (0, 0, []) bs
  .ok (r.2.2, ((r.1 : Int) : F32) / ((r.2.1 : Int) : F32))

/-! ### The executables -/

/-- The files and the model loader of a machine.  `load` is `Model::Load` of the file (Model/LoadText.lean). -/
structure World where
  reads : List Char → Option DataFile.File
  writes : List Char → Bool
  load : List Char → Loaded

/-- Files of selected features. -/
def World.files (W : World) (p : List Char) : Option (List Char) := (W.reads p).map DataFile.chars

/-- What the front ends ask the machine. -/
def World.env (W : World) : Cli.Env where
  load := W.load
  files := W.files
  opens p fmt := match DataFile.addReader fmt (W.reads p) with
    | .ok (some _) => true
    | _ => false
  writes := W.writes

/-- How a run of an executable ends: the exit code and the files written, or not at all. -/
inductive End where
  | exit (code : Int) (out : List (List Char × DataFile.File))
  | thrown
  | undef (k : UB)
  | hangs
deriving DecidableEq, Repr

/-- A data point as an example. -/
def exOf (p : DataFile.Point) : Ex F32 := ⟨p.label, p.feats.map fun f => (f.1.toNat, f.2)⟩

/-- An outcome that is not a result. -/
def failed : UB → End
  | .exception => .thrown
  | k => .undef k

/-- The files a job writes. -/
def outFiles (j : Cli.Job) (wrote : Bool) (text : List Char) : List (List Char × DataFile.File) :=
  match j.out with
  | some p => if wrote then [(p, DataFile.ofChars text)] else []
  | none => []

/-- The batches that the iterator hands out for the job, in some interleaving of the threads: `j.passes` passes over the file;
    a read error ends the reading.  Without passes nothing is read (data_read_task.cc:33). -/
inductive Delivers (pw : Int → F32) (W : World) (j : Cli.Job) : Res (List (List (Ex F32))) → Prop
  | idle (hp : j.passes ≤ 0) : Delivers pw W j (.ok [])
  | points {o : DataFile.Opened} {pts : List DataFile.Point} {st : Status} {i : DataIter.State DataFile.Point} (hp : 0 < j.passes)
      (ho : DataFile.addReader j.format (W.reads j.path) = .ok (some o)) (hc : DataFile.contents pw o = .ok (pts, st))
      (hi : DataIter.IterReach j.batch.toNat j.buf.toNat [(pts, decide (st ≠ .endOfFile), j.passes.toNat)] i) (he : i.ended = true) :
      Delivers pw W j (.ok (i.delivered.map fun b => b.map exOf))
  | bad {o : DataFile.Opened} {k : UB} (hp : 0 < j.passes) (ho : DataFile.addReader j.format (W.reads j.path) = .ok (some o))
      (hc : DataFile.contents pw o = .ub k) : Delivers pw W j (.ub k)

/-- What happens after the front end: `work` is the text of the output file for the batches. -/
inductive Runs (pw : Int → F32) (W : World) (work : M → List (List (Ex F32)) → Res (List Char)) : Cli.Ran → End → Prop
  | exit {c : Int} : Runs pw W work (.exit c) (.exit c [])
  | thrown : Runs pw W work .thrown .thrown
  | undef {k : UB} : Runs pw W work (.undef k) (.undef k)
  | hangs : Runs pw W work .hangs .hangs
  | bad {j : Cli.Job} {wrote : Bool} {code : Int} {k : UB} (h : Delivers pw W j (.ub k)) : Runs pw W work (.done j wrote code) (failed k)
  | fails {j : Cli.Job} {wrote : Bool} {code : Int} {bs : List (List (Ex F32))} {k : UB} (h : Delivers pw W j (.ok bs))
      (hw : work j.model bs = .ub k) : Runs pw W work (.done j wrote code) (failed k)
  | done {j : Cli.Job} {wrote : Bool} {code : Int} {bs : List (List (Ex F32))} {text : List Char} (h : Delivers pw W j (.ok bs))
      (hw : work j.model bs = .ok text) : Runs pw W work (.done j wrote code) (.exit code (outFiles j wrote text))

/-- A run of `sol_train` with these arguments. -/
def SolTrain (pw : Int → F32) (powf : F32 → F32 → F32) (ρ : Nat → F32) (d : Train.Disp) (W : World) (argv : List (List Char)) (e : End) :
    Prop :=
  Runs pw W (fun m bs => (trainModel powf ρ d m bs).bind fun m => .ok (saveText m)) (Cli.trainMain W.env argv) e

/-- A run of `sol_test` with these arguments. -/
def SolTest (pw : Int → F32) (W : World) (argv : List (List Char)) (e : End) : Prop :=
  Runs pw W (fun m bs => (testModel m bs).bind fun r => .ok (predText r.1)) (Cli.testMain W.env argv) e

end Sol.Whole
