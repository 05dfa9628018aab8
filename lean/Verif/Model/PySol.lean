import Verif.Model.CApi
import Verif.Model.Cv
import Verif.Model.DataSet
import Verif.Model.Whole
/-!
# Model of the objects of the Python class `SOL` (python/pysol.pyx) that live on between calls

An object has one model and one data iterator; a call of `fit`, `score` or `predict` adds a file to the iterator and takes batches until
the null pointer comes.  The object may be trained several times: only the first time `BeginTrain` is called.

Simplifications: those of Model/Whole.lean; data in files only; the methods `set_params`, `get_params` and `load` are called before the
first training (Model/CApi.lean); `decision_function` is `predict` with other columns of the same rows; accuracies are given as error
rates (`1 - rate` in Python, exact in `float64` unless the rate is below 2^-29); undefined behaviour of a reader is attributed to
the call that adds the file; the files that are read are not those that `save` writes.
-/

namespace Sol.PySol
open Sol.Params Sol.Online Sol.Loss Sol.Whole

variable [FFun F32]

/-- A model in training: the settings and the vectors when training began, the algorithm, and what `Train` carries from example to
    example and from call to call. -/
structure Live where
  m : M
  k : Kind
  K : AnyKit
  loop : Train.Loop F32 K.1

/-- The model of an object. -/
inductive Obj where
  /-- not trained since it was created or loaded -/
  | new (m : M)
  | live (l : Live)

/-- The configuration of a model in training. -/
def Live.cfg (l : Live) : Cfg F32 := cfgOf l.m l.k

/-- The pre-processing of a model in training. -/
def Live.pre (l : Live) : Train.Pre := ⟨l.m.sel, l.m.norm⟩

/-- The first lines of `Train` (online_model.cc:133-142); `none`: `BeginTrain` throws `invalid_argument`. -/
def begin (powf : F32 → F32 → F32) (d : Train.Disp) : Obj → Res (Option Live)
  | .live l => .ok (some l)
  | .new m =>
    (beginTrain m).bind fun go =>
      match m.loss, go with
      | some k, true =>
        (kitOf powf m).bind fun K =>
          (K.2.begin (cfgOf m k) (startSt m K.2.first)).bind fun s => .ok (some ⟨m, k, K, ⟨s, d, [], 0⟩⟩)
      | _, _ => .ok none

/-- The rest of `Train` on these batches (online_model.cc:144-192): the model and the error rate. -/
def study (ρ : Nat → F32) (l : Live) (bs : List (List (Ex F32))) : Res (Live × F32) :=
  (Train.batches l.K.2.G l.cfg l.pre ρ l.loop bs).bind fun lp =>
    .ok ({ l with loop := { lp with s := { lp.s with fresh := true }, reports := lp.reports ++ [Train.report lp.s] } },
      (Train.report lp.s).rate)

/-- `if (model_updated_) EndTrain()` (model.cc:118, c_api.cc:119, online_linear_model.cc:141). -/
def settle : Obj → Res Obj
  | .new m => .ok (.new m)
  | .live l =>
    if l.loop.s.fresh then (l.K.2.G.endTrain l.cfg l.loop.s).bind fun s => .ok (.live { l with loop := { l.loop with s := s } })
    else .ok (.live l)

/-- The loop of `Test` (model.cc:127-150): errors, examples and rows.  The loss is not looked at. -/
def testAll : Obj → List (List (Ex F32)) → Res (Nat × Nat × List (Train.Row F32))
  | .new m, bs => Train.testBatches (cfgOf m .hinge) ⟨m.sel, m.norm⟩ (startSt m ()) (0, 0, []) bs
  | .live l, bs => Train.testBatches l.cfg l.pre l.loop.s (0, 0, []) bs

/-- The loop of `sol_Predict` (c_api.cc:121-137). -/
def predictAll : Obj → List (List (Ex F32)) → Res (List (Train.Row F32) × Nat)
  | .new m, bs => CApi.predictBatches (cfgOf m .hinge) ⟨m.sel, m.norm⟩ (startSt m ()) ([], 0) bs
  | .live l, bs => CApi.predictBatches l.cfg l.pre l.loop.s ([], 0) bs

/-- What `Save` sees of the model (model.cc:160-177): it does not call `EndTrain`. -/
def modelOf : Obj → M
  | .new m => m
  | .live l => l.K.2.last l.loop.s.alg { l.m with dim := l.loop.s.dim, w := l.loop.s.w, t := l.loop.s.t, reinit := false }

/-- The numbers of `model_sparsity` (online_linear_model.cc:142-149): weights that are not zero, without the biases, and all of them. -/
def countWeights (m : M) : Nat × Nat :=
  ((m.w.map fun w => ((w.drop 1).filter fun v => !(v =? 0)).length).sum, vectors m.classNum * (m.dim - 1))

/-- A call of a method. -/
inductive Op where
  | fit (path fmt : List Char) (passes : Int)
  | score (path fmt : List Char)
  | predict (path fmt : List Char)
  | sparsity
  | save (path : List Char)
deriving DecidableEq, Repr

/-- What a call returns. -/
inductive Ret where
  /-- `1 - x` -/
  | rate (x : F32)
  | rows (l : List (Train.Row F32))
  | weights (nonzero all : Nat)
  /-- the file that was written -/
  | saved (f : DataFile.File)
  /-- `save` does not tell that the file could not be opened (pysol.pyx:307) -/
  | unsaved
  /-- `RuntimeError` (pysol.pyx:189) -/
  | raises
deriving DecidableEq, Repr

/-- The file of a call, its type and the number of passes. -/
def Op.source : Op → Option (List Char × List Char × Int)
  | .fit p f n => some (p, f, n)
  | .score p f => some (p, f, 1)
  | .predict p f => some (p, f, 1)
  | .sparsity => none
  | .save _ => none

/-- An object of the class: the model and the data iterator. -/
structure Py where
  obj : Obj
  iter : DataIter.State DataFile.Point

/-- A new object (pysol.pyx:81, data_iter.cc:16-26); the sizes are positive. -/
def Py.start (m : M) (size num : Nat) : Py := ⟨.new m, DataIter.start size num []⟩

/-- `__load_data` (pysol.pyx:160-161, 188-189, c_api.cc:38-42, data_iter.cc:65-78); `none`: the file cannot be opened.  Without passes
    nothing is read. -/
def load (pw : Int → F32) (W : World) (path fmt : List Char) (passes : Int) (i : DataIter.State DataFile.Point) :
    Res (Option (DataIter.State DataFile.Point)) :=
  (DataFile.addReader fmt (W.reads path)).bind fun
    | none => .ok none
    | some o =>
      if passes ≤ 0 then .ok (some { i with rd := i.rd ++ [DataIter.newReader ([], false, 0)], ended := false })
      else (DataFile.contents pw o).bind fun r =>
        .ok (some { i with rd := i.rd ++ [DataIter.newReader (r.1, decide (r.2 ≠ .endOfFile), passes.toNat)], ended := false })

/-- `Next` is called until it returns null; meanwhile the reading threads do something. -/
def Drains (i i' : DataIter.State DataFile.Point) : Prop :=
  Relation.ReflTransGen DataIter.Step i i' ∧ i'.ended = true ∧ i'.cpc = .idle

/-- The batches that came meanwhile. -/
def batchesFrom (i i' : DataIter.State DataFile.Point) : List (List (Ex F32)) :=
  (i'.delivered.drop i.delivered.length).map fun b => b.map exOf

/-- What `fit`, `score` and `predict` do with the batches. -/
def treat (ρ : Nat → F32) : Op → Obj → List (List (Ex F32)) → Res (Obj × Ret)
  | .fit _ _ _, .live l, bs => (study ρ l bs).bind fun r => .ok (.live r.1, .rate r.2)
  | .score _ _, o, bs =>
    (testAll o bs).bind fun r => .ok (o, .rate (((r.1 : Int) : F32) / ((r.2.1 : Int) : F32)))
  | .predict _ _, o, bs => (predictAll o bs).bind fun r => .ok (o, .rows r.1)
  | _, o, _ => .ok (o, .raises)

/-- What comes before the data are looked at: `none`, the data stay where they are (online_model.cc:138-141). -/
def ready (powf : F32 → F32 → F32) (d : Train.Disp) : Op → Obj → Res (Option Obj)
  | .fit _ _ _, o => (begin powf d o).bind fun r => .ok (r.map .live)
  | _, o => (settle o).bind fun o => .ok (some o)

/-- One call of a method (pysol.pyx:106-110, 191-231, 269-307), in some interleaving of the threads. -/
inductive Call (pw : Int → F32) (powf : F32 → F32 → F32) (ρ : Nat → F32) (d : Train.Disp) (W : World) : Py → Op → Res (Py × Ret) → Prop
  /-- a file that is not read properly -/
  | bad {s : Py} {op : Op} {p f : List Char} {n : Int} {k : UB} (ho : op.source = some (p, f, n)) (hl : load pw W p f n s.iter = .ub k) :
      Call pw powf ρ d W s op (.ub k)
  /-- a file that cannot be opened -/
  | closed {s : Py} {op : Op} {p f : List Char} {n : Int} (ho : op.source = some (p, f, n)) (hl : load pw W p f n s.iter = .ok none) :
      Call pw powf ρ d W s op (.ok (s, .raises))
  | unready {s : Py} {op : Op} {p f : List Char} {n : Int} {i : DataIter.State DataFile.Point} {k : UB}
      (ho : op.source = some (p, f, n)) (hl : load pw W p f n s.iter = .ok (some i)) (hr : ready powf d op s.obj = .ub k) :
      Call pw powf ρ d W s op (.ub k)
  /-- `Train` returns 0 and leaves the iterator alone -/
  | refused {s : Py} {op : Op} {p f : List Char} {n : Int} {i : DataIter.State DataFile.Point}
      (ho : op.source = some (p, f, n)) (hl : load pw W p f n s.iter = .ok (some i)) (hr : ready powf d op s.obj = .ok none) :
      Call pw powf ρ d W s op (.ok (⟨s.obj, i⟩, .rate 0))
  | fails {s : Py} {op : Op} {p f : List Char} {n : Int} {i i' : DataIter.State DataFile.Point} {o : Obj} {k : UB}
      (ho : op.source = some (p, f, n)) (hl : load pw W p f n s.iter = .ok (some i)) (hr : ready powf d op s.obj = .ok (some o))
      (hd : Drains i i') (ht : treat ρ op o (batchesFrom i i') = .ub k) : Call pw powf ρ d W s op (.ub k)
  | done {s : Py} {op : Op} {p f : List Char} {n : Int} {i i' : DataIter.State DataFile.Point} {o o' : Obj} {r : Ret}
      (ho : op.source = some (p, f, n)) (hl : load pw W p f n s.iter = .ok (some i)) (hr : ready powf d op s.obj = .ok (some o))
      (hd : Drains i i') (ht : treat ρ op o (batchesFrom i i') = .ok (o', r)) : Call pw powf ρ d W s op (.ok (⟨o', i'⟩, r))
  /-- pysol.pyx:106-110 -/
  | sparsity {s : Py} :
      Call pw powf ρ d W s .sparsity ((settle s.obj).bind fun o =>
        .ok (⟨o, s.iter⟩, .weights (countWeights (modelOf o)).1 (countWeights (modelOf o)).2))
  /-- pysol.pyx:298-307 -/
  | save {s : Py} {p : List Char} :
      Call pw powf ρ d W s (.save p)
        (.ok (s, if W.writes p then .saved (DataFile.ofChars (saveText (modelOf s.obj))) else .unsaved))

/-- Calls one after the other: the object in the end and what they returned. -/
inductive Session (pw : Int → F32) (powf : F32 → F32 → F32) (ρ : Nat → F32) (d : Train.Disp) (W : World) :
    Py → List Op → Res (Py × List Ret) → Prop
  | nil {s : Py} : Session pw powf ρ d W s [] (.ok (s, []))
  | stop {s : Py} {op : Op} {ops : List Op} {k : UB} (h : Call pw powf ρ d W s op (.ub k)) : Session pw powf ρ d W s (op :: ops) (.ub k)
  | cons {s s' : Py} {op : Op} {ops : List Op} {r : Ret} {e : Res (Py × List Ret)} (h : Call pw powf ρ d W s op (.ok (s', r)))
      (ht : Session pw powf ρ d W s' ops e) : Session pw powf ρ d W s (op :: ops) (e.bind fun p => .ok (p.1, r :: p.2))

end Sol.PySol
