import Verif.Model.Observe
import Verif.Model.SolTrain
/-!
# Model of the experiments with several algorithms (experiments/experiment.py: `run_ol`, `exp_ol`)

An experiment trains and tests every algorithm of a list on random orders of a data set, keeps the results in a file, and shows averages.

Simplifications: those of Model/SolTrain.lean and Model/Observe.lean; the algorithms `liblinear` and `vw`, which are other programs, are not
among the options and are not asked for; names are ASCII; what `cPickle` writes is read back as it was; the options of different algorithms
are different objects; random numbers may be others in every call; the numbers are exact, an error rate that is not a number is taken for 0;
standard deviations, times in the table, printing and drawing are left out; `none` stands for an exception, undefined behaviour, or waiting for ever.
-/

namespace Sol.Experiment
open Sol.Params Sol.Loss Sol.Whole Sol.PySol Sol.Cv Sol.PyCv Sol.Observe Sol.SolTrain
open Sol.DataSet (Files DataSet)

/-- A dictionary with names as keys. -/
abbrev Table (α : Type) := List (List Char × α)

/-- `d[k] = v`. -/
def put {α : Type} (t : Table α) (k : List Char) (v : α) : Table α :=
  if t.any (·.1 = k) then t.map fun p => if p.1 = k then (k, v) else p else t ++ [(k, v)]

/-- `str.lower`. -/
def lower (s : List Char) : List Char := s.map Char.toLower

/-- `opts[algo]`: the values of `params` and `cv`, if there are any (experiment.py:51-52). -/
structure Opt (V : Type) where
  params : Option (Dict V)
  grid : Option (List (String × List V))

/-- The arguments of `exp_ol` that are the same for all algorithms (experiment.py:137-144); `passes`: `dtrain.pass_num`. -/
structure Setup where
  train : DataSet
  passes : Nat
  test : DataSet
  folds : Nat
  procs : Nat

/-- `cv_output_path` (experiment.py:69). -/
def Setup.cvPath (x : Setup) (algo : List Char) : List Char := DataSet.join x.train.workDir ("cv-".toList ++ algo ++ ".txt".toList)

/-- A row of the results (experiment.py:114, 207): accuracies and times. -/
structure Row where
  test : ℚ
  testTime : ℚ
  train : ℚ
  trainTime : ℚ
deriving DecidableEq, Repr

/-- A log of a training (experiment.py:88-91). -/
abbrev Log := List (Train.Report F32)

/-! ### `run_ol` -/

section
variable [FFun F32] {V : Type} [PyVal V] (pw : Int → F32) (powf : F32 → F32 → F32) (d : Train.Disp) (st : Style V) (writes : List Char → Bool)
  (load : List Char → Loaded)

/-- The settings that the model is made of, and the files afterwards (experiment.py:51-52, 67-80). -/
inductive Settles (x : Setup) (algo : List Char) (cls : Cls) (o : Opt V) (fs : Files) : Option (Files × Dict V) → Prop
  | given (h : o.grid = none) : Settles x algo cls o fs (some (fs, o.params.getD []))
  /-- experiment.py:70-71 -/
  | again {g} {f : DataFile.File} (h : o.grid = some g) (hf : fs (x.cvPath algo) = some f) :
      Settles x algo cls o fs ((loadResults st (DataFile.chars f)).map fun b => (fs, update (o.params.getD []) b))
  /-- `CV.__init__` raises an exception (cv.py:99-103) -/
  | refused {g} (h : o.grid = some g) (hf : fs (x.cvPath algo) = none)
      (hn : (CV.new x.folds g (o.params.getD []) x.procs : Option (CV V ℚ)) = none) : Settles x algo cls o fs none
  /-- the data set cannot be split (cv.py:125) -/
  | unsplit {g} {choice : Nat → Nat} (h : o.grid = some g) (hf : fs (x.cvPath algo) = none)
      (hs : ∀ ds' fs', x.train.splitFile pw writes x.folds (some "bin".toList) choice fs ≠ .ok (.gives ds' fs')) : Settles x algo cls o fs none
  /-- experiment.py:73-76; the results are written or not -/
  | chosen {g} {choice : Nat → Nat} {ρ : Nat → F32} {ds' : DataSet} {fs' : Files} {lib : Lib V Py ℚ} {cv cv' : CV V ℚ} (h : o.grid = some g)
      (hf : fs (x.cvPath algo) = none) (hn : CV.new x.folds g (o.params.getD []) x.procs = some cv)
      (hs : x.train.splitFile pw writes x.folds (some "bin".toList) choice fs = .ok (.gives ds' fs'))
      (hl : Follows pw powf ρ d ⟨fs', writes, load⟩ cls ds'.classNum (fun i => DataFile.foldName ds'.foldPrefix ds'.sliceType i) ds'.sliceType lib)
      (ht : CV.TrainVal cv lib x.passes cv') :
      Settles x algo cls o fs (cv'.best.bind fun b => (resultsText st g cv').bind fun text =>
        if writes (x.cvPath algo) then some (fs'.after [(x.cvPath algo, DataFile.ofChars text)], update (o.params.getD []) b.1) else none)

/-- The options afterwards: `model_params.update` (experiment.py:80) changes the dictionary of the options, if it is that. -/
def Opt.updated (o : Opt V) (p : Dict V) : Opt V := { o with params := o.params.map fun _ => p }

/-- What is done with the new object (experiment.py:88-97, 107): the handler, which a variable refers to, the training with the
    default number of passes, and the test. -/
def statements (x : Setup) (path : List Char) : List OOp :=
  [.inspect (some 0), .call (.fit path x.train.dtype 1), .call (.score x.test.dataPath x.test.dtype)]

/-- The results of the statements (experiment.py:97, 107, 114); the times may be anything. -/
def summary (testTime trainTime : ℚ) : List Out → Option (Row × Log)
  | [_, ⟨some (.rate a), told, _⟩, ⟨some (.rate b), _, _⟩] => some (⟨accuracy b, testTime, accuracy a, trainTime⟩, told)
  | _ => none

/-- `run_ol` (experiment.py:49-114): the files, the options, and the results. -/
inductive RunOl (x : Setup) (algo : List Char) (o : Opt V) (fs : Files) : Option (Files × Opt V × Row × Log) → Prop
  /-- no class has the name; cross validation fails as well, as every process does -/
  | unknown (h : classNamed algo = none) : RunOl x algo o fs none
  | unsettled {cls : Cls} (hc : classNamed algo = some cls) (h : Settles pw powf d st writes load x algo cls o fs none) : RunOl x algo o fs none
  | refused {cls : Cls} {fs' : Files} {p q : Dict V} (hc : classNamed algo = some cls)
      (h : Settles pw powf d st writes load x algo cls o fs (some (fs', p))) (hq : q.Perm p)
      (hm : newObject (World.files ⟨fs', writes, load⟩) cls x.train.classNum q = none) : RunOl x algo o fs none
  /-- the data cannot be shuffled -/
  | unshuffled {cls : Cls} {fs' : Files} {p : Dict V} {choice : Nat → Nat} (hc : classNamed algo = some cls)
      (h : Settles pw powf d st writes load x algo cls o fs (some (fs', p)))
      (hr : ∀ path fs'', x.train.randPath pw writes none false choice fs' ≠ .ok (.gives path fs'')) : RunOl x algo o fs none
  | done {cls : Cls} {fs' fs'' : Files} {p q : Dict V} {choice : Nat → Nat} {ρ : Nat → F32} {s : Py} {verbose : Bool} {path : List Char}
      {e : Res (Obs × List Out)} {testTime trainTime : ℚ} (hc : classNamed algo = some cls)
      (h : Settles pw powf d st writes load x algo cls o fs (some (fs', p))) (hq : q.Perm p)
      (hm : newObject (World.files ⟨fs', writes, load⟩) cls x.train.classNum q = some s)
      (hr : x.train.randPath pw writes none false choice fs' = .ok (.gives path fs''))
      (he : OSession pw powf ρ d ⟨fs'', writes, load⟩ ⟨s, if verbose then .printed else .handler none, []⟩ (statements x path) e) :
      RunOl x algo o fs (match e with
        | .ok (_, outs) => (summary testTime trainTime outs).map fun r => (fs'', o.updated p, r)
        | .ub _ => none)

/-! ### `exp_ol` -/

/-- What is kept between experiments: `res` and `train_log` (experiment.py:168-175); `none`: `None`. -/
structure Kept where
  res : Table (List Row)
  logs : Table (List (Option Log))
deriving DecidableEq

/-- `retrains` (experiment.py:177-180). -/
def asked (opts : Table (Opt V)) : Option (List (List Char)) → List (List Char)
  | none => []
  | some [a] => if lower a = "all".toList then opts.map fun p => lower p.1 else [lower a]
  | some l => l.map lower

/-- The loop that looks for algorithms without results (experiment.py:182-193). -/
def plan (repeats : Nat) : Table (Opt V) → List (List Char) → Kept → List (List Char) × Kept
  | [], todo, k => (todo, k)
  | (a, _) :: l, todo, k =>
    if k.res.any (·.1 = lower a) ∧ lower a ∉ todo then plan repeats l todo k
    else plan repeats l (if lower a ∈ todo then todo else todo ++ [lower a])
      ⟨put k.res (lower a) (List.replicate repeats ⟨0, 0, 0, 0⟩), put k.logs (lower a) (List.replicate repeats none)⟩

/-- The variables of the loops: the files, the options, and the results. -/
structure Stage (V : Type) where
  fs : Files
  opts : Table (Opt V)
  kept : Kept

/-- `res[algo][rid, :] = …`, `train_log[algo][rid] = …` (experiment.py:207-209). -/
def Kept.record (k : Kept) (a : List Char) (r : Nat) (row : Row) (log : Log) : Option Kept := do
  let rows ← k.res.lookup a
  let logs ← k.logs.lookup a
  if r < rows.length ∧ r < logs.length then some ⟨put k.res a (rows.set r row), put k.logs a (logs.set r (some log))⟩ else none

/-- The loop over the algorithms in the repetition `r` (experiment.py:198-209); all that it runs are in `retrains`. -/
inductive Algos (x : Setup) (r : Nat) : List (List Char) → Stage V → Option (Stage V) → Prop
  | nil {s : Stage V} : Algos x r [] s (some s)
  /-- `KeyError` (experiment.py:199) -/
  | missing {a : List Char} {l} {s : Stage V} (h : s.opts.lookup a = none) : Algos x r (a :: l) s none
  | fails {a : List Char} {l} {s : Stage V} {o : Opt V} (h : s.opts.lookup a = some o) (hr : RunOl pw powf d st writes load x a o s.fs none) :
      Algos x r (a :: l) s none
  | unrecorded {a : List Char} {l} {s : Stage V} {o o' : Opt V} {fs' : Files} {row : Row} {log : Log} (h : s.opts.lookup a = some o)
      (hr : RunOl pw powf d st writes load x a o s.fs (some (fs', o', row, log))) (hk : s.kept.record a r row log = none) :
      Algos x r (a :: l) s none
  | cons {a : List Char} {l} {s : Stage V} {o o' : Opt V} {fs' : Files} {row : Row} {log : Log} {k : Kept} {e : Option (Stage V)}
      (h : s.opts.lookup a = some o) (hr : RunOl pw powf d st writes load x a o s.fs (some (fs', o', row, log)))
      (hk : s.kept.record a r row log = some k) (ht : Algos x r l ⟨fs', put s.opts a o', k⟩ e) : Algos x r (a :: l) s e

/-- The loop over the repetitions (experiment.py:195-209). -/
inductive Repeats (x : Setup) (todo : List (List Char)) : List Nat → Stage V → Option (Stage V) → Prop
  | nil {s : Stage V} : Repeats x todo [] s (some s)
  /-- experiment.py:197 -/
  | unshuffled {r : Nat} {l} {s : Stage V} {choice : Nat → Nat}
      (h : ∀ path fs', x.train.randPath pw writes none true choice s.fs ≠ .ok (.gives path fs')) : Repeats x todo (r :: l) s none
  | stops {r : Nat} {l} {s : Stage V} {choice : Nat → Nat} {path : List Char} {fs' : Files}
      (h : x.train.randPath pw writes none true choice s.fs = .ok (.gives path fs'))
      (ha : Algos pw powf d st writes load x r todo { s with fs := fs' } none) : Repeats x todo (r :: l) s none
  | cons {r : Nat} {l} {s s' : Stage V} {choice : Nat → Nat} {path : List Char} {fs' : Files} {e : Option (Stage V)}
      (h : x.train.randPath pw writes none true choice s.fs = .ok (.gives path fs'))
      (ha : Algos pw powf d st writes load x r todo { s with fs := fs' } (some s')) (ht : Repeats x todo l s' e) : Repeats x todo (r :: l) s e

/-- The average of numbers (experiment.py:225). -/
def mean (l : List ℚ) : ℚ := l.sum / l.length

/-- The accuracies in the table (experiment.py:223-235): of the test and of the training. -/
def averages (opts : Table (Opt V)) (k : Kept) : Option (Table (ℚ × ℚ)) :=
  opts.mapM fun p => (k.res.lookup (lower p.1)).map fun rows => (p.1, mean (rows.map (·.test)), mean (rows.map (·.train)))

/-- The sum of two arrays: one with a single number is added to every number of the other. -/
def add (a b : List ℚ) : Option (List ℚ) :=
  if a.length = b.length then some (List.zipWith (· + ·) a b)
  else match a, b with
    | [v], _ => some (b.map (v + ·))
    | _, [v] => some (a.map (· + v))
    | _, _ => none

/-- An error rate as a number. -/
def number : F32 → ℚ
  | .fin q => q
  | _ => 0

/-- The sum of a column of the first logs (experiment.py:249-253). -/
def total (logs : List (Option Log)) (col : Train.Report F32 → ℚ) : List Nat → List ℚ → Option (List ℚ)
  | [], acc => some acc
  | r :: l, acc => do
    let log ← (← logs[r]?)
    let acc ← add acc (log.map col)
    total logs col l acc

/-- The curves of an algorithm (experiment.py:246-255): numbers of examples, numbers of updates, error rates. -/
structure Curve where
  data : List Nat
  updates : List ℚ
  errors : List ℚ
deriving DecidableEq, Repr

def curve (repeats : Nat) (logs : List (Option Log)) : Option Curve := do
  let first ← (← logs[0]?)
  let zeros := List.replicate first.length 0
  let u ← total logs (fun r => r.upd) (List.range repeats) zeros
  let e ← total logs (fun r => number r.rate) (List.range repeats) zeros
  some ⟨first.map (·.data), u.map (· / repeats), e.map (· / repeats)⟩

/-- The curves of all algorithms (experiment.py:243-255). -/
def curves (repeats : Nat) (opts : Table (Opt V)) (k : Kept) : Option (Table Curve) :=
  opts.mapM fun p => (k.logs.lookup (lower p.1)).bind fun logs => (curve repeats logs).map fun c => (p.1, c)

/-- How an experiment ends. -/
inductive End where
  /-- before anything is saved -/
  | dies
  /-- with the results saved, the table, and the curves; `none`: an exception -/
  | ends (kept : Kept) (table : Option (Table (ℚ × ℚ))) (curves : Option (Table Curve))

/-- `exp_ol` (experiment.py:168-255); `before`: what was saved before, `again`: `retrains`. -/
inductive ExpOl (x : Setup) (opts : Table (Opt V)) (repeats : Nat) (again : Option (List (List Char))) (before : Option Kept) (fs : Files) :
    End → Prop
  | dies (h : Repeats pw powf d st writes load x (plan repeats opts (asked opts again) (before.getD ⟨[], []⟩)).1 (List.range repeats)
      ⟨fs, opts, (plan repeats opts (asked opts again) (before.getD ⟨[], []⟩)).2⟩ none) : ExpOl x opts repeats again before fs .dies
  | ends {s : Stage V} (h : Repeats pw powf d st writes load x (plan repeats opts (asked opts again) (before.getD ⟨[], []⟩)).1 (List.range repeats)
      ⟨fs, opts, (plan repeats opts (asked opts again) (before.getD ⟨[], []⟩)).2⟩ (some s)) :
      ExpOl x opts repeats again before fs (.ends s.kept (averages s.opts s.kept) (curves repeats s.opts s.kept))

end

end Sol.Experiment
