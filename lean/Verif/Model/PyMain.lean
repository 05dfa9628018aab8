import Verif.Model.SolTrain
/-!
# Model of the Python scripts: `main` and `finetune` of python/sol_train.py, and python/sol_test.py

Simplifications: those of Model/SolTrain.lean; `argparse` is not modelled, only what is done with the arguments; time and logging are
left out; values of other types than `bool`, `int` and `str` are known by their text and are not converted to numbers; an exception while
the data set is read, or a model that cannot be loaded, ends the script (`none`), as does undefined behaviour there; `load` of the class
calls `get_params` and `inspect_learning`, which do not change the model (Model/CApi.lean); `%f` and `str` of numbers are parameters; the
file of predictions is not one that is read.
-/

namespace Sol.PyMain
open Sol.Params Sol.Loss Sol.Whole Sol.PySol Sol.Cv Sol.PyCv Sol.SolTrain
open Sol.DataSet (Files DataSet basename)

/-- Values of Python that settings have. -/
inductive Val where
  | bool (b : Bool)
  | int (n : Int)
  | str (s : List Char)
  /-- something else, by its text -/
  | lit (s : List Char)
deriving DecidableEq, Repr

/-- `str(v)`. -/
def Val.text : Val → List Char
  | .bool b => if b then "True".toList else "False".toList
  | .int n => showInt n
  | .str s => s
  | .lit s => s

/-- The conversion to a C `int` by Cython. -/
def Val.toInt : Val → Option Int
  | .bool b => some (if b then 1 else 0)
  | .int n => if -2147483648 ≤ n ∧ n ≤ 2147483647 then some n else none
  | _ => none

instance : PyVal Val := ⟨Val.text, Val.toInt⟩

/-! ### sol_train.py -/

/-- The arguments (sol_train.py:237-326). -/
structure Args where
  input : List Char
  output : Option (List Char)
  algo : Option (List Char)
  dataType : List Char
  model : Option (List Char)
  passes : Int
  norm : List Char
  batch : Int
  buf : Int
  cv : Option (List (List Char))
  folds : Int
  params : Option (List (List Char))
  retrain : Bool
  verbose : Bool

/-- `str.split(c)`. -/
def pySplit (c : Char) : List Char → List (List Char)
  | [] => [[]]
  | x :: s => if x = c then [] :: pySplit c s else
    match pySplit c s with
    | [] => [[x]]
    | p :: ps => (x :: p) :: ps

/-- `parts[0]` and `parts[1]` of `item.split('=')` (sol_train.py:187-188, 193-194); `none`: an exception. -/
def part (item : List Char) : Option (String × List Char) :=
  match pySplit '=' item with
  | k :: v :: _ => some (String.ofList k, v)
  | _ => none

/-- `model_params` at first (sol_train.py:179-182). -/
def Args.base (a : Args) : Dict Val :=
  [("verbose", .bool a.verbose), ("batch_size", .int a.batch), ("buf_size", .int a.buf), ("norm", .str a.norm)]

/-- The loop over `args.params` (sol_train.py:186-188). -/
def addParams : Dict Val → List (List Char) → Option (Dict Val)
  | d, [] => some d
  | d, i :: is => (part i).bind fun p => addParams (assign d p.1 (.str p.2)) is

/-- `model_params` (sol_train.py:179-188). -/
def Args.settings (a : Args) : Option (Dict Val) := addParams a.base (a.params.getD [])

/-- The loop over `args.cv` (sol_train.py:192-194); `lit`: `ast.literal_eval` of a list. -/
def addRanges (lit : List Char → Option (List Val)) : Dict (List Val) → List (List Char) → Option (Dict (List Val))
  | d, [] => some d
  | d, i :: is => (part i).bind fun p => (lit p.2).bind fun l => addRanges lit (assign d p.1 l) is

/-- `cv_params` (sol_train.py:189-194). -/
def Args.ranges (lit : List Char → Option (List Val)) (a : Args) : Option (Option (Dict (List Val))) :=
  match a.cv with
  | none => some none
  | some is => (addRanges lit [] is).map some

section
variable [FFun F32] (pw : Int → F32) (powf : F32 → F32 → F32) (ρ : Nat → F32) (d : Train.Disp) (st : Style Val) (lit : List Char → Option (List Val))
  (pct : Nat → Nat → List Char) (writes : List Char → Bool) (load : List Char → Loaded) (choice : Nat → Nat) (freed : Res (List Char))

/-- The calls after a model was loaded (sol_train.py:162, 170). -/
def calls (ds : DataSet) (passes : Int) (out : Option (List Char)) : List Op := .fit ds.dataPath ds.dtype passes :: (out.map .save).toList

/-- `finetune` (sol_train.py:145-172) with the settings `p`.  `freed`: what comes of `m.name` after `m.load` (sol_train.py:158); the
    pointer leads into a string of the dictionary that `load` made, which is gone (pysol.pyx:48, 100, 323-324). -/
inductive Finetunes (fs : Files) (ds : DataSet) (passes : Int) (model : List Char) (p : Dict Val) (out : Option (List Char)) :
    Option (Res (Py × List Ret)) → Prop
  /-- `SOL(**init_params)` raises an exception -/
  | unsized (h : sizeOf p "batch_size" 256 = none ∨ sizeOf p "buf_size" 2 = none) : Finetunes fs ds passes model p out none
  /-- no model: `set_params` or `fit` finds out (pysol.pyx:124, 207) -/
  | absent (h : ∀ m, load model ≠ .model m) : Finetunes fs ds passes model p out none
  | stale {m : M} {k : UB} {size num : Nat} (h1 : sizeOf p "batch_size" 256 = some size) (h2 : sizeOf p "buf_size" 2 = some num)
      (h : load model = .model m) (hf : freed = .ub k) : Finetunes fs ds passes model p out (some (.ub k))
  | refused {m : M} {t : List Char} {q : Dict Val} (h : load model = .model m) (hf : freed = .ok t) (hq : q.Perm p)
      (hs : (setAll (World.files ⟨fs, writes, load⟩) m (PyCv.settings q)).2 ≠ .accepted) : Finetunes fs ds passes model p out none
  | done {m m' : M} {t : List Char} {q : Dict Val} {size num : Nat} {e : Res (Py × List Ret)} (h1 : sizeOf p "batch_size" 256 = some size)
      (h2 : sizeOf p "buf_size" 2 = some num) (h : load model = .model m) (hf : freed = .ok t) (hq : q.Perm p)
      (hs : setAll (World.files ⟨fs, writes, load⟩) m (PyCv.settings q) = (m', .accepted))
      (he : Session pw powf ρ d ⟨fs, writes, load⟩ (Py.start m' size num) (calls ds passes out) e) : Finetunes fs ds passes model p out (some e)

/-- `main` (sol_train.py:174-206): the files before the model is saved, and what the calls of the methods returned.  `procs` is 1
    (sol_train.py:23). -/
inductive Main (a : Args) (fs : Files) : Option (Files × Res (Py × List Ret)) → Prop
  /-- the data set cannot be read (sol_train.py:177) -/
  | unread (h : ∀ ds fs', DataSet.new pw writes pct (basename a.input) a.input a.dataType fs ≠ .ok (.gives ds fs')) : Main a fs none
  /-- sol_train.py:205-206 -/
  | unclear (h : a.model.isSome = a.algo.isSome) : Main a fs none
  | misspelt {n : List Char} (hm : a.model = none) (ha : a.algo = some n) (h : a.settings = none ∨ a.ranges lit = none) : Main a fs none
  /-- `sol_CreateModel` gives a null pointer, `set_params` finds out (pysol.pyx:72, 124) -/
  | unknown {n : List Char} (hm : a.model = none) (ha : a.algo = some n) (h : classNamed n = none) : Main a fs none
  /-- sol_train.py:196-201 -/
  | train {ds : DataSet} {fs' : Files} {n : List Char} {c : Cls} {p : Dict Val} {g : Option (Dict (List Val))}
      {e : Option (Files × Res (Py × List Ret))} (hd : DataSet.new pw writes pct (basename a.input) a.input a.dataType fs = .ok (.gives ds fs'))
      (hm : a.model = none) (ha : a.algo = some n) (hp : a.settings = some p) (hg : a.ranges lit = some g) (hc : classNamed n = some c)
      (h : Trains pw powf ρ d st writes load choice ⟨ds, a.passes.toNat, n, c, p, a.output, a.folds.toNat, g, a.retrain, 1⟩ fs' e) : Main a fs e
  /-- sol_train.py:203-204 -/
  | finetune {ds : DataSet} {fs' : Files} {m : List Char} {e : Option (Res (Py × List Ret))}
      (hd : DataSet.new pw writes pct (basename a.input) a.input a.dataType fs = .ok (.gives ds fs')) (hm : a.model = some m) (ha : a.algo = none)
      (h : Finetunes pw powf ρ d writes load freed fs' ds a.passes m a.base a.output e) : Main a fs (e.map fun r => (fs', r))

end

/-! ### sol_test.py -/

/-- The arguments (sol_test.py:47-78). -/
structure TestArgs where
  model : List Char
  input : List Char
  output : Option (List Char)
  dataType : List Char
  batch : Int
  buf : Int

/-- The accuracy: `1 - x`, or the quotient of two numbers (sol_test.py:108, 111). -/
inductive Accuracy where
  | rate (x : F32)
  | quotient (right all : Nat)
deriving DecidableEq, Repr

/-- A line of the file of predictions (sol_test.py:120-125); `fixed`: `%f`, `shown`: `str`. -/
def lineText (fixed shown : F32 → List Char) (classNum : Int) (r : Train.Row F32) : List Char :=
  showInt r.label ++ '\t' :: (showInt r.pred ++ '\t' ::
    ((if classNum = 2 then fixed (r.scores.headD 0) else ['\t'].intercalate (r.scores.map shown)) ++ ['\n']))

section
variable [FFun F32] (pw : Int → F32) (powf : F32 → F32 → F32) (ρ : Nat → F32) (d : Train.Disp) (pct : Nat → Nat → List Char)
  (writes : List Char → Bool) (load : List Char → Loaded) (freed : Res (List Char)) (fixed shown : F32 → List Char)

/-- The sizes are of type `int` and positive (pysol.pyx:52-53). -/
def TestArgs.Sized (a : TestArgs) : Prop := 0 < a.batch ∧ a.batch ≤ 2147483647 ∧ 0 < a.buf ∧ a.buf ≤ 2147483647

/-- What `score` or `decision_function` is called for. -/
def TestArgs.call (a : TestArgs) (ds : DataSet) : Op := if a.output = none then .score ds.dataPath ds.dtype else .predict ds.dataPath ds.dtype

/-- What is made of the result (sol_test.py:107-125); `none`: an exception. -/
def TestArgs.reports (a : TestArgs) (classNum : Int) (r : Ret) : Option (Accuracy × List (List Char × DataFile.File)) :=
  match a.output, r with
  | none, .rate x => some (.rate x, [])
  | some o, .rows rows =>
    -- pysol.pyx:261: an array without rows has no second dimension
    if rows = [] then none
    else if writes o then
      some (.quotient (rows.countP fun r => decide (r.pred = r.label)) rows.length, [(o, DataFile.ofChars (rows.flatMap (lineText fixed shown classNum)))])
    else none
  | _, _ => none

/-- `main` (sol_test.py:96-125): the accuracy and the file of predictions. -/
inductive TestMain (a : TestArgs) (fs : Files) : Option (Res (Accuracy × List (List Char × DataFile.File))) → Prop
  | unread (h : ∀ ds fs', DataSet.new pw writes pct (basename a.input) a.input a.dataType fs ≠ .ok (.gives ds fs')) : TestMain a fs none
  /-- the sizes do not fit, or there is no model (pysol.pyx:227, 252) -/
  | absent (h : ¬ a.Sized ∨ ∀ m, load a.model ≠ .model m) : TestMain a fs none
  /-- sol_test.py:104 -/
  | stale {ds : DataSet} {fs' : Files} {m : M} {k : UB} (hz : a.Sized)
      (hd : DataSet.new pw writes pct (basename a.input) a.input a.dataType fs = .ok (.gives ds fs')) (h : load a.model = .model m)
      (hf : freed = .ub k) : TestMain a fs (some (.ub k))
  | fails {ds : DataSet} {fs' : Files} {m : M} {t : List Char} {k : UB} (hz : a.Sized)
      (hd : DataSet.new pw writes pct (basename a.input) a.input a.dataType fs = .ok (.gives ds fs')) (h : load a.model = .model m) (hf : freed = .ok t)
      (hc : Call pw powf ρ d ⟨fs', writes, load⟩ (Py.start m a.batch.toNat a.buf.toNat) (a.call ds) (.ub k)) : TestMain a fs (some (.ub k))
  | done {ds : DataSet} {fs' : Files} {m : M} {t : List Char} {s : Py} {r : Ret} (hz : a.Sized)
      (hd : DataSet.new pw writes pct (basename a.input) a.input a.dataType fs = .ok (.gives ds fs')) (h : load a.model = .model m) (hf : freed = .ok t)
      (hc : Call pw powf ρ d ⟨fs', writes, load⟩ (Py.start m a.batch.toNat a.buf.toNat) (a.call ds) (.ok (s, r))) :
      TestMain a fs ((a.reports writes fixed shown m.classNum r).map .ok)

end

end Sol.PyMain
