import Verif.Model.DataSet
import Verif.Model.PyCv
/-!
# Model of training with Python (python/sol_train.py), with the results of cross validation in files (python/cv.py:197-248)

A dictionary is iterated in some order when a model is made of it (Python 2: that of a hash table); otherwise in the order in which the
keys were added.

Simplifications: those of Model/PyCv.lean and Model/DataSet.lean; `none` stands for an exception, `sys.exit()` or undefined behaviour
before the model is trained; time and logging are left out; `os.makedirs` is not modelled; `str` of dictionaries, `%.4f` and
`ast.literal_eval` are parameters; no value is `None`.
-/

namespace Sol.SolTrain
open Sol.Params Sol.Loss Sol.Whole Sol.PySol Sol.Cv Sol.PyCv
open Sol.DataSet (Files DataSet)

/-! ### Results of cross validation in files -/

variable {V : Type}

/-- What Python makes of values: `str` of the ranges, of settings, `%.4f`, and `ast.literal_eval` of a dictionary. -/
structure Style (V : Type) where
  grid : List (String × List V) → List Char
  dict : Dict V → List Char
  num : ℚ → List Char
  literal : List Char → Option (Dict V)

/-- The lines for all settings (cv.py:219-223, 226-230). -/
def tableText (st : Style V) (space : List (Dict V)) (rows : List (List ℚ)) : List Char :=
  (List.zipWith (fun p r => st.dict p ++ ':' :: ((r.map fun x => '\t' :: st.num x).flatten ++ ['\n'])) space rows).flatten

/-- `CV.save_results` (cv.py:207-230): the text that is written. -/
def resultsText (st : Style V) (grid : List (String × List V)) (cv : CV V ℚ) : Option (List Char) := do
  let (p, i) ← cv.best
  let tr ← cv.train[i]?
  let tr ← tr[cv.folds]?
  let va ← cv.val[i]?
  let va ← va[cv.folds]?
  some ("Cross Validation Parameters: ".toList ++ (st.grid grid ++ '\n' :: ("Extra Model Parameters: ".toList ++ (st.dict cv.extra ++ '\n' ::
    ("Best Result: ".toList ++ (st.dict p ++ ':' :: '\t' :: (st.num tr ++ '\t' :: (st.num va ++ '\n' ::
      ("Validation Accuracies\n".toList ++ (tableText st cv.space cv.val ++ ("Train Accuracies\n".toList ++ tableText st cv.space cv.train)))))))))))

/-- What `\{.*` may begin with. -/
def mark : List Char := "Best Result: {".toList

/-- The longest beginning of a line before `}:`. -/
def greedy : List Char → Option (List Char)
  | [] => none
  | c :: s =>
    match greedy s with
    | some p => some (c :: p)
    | none => if c = '}' ∧ s.head? = some ':' then some [] else none

/-- The pattern `Best Result: (\{.*\}):.*` at the beginning of a text: the group.  The rest of the line belongs to the match. -/
def matchBest (s : List Char) : Option (List Char) :=
  if mark.isPrefixOf s then (greedy ((s.drop mark.length).takeWhile (· ≠ '\n'))).map fun p => '{' :: (p ++ ['}']) else none

/-- `pattern.findall`; first skip some characters. -/
def findBest : Nat → List Char → List (List Char)
  | _, [] => []
  | k + 1, _ :: s => findBest k s
  | 0, c :: s =>
    match matchBest (c :: s) with
    | some t => t :: findBest (s.takeWhile (· ≠ '\n')).length s
    | none => findBest 0 s

/-- `CV.load_results` (cv.py:244-248). -/
def loadResults (st : Style V) (text : List Char) : Option (Dict V) :=
  match findBest 0 text with
  | [t] => st.literal t
  | _ => none

/-! ### `train` -/

/-- `del d[k]` if there is one (sol_train.py:59-64). -/
def remove (d : Dict V) (k : String) : Dict V := d.filter fun p => p.1 ≠ k

/-- `if param is not None: d[k] = param` (sol_train.py:71-74). -/
def restore (d : Dict V) (k : String) : Option V → Dict V
  | none => d
  | some v => assign d k v

/-- The settings that are handed to cross validation (sol_train.py:57-64). -/
def searched (p : Dict V) : Dict V := remove (remove p "B") "lambda"

/-- The settings after cross validation (sol_train.py:71-74). -/
def restored (p : Dict V) : Dict V := restore (restore (searched p) "B" (p.lookup "B")) "lambda" ((remove p "B").lookup "lambda")

/-- The arguments of `train` (sol_train.py:17-23); `passes`: `dt.pass_num`, `algo`: `model_name`, the name of the class `cls`. -/
structure Job (V : Type) where
  ds : DataSet
  passes : Nat
  algo : List Char
  cls : Cls
  params : Dict V
  output : Option (List Char)
  folds : Nat
  grid : Option (List (String × List V))
  retrain : Bool
  procs : Nat

/-- `cv_output_path` (sol_train.py:52). -/
def Job.cvPath (j : Job V) : List Char := DataSet.join j.ds.workDir ("cv-".toList ++ j.algo ++ ".txt".toList)

variable [FFun F32] [PyVal V] (pw : Int → F32) (powf : F32 → F32 → F32) (ρ : Nat → F32) (d : Train.Disp) (st : Style V) (writes : List Char → Bool)
  (load : List Char → Loaded) (choice : Nat → Nat)

/-- The settings that the model is made of, and the files afterwards (sol_train.py:51-78). -/
inductive Settles (j : Job V) (fs : Files) : Option (Files × Dict V) → Prop
  | given (h : j.grid = none) : Settles j fs (some (fs, j.params))
  /-- sol_train.py:53-54 -/
  | again {g} {f : DataFile.File} (h : j.grid = some g) (hr : j.retrain = false) (hf : fs j.cvPath = some f) :
      Settles j fs ((loadResults st (DataFile.chars f)).map fun b => (fs, update j.params b))
  /-- `CV.__init__` raises an exception (cv.py:99-103) -/
  | refused {g} (h : j.grid = some g) (hr : j.retrain = true ∨ fs j.cvPath = none)
      (hn : (CV.new j.folds g (searched j.params) j.procs : Option (CV V ℚ)) = none) : Settles j fs none
  /-- the data set cannot be split (cv.py:125) -/
  | unsplit {g} (h : j.grid = some g) (hr : j.retrain = true ∨ fs j.cvPath = none)
      (hs : ∀ ds' fs', j.ds.splitFile pw writes j.folds (some "bin".toList) choice fs ≠ .ok (.gives ds' fs')) : Settles j fs none
  /-- sol_train.py:66-69; the results are written or not -/
  | chosen {g} {ds' : DataSet} {fs' : Files} {lib : Lib V Py ℚ} {cv cv' : CV V ℚ} (h : j.grid = some g)
      (hr : j.retrain = true ∨ fs j.cvPath = none) (hn : CV.new j.folds g (searched j.params) j.procs = some cv)
      (hs : j.ds.splitFile pw writes j.folds (some "bin".toList) choice fs = .ok (.gives ds' fs'))
      (hl : Follows pw powf ρ d ⟨fs', writes, load⟩ j.cls ds'.classNum (fun i => DataFile.foldName ds'.foldPrefix ds'.sliceType i) ds'.sliceType lib)
      (ht : CV.TrainVal cv lib j.passes cv') :
      Settles j fs (cv'.best.bind fun b => (resultsText st g cv').bind fun text =>
        if writes j.cvPath then some (fs'.after [(j.cvPath, DataFile.ofChars text)], update (restored j.params) b.1) else none)

/-- The calls of the methods of the new object (sol_train.py:86, 94). -/
def Job.calls (j : Job V) : List Op :=
  .fit j.ds.dataPath j.ds.dtype j.passes :: (j.output.map .save).toList

/-- `train` (sol_train.py:51-96): the files before the model is saved, and what the calls of the methods returned. -/
inductive Trains (j : Job V) (fs : Files) : Option (Files × Res (Py × List Ret)) → Prop
  | unsettled (h : Settles pw powf ρ d st writes load choice j fs none) : Trains j fs none
  | refused {fs' : Files} {p q : Dict V} (h : Settles pw powf ρ d st writes load choice j fs (some (fs', p))) (hq : q.Perm p)
      (hm : newObject (World.files ⟨fs', writes, load⟩) j.cls j.ds.classNum q = none) : Trains j fs none
  | done {fs' : Files} {p q : Dict V} {s : Py} {e : Res (Py × List Ret)}
      (h : Settles pw powf ρ d st writes load choice j fs (some (fs', p))) (hq : q.Perm p)
      (hm : newObject (World.files ⟨fs', writes, load⟩) j.cls j.ds.classNum q = some s)
      (hs : Session pw powf ρ d ⟨fs', writes, load⟩ s j.calls e) : Trains j fs (some (fs', e))

end Sol.SolTrain
