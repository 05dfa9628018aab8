import Mathlib.Algebra.Field.Defs
import Mathlib.Algebra.BigOperators.Group.List.Basic
import Mathlib.Logic.Relation
import Mathlib.Order.Defs.LinearOrder
/-!
# Model: cross validation (python/cv.py)

Python 2: `/` on integers is the whole quotient.  Dictionaries are lists of pairs with different keys, in the order of `items()`.
What pysol does is a parameter (`Lib`); `none` stands for a Python exception.

Simplifications: the numbers are exact, not `float64`; putting something into a queue of `multiprocessing` shows at once (the
task queue hands out its contents in the order of the puts; the result queue, which several processes fill, in any order);
processes do not die but for an exception of the code.  Logging is left out.
-/

namespace Sol.Cv

universe u

variable {V α : Type} {M : Type u}

/-- A dictionary of parameters. -/
abbrev Dict (V : Type) := List (String × V)

/-- `d[k] = v`. -/
def assign (d : Dict V) (k : String) (v : V) : Dict V :=
  if d.any (·.1 = k) then d.map fun p => if p.1 = k then (k, v) else p else d ++ [(k, v)]

/-- `d.update(e)`. -/
def update (d e : Dict V) : Dict V := e.foldl (fun d p => assign d p.1 p.2) d

/-! ### `SearchSpace` -/

/-- The inner loop (cv.py:35-39): the parameters with the number `k`. -/
def pick : List (String × List V) → Nat → Option (Dict V)
  | [], _ => some []
  | (name, vals) :: ps, k => do
    let v ← vals[k % vals.length]?
    let rest ← pick ps (k / vals.length)
    some ((name, v) :: rest)

/-- `SearchSpace.__init__` (cv.py:28-40).  Without parameters `np.prod` is a `float`, which `xrange` refuses. -/
def searchSpace (params : List (String × List V)) : Option (List (Dict V)) :=
  if params = [] then none else (List.range (params.map fun p => p.2.length).prod).mapM (pick params)

/-! ### The executor -/

/-- pysol: the model with given parameters, training and testing on the numbered folds of the data set. -/
structure Lib (V : Type) (M : Type u) (α : Type) where
  create : Dict V → Option M
  fit : M → Nat → Option (M × α)
  score : M → Nat → Option α

/-- The loop over the folds (cv.py:60-63); `acc`: the variable `train_accu`, `none` while it has no value. -/
def foldLoop (lib : Lib V M α) (val : Nat) : List Nat → M → Option α → Option (M × Option α)
  | [], m, acc => some (m, acc)
  | i :: is, m, acc =>
    if i = val then foldLoop lib val is m acc
    else do
      let (m, a) ← lib.fit m i
      foldLoop lib val is m (some a)

/-- The loop over the passes (cv.py:59-63). -/
def passLoop (lib : Lib V M α) (folds val : Nat) : Nat → M → Option α → Option (M × Option α)
  | 0, m, acc => some (m, acc)
  | p + 1, m, acc => do
    let (m, acc) ← foldLoop lib val (List.range folds) m acc
    passLoop lib folds val p m acc

/-- The work on one task (cv.py:57-72): the accuracies of training and of validation. -/
def runTask (lib : Lib V M α) (passes folds val : Nat) (params : Dict V) : Option (α × α) :=
  (lib.create params).bind fun m =>
    (passLoop lib folds val passes m none).bind fun r =>
      (lib.score r.1 val).bind fun v => r.2.bind fun a => some (a, v)

/-! ### The processes of one fold -/

/-- Where a process is in `train_val_executor` (cv.py:47-73). -/
inductive Worker
  /-- before `task_queue.get()` -/
  | idle
  /-- at work on the parameters with this number -/
  | busy (k : Nat)
  /-- has read `None`, before putting it back -/
  | stopping
  /-- has ended -/
  | done
  /-- ended by an exception -/
  | dead
deriving DecidableEq, Repr

/-- The processes, the two queues, and the main process (cv.py:157-184). -/
structure Sys (α : Type) where
  /-- the task queue: numbers of parameters, or `None` -/
  tasks : List (Option Nat)
  workers : List Worker
  /-- the result queue -/
  results : List (Nat × α)
  /-- how many results the main process has received -/
  received : Nat
  /-- `train_accu_list` and `val_accu_list` -/
  lists : List α

/-- One step of one of the processes; `size`: the number of parameters to try, `run`: the work on a task. -/
inductive Step (size : Nat) (run : Nat → Option α) : Sys α → Sys α → Prop
  /-- cv.py:48-56 -/
  | take (s : Sys α) (i k : Nat) (q : List (Option Nat)) : s.workers[i]? = some .idle → s.tasks = some k :: q →
      Step size run s { s with tasks := q, workers := s.workers.set i (.busy k) }
  /-- cv.py:57-72 -/
  | finish (s : Sys α) (i k : Nat) (r : α) : s.workers[i]? = some (.busy k) → run k = some r →
      Step size run s { s with workers := s.workers.set i .idle, results := s.results ++ [(k, r)] }
  /-- an exception in cv.py:57-70 -/
  | crash (s : Sys α) (i k : Nat) : s.workers[i]? = some (.busy k) → run k = none →
      Step size run s { s with workers := s.workers.set i .dead }
  /-- cv.py:49-50 -/
  | stop (s : Sys α) (i : Nat) (q : List (Option Nat)) : s.workers[i]? = some .idle → s.tasks = none :: q →
      Step size run s { s with tasks := q, workers := s.workers.set i .stopping }
  /-- cv.py:73 -/
  | hand (s : Sys α) (i : Nat) : s.workers[i]? = some .stopping →
      Step size run s { s with tasks := s.tasks ++ [none], workers := s.workers.set i .done }
  /-- cv.py:176-179 -/
  | receive (s : Sys α) (k : Nat) (r : α) (l l' : List (Nat × α)) : s.received < size → s.results = l ++ (k, r) :: l' →
      Step size run s { s with results := l ++ l', received := s.received + 1, lists := s.lists.set k r }

/-- The state before the processes start (cv.py:157-174). -/
def start (size procs : Nat) (zero : α) : Sys α :=
  ⟨(List.range size).map some ++ [none], List.replicate procs .idle, [], 0, List.replicate size zero⟩

/-- All results have come and all processes have ended (cv.py:181-184). -/
def Sys.Ended (size : Nat) (s : Sys α) : Prop :=
  s.received = size ∧ ∀ w ∈ s.workers, w = .done ∨ w = .dead

/-- `__train_val_one_fold` (cv.py:141-184) may return the lists `l`. -/
def OneFold (size procs : Nat) (zero : α) (run : Nat → Option α) (l : List α) : Prop :=
  ∃ s, Relation.ReflTransGen (Step size run) (start size procs zero) s ∧ s.Ended size ∧ l = s.lists

/-! ### `CV` -/

/-- An object of the class. -/
structure CV (V α : Type) where
  folds : Nat
  space : List (Dict V)
  extra : Dict V
  procs : Nat
  train : List (List α)
  val : List (List α)
deriving DecidableEq

section
variable [Field α] [LinearOrder α]

/-- `CV.__init__` (cv.py:97-108). -/
def CV.new (folds : Nat) (params : List (String × List V)) (extra : Dict V) (procs : Nat) : Option (CV V α) := do
  if folds < 2 then none
  let space ← searchSpace params
  let zeros := List.replicate space.length (List.replicate (folds + 1) 0)
  some ⟨folds, space, extra, procs, zeros, zeros⟩

/-- What the tasks of a fold do (cv.py:161-164, 45-72). -/
def CV.work (cv : CV V α) (lib : Lib V M α) (passes val : Nat) (k : Nat) : Option (α × α) := do
  let p ← cv.space[k]?
  runTask lib passes cv.folds val (update p cv.extra)

/-- `scores[:, v] = l` (cv.py:134-135). -/
def setColumn (v : Nat) (rows : List (List α)) (l : List α) : List (List α) :=
  List.zipWith (fun r a => r.set v a) rows l

/-- The loop over the folds (cv.py:128-135). -/
inductive Rounds (cv : CV V α) (lib : Lib V M α) (passes : Nat) : List Nat → List (List α) → List (List α) → List (List α) → List (List α) → Prop
  | nil (tr va : List (List α)) : Rounds cv lib passes [] tr va tr va
  | cons (v : Nat) (vs : List Nat) (tr va tr' va' : List (List α)) (l : List (α × α)) :
      OneFold cv.space.length cv.procs (0, 0) (cv.work lib passes v) l →
      Rounds cv lib passes vs (setColumn v tr (l.map (·.1))) (setColumn v va (l.map (·.2))) tr' va' →
      Rounds cv lib passes (v :: vs) tr va tr' va'

/-- The average of a row goes to its last place (cv.py:138-139). -/
def average (folds : Nat) (row : List α) : List α := row.set folds (row.sum / folds)

/-- `CV.train_val` (cv.py:110-139), after the data set has been split. -/
def CV.TrainVal (cv : CV V α) (lib : Lib V M α) (passes : Nat) (cv' : CV V α) : Prop :=
  ∃ tr va, Rounds cv lib passes (List.range cv.folds) cv.train cv.val tr va ∧
    cv' = { cv with train := tr.map (average cv.folds), val := va.map (average cv.folds) }

/-- The loop of `np.argmax`: `best` at `pos`, the next index `i`. -/
def argmaxLoop (best : α) (pos : Nat) : Nat → List α → Nat
  | _, [] => pos
  | i, a :: l => if best < a then argmaxLoop a i (i + 1) l else argmaxLoop best pos (i + 1) l

/-- `np.argmax`. -/
def argmax : List α → Option Nat
  | [] => none
  | a :: l => some (argmaxLoop a 0 1 l)

/-- `CV.get_best_param` (cv.py:194-195). -/
def CV.best (cv : CV V α) : Option (Dict V × Nat) := do
  let col ← cv.val.mapM (·[cv.folds]?)
  let i ← argmax col
  let p ← cv.space[i]?
  some (p, i)

end

end Sol.Cv
