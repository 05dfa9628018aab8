import Verif.Model.Experiment
import Verif.Spec.Observe
import Verif.Spec.SolTrain
/-!
# Specification of experiments with several algorithms
-/

namespace Sol.Spec
open Sol.Params Sol.Online Sol.Loss Sol.Whole
open Sol.Experiment (Table Opt Setup Row Log Kept Curve)
open Sol.DataSet (Files)

/-- The examples are the points in some order, as a file of this type holds them. -/
def InSomeOrder (fmt : DataFile.Format) (pts : List DataFile.Point) (es : List (Ex F32)) : Prop :=
  ∃ l qs, l.Perm pts ∧ List.Forall₂ (Keeps fmt) l qs ∧ es = qs.map exOf

/-- `a` is one minus the error rate. -/
def Accuracy (x : F32) (a : ℚ) : Prop := ∀ q, x = .fin q → a = 1 - q

variable [FFun F32]

/-- The results of a model that is trained on `es` like `sol_train` does and tested on `tests` like `sol_test` does, and what is reported of
    the training. -/
def Measured (powf : F32 → F32 → F32) (d : Train.Disp) (m : M) (es tests : List (Ex F32)) (row : Row) (log : Log) : Prop :=
  ∃ ρ m' x rows y, trainModel powf ρ d m [es] = .ok m' ∧ RateOfAll powf ρ d m [es] x ∧ Accuracy x row.train ∧
    testModel m' [tests] = .ok (rows, y) ∧ Accuracy y row.test ∧ LogOf powf ρ d m es log

/-- The algorithm is to be run: it has no results, or it is asked for. -/
def ToRun {V : Type} (opts : Table (Opt V)) (again : Option (List (List Char))) (before : Option Kept) (a : List Char) : Prop :=
  (∀ k, before = some k → a ∉ k.res.map (·.1)) ∨
    ∃ l, again = some l ∧ ((∃ w, l = [w] ∧ SameWord w "all".toList ∧ a ∈ opts.map (·.1)) ∨ ∃ w ∈ l, SameWord w a ∧ ¬ (l = [w] ∧ SameWord w "all".toList))

/-- The settings are those of the options, and those that an earlier cross validation has chosen, if the options ask for one. -/
def SettingsOf {V : Type} (st : SolTrain.Style V) (x : Setup) (fs : Files) (a : List Char) (o : Opt V) (p : Cv.Dict V) : Prop :=
  (o.grid = none ∧ p = o.params.getD []) ∨
    ∃ g f b, o.grid = some g ∧ fs (x.cvPath a) = some f ∧ SolTrain.loadResults st (DataFile.chars f) = some b ∧ (b.map (·.1)).Nodup ∧
      p = Cv.update (o.params.getD []) b

/-- The algorithm, with the settings `P a`, makes the model `mo a`, which can be trained on the points in any order. -/
structure Runnable {V : Type} [PyCv.PyVal V] (fmt : DataFile.Format) (x : Setup) (pts : List DataFile.Point) (P : List Char → Cv.Dict V)
    (mo : List Char → M) (a : List Char) : Prop where
  cls : ∃ c, classNamed a = some c ∧ Apart c ((P a).map (·.1)) ∧ ∀ files, PyCv.createWith files c x.train.classNum (P a) = some (mo a)
  roomy : Roomy (P a)
  trains : ∀ es, InSomeOrder fmt pts es → Trainable (mo a) es

/-- In each repetition the algorithm was trained on the order of the repetition, and tested. -/
def RanAll (powf : F32 → F32 → F32) (d : Train.Disp) (m : M) (orders : Nat → List (Ex F32)) (tests : List (Ex F32)) (repeats : Nat) (k : Kept)
    (a : List Char) : Prop :=
  ∃ rows logs, k.res.lookup a = some rows ∧ k.logs.lookup a = some logs ∧ rows.length = repeats ∧ logs.length = repeats ∧
    ∀ r < repeats, ∃ row log, rows[r]? = some row ∧ logs[r]? = some (some log) ∧ Measured powf d m (orders r) tests row log

/-- The curve shows, for each number of examples, the averages of what the logs say after so many examples. -/
def Shown (logs : List Log) (c : Curve) : Prop :=
  c.updates.length = c.data.length ∧ c.errors.length = c.data.length ∧
    ∀ (i n : Nat) u e, c.data[i]? = some n → c.updates[i]? = some u → c.errors[i]? = some e →
      ∃ reps : List (Train.Report F32), List.Forall₂ (fun (log : Log) r => log[i]? = some r ∧ r.data = n) logs reps ∧
        u = (reps.map fun r => (r.upd : ℚ)).sum / reps.length ∧ e = (reps.map fun r => valueOf r.rate).sum / reps.length

end Sol.Spec
