import Verif.Model.Whole
import Verif.Spec.Cli
import Verif.Spec.DataIter
import Verif.Spec.DataTools
import Verif.Spec.Decimal
import Verif.Spec.PreProcess
import Verif.Spec.Save
import Verif.Spec.Select
/-! Vocabulary for the theorems about whole runs of `sol_train` and `sol_test`. -/

namespace Sol.Spec
open Sol.Params Sol.Online Sol.Sparse Sol.Whole

/-- The classes that keep a number of features. -/
def choosing : List Cls := [.pet, .sofs, .adaFobosOfs, .adaRdaOfs, .fofs]

/-- The model can learn from the example: ascending indexes below 2^32-1, from 1 on where features are chosen, and with several
    classes a label that is the number of a class. -/
structure Teaches (m : M) (e : Ex F32) : Prop where
  good : Good e.x
  first : m.cls ∈ choosing → ∀ p ∈ e.x, 1 ≤ p.1
  label : m.classNum = 2 ∨ (0 ≤ e.label ∧ e.label < m.classNum)

/-- Training does not run into one of the traps of the classes. -/
structure Trainable (m : M) (es : List (Ex F32)) : Prop where
  points : ∀ e ∈ es, Teaches m e
  /-- the number of features fits its type -/
  budget : m.cls ∈ [Cls.pet, .sofs, .adaFobosOfs, .adaRdaOfs] → ∃ q, m.lambda = .fin q ∧ -1 < q ∧ q < 4294967295
  features : m.cls = .fofs → m.fofsB < 4294967295
  dim : m.cls ∈ choosing → m.dim ≤ 4294967295
  /-- the regularizers of these classes know every dimension, or see it in the data -/
  covered : m.cls = .fobosL1 ∨ m.cls = .adaFobosL1 → m.lastTime.length = m.dim ∨ ∃ e ∈ es, m.dim ≤ Sparse.dim e.x
  /-- cost sensitive learning needs a hinge loss -/
  cost : m.costSensitive = true → m.loss.any isHinge = true

/-- The points of a data file as examples, for all passes. -/
def lessons (pts : List DataFile.Point) (st : Status) (passes : Int) : List (Ex F32) :=
  (filePoints pts (decide (st ≠ .endOfFile)) passes.toNat).map exOf

/-- The examples that a job reads: none without passes, and otherwise those of its file. -/
def Reads (pw : Int → F32) (W : World) (j : Cli.Job) (l : List (Ex F32)) : Prop :=
  (j.passes ≤ 0 ∧ l = []) ∨
    (0 < j.passes ∧ ∃ f pts st, W.reads j.path = some f ∧ ReadsAs pw j.format f pts st ∧ l = lessons pts st j.passes)

/-- Models are loaded as Model/LoadText.lean says.  (Nothing is said about files on which `Load` does not end, except that they give
    no model.) -/
structure Loads (W : World) : Prop where
  sound : ∀ p m, W.load p = .model m → ∃ f n junk, W.reads p = some f ∧ loadText W.files n junk (DataFile.chars f) = some (.model m)
  complete : ∀ p f, W.reads p = some f → ∃ junk, ∀ n r, loadText W.files n junk (DataFile.chars f) = some r → W.load p = r

/-- The two command lines agree on all options but those in `l`. -/
def SameBut (os : List Cmdline.Opt) (l : List String) (g g' : List (Cmdline.Opt × Option Cmdline.Val)) : Prop :=
  ∀ name, name ∉ l → (Present g name ↔ Present g' name) ∧ ∀ x, Value os g name x ↔ Value os g' name x

/-- The files that a job writes: none if no output was asked for or it cannot be opened, and otherwise this text. -/
def Wrote (W : World) (j : Cli.Job) (text : List Char) (files : List (List Char × DataFile.File)) : Prop :=
  ((∀ p, j.out = some p → W.writes p = false) ∧ files = []) ∨
    ∃ p f, j.out = some p ∧ W.writes p = true ∧ files = [(p, f)] ∧ DataFile.chars f = text

/-- The label that belongs to the scores: with two classes the sign, and otherwise the first class that no other one exceeds
    (a score that is not a number exceeds none). -/
def Picks (classes : Int) (scores : List F32) (pred : Int) : Prop :=
  if classes = 2 then ∃ x, scores = [x] ∧ pred = if 0 ≤? x then 1 else -1
  else ∃ k v, pred = ((k : Nat) : Int) ∧ scores[k]? = some v ∧
    ∀ (i : Nat) u, scores[i]? = some u → ¬ v <? u ∧ (i < k → u <? v ∨ u = .nan)

/-- The lines of the file of predictions: the label of each example, the label predicted and the scores. -/
def predictionLines (rows : List (Train.Row F32)) : List (List Char) :=
  "label\tpredict\tscores".toList :: rows.map fun r =>
    ['\t'].intercalate (intText r.label :: intText r.pred :: r.scores.map FloatText.put)

/-- The numbers of the model can be printed and read: counters of 31 bits, ordinary settings, finite vectors. -/
structure Storable (m : M) : Prop where
  t : m.t ≤ 2147483647
  k : m.k ≤ 2147483647
  dim : m.dim ≤ 2147483647
  classes : m.classNum ≤ 2147483647
  features : m.cls = .fofs → 0 < m.fofsB ∧ m.fofsB ≤ 2147483647
  settings : ∀ k x, info m k = some (.real x) → Ordinary x
  vectors : (∀ v ∈ m.w, ∀ x ∈ v, Finite x) ∧ (∀ v ∈ m.scale, ∀ x ∈ v, Finite x) ∧ (∀ v ∈ m.sum, ∀ x ∈ v, Finite x) ∧
    ∀ x ∈ m.X, Finite x

/-- The model keeps at most `B` features, at least one. -/
def Chooses (m : M) (B : Nat) : Prop :=
  1 ≤ B ∧ ((m.cls = .fofs ∧ m.fofsB = B) ∨
    (m.cls ∈ [Cls.pet, .sofs, .adaFobosOfs, .adaRdaOfs] ∧ ∃ q, m.lambda = .fin q ∧ (B : ℚ) ≤ q ∧ q < B + 1))

/-- The same model, up to printing with six digits. -/
structure SameModel (m m' : M) : Prop where
  cls : m'.cls = m.cls
  classNum : m'.classNum = m.classNum
  dim : m'.dim = m.dim
  loss : m'.loss = m.loss
  norm : m'.norm = m.norm
  settings : ∀ k, SameInfo (info m k) (info m' k)
  w : List.Forall₂ (List.Forall₂ Printed) m.w m'.w
  scale : List.Forall₂ (List.Forall₂ Printed) m.scale m'.scale
  sum : List.Forall₂ (List.Forall₂ Printed) m.sum m'.sum
  X : List.Forall₂ Printed m.X m'.X

end Sol.Spec
