import Verif.Model.DataSet
/-!
# Model of the experiments with Vowpal Wabbit (experiments/vw.py)

The script translates libsvm text for the program `vw`, runs the program to train and to predict, and counts the right predictions.

Simplifications: the program is a pair of functions, from the settings and the text of the data to the file with the model, and from this
file and the text to the predictions; the settings are given (cross validation, which is that of another package, is left out), and so is the
readable model; text is ASCII, and lines end with `\n`; times and messages are left out.
-/

namespace Sol.Vw
open Sol.DataSet (Files Out DataSet join basename space)
open Sol.DataFile (File chars ofChars)

/-- `str.strip`. -/
def strip (s : List Char) : List Char := ((s.dropWhile space).reverse.dropWhile space).reverse

/-- The text cut at the ends of lines; the last piece is what follows the last of them. -/
def cut : List Char → List (List Char)
  | [] => [[]]
  | c :: s => if c = '\n' then [] :: cut s else match cut s with
    | [] => [[c]]
    | p :: ps => (c :: p) :: ps

/-- The lines that a loop with `readline().strip()` sees until one is empty (vw.py:30-33, 48-52). -/
def lines (text : List Char) : List (List Char) := ((cut text).map strip).takeWhile (· ≠ [])

/-- Digits as a number. -/
def digits (s : List Char) : Option Nat := if s ≠ [] ∧ s.all Char.isDigit then some (Nat.ofDigitChars 10 s 0) else none

/-- `int(s)`. -/
def pyInt (s : List Char) : Option Int :=
  match strip s with
  | '-' :: t => (digits t).map fun (n : Nat) => -(n : Int)
  | '+' :: t => (digits t).map fun (n : Nat) => (n : Int)
  | t => (digits t).map fun (n : Nat) => (n : Int)

/-- `'%s' % label` for a whole number. -/
def showInt (v : Int) : List Char := if v < 0 then '-' :: Nat.toDigits 10 v.natAbs else Nat.toDigits 10 v.natAbs

/-- One line of `convert_to_vw` (vw.py:34-41); `none`: an exception, also for the index behind the end of the line. -/
def convertLine (classNum : Nat) (line : List Char) : Option (List Char) :=
  let rest := line.dropWhile fun c => c ≠ ' ' ∧ c ≠ '\t'
  if rest = [] then none
  else (pyInt (line.takeWhile fun c => c ≠ ' ' ∧ c ≠ '\t')).map fun l =>
    showInt (if classNum ≠ 2 then l + 1 else l) ++ " |".toList ++ rest ++ ['\n']

/-- The loop of `convert_to_vw` (vw.py:28-41): what was written, and whether it ended without an exception. -/
def convertLines (classNum : Nat) : List (List Char) → List Char × Bool
  | [] => ([], true)
  | line :: l =>
    match convertLine classNum line with
    | none => ([], false)
    | some t => (t ++ (convertLines classNum l).1, (convertLines classNum l).2)

/-- `convert_to_vw` (vw.py:23-41). -/
def convertToVw (classNum : Nat) (text : List Char) : List Char × Bool := convertLines classNum (lines text)

/-- A label in `calc_accuracy` (vw.py:53-55). -/
def labelOf (line : List Char) : Option Int := (pyInt (line.takeWhile (· ≠ '|'))).map fun v => if v = 0 then -1 else v

/-- `calc_accuracy` (vw.py:43-67); `positive`: `float(v) > 0`. -/
def calcAccuracy (positive : List Char → Option Bool) (classNum : Nat) (test predict : List Char) : Option ℚ := do
  let labels ← (lines test).mapM labelOf
  let preds := ((cut predict).map strip).filter (· ≠ [])
  let predicts ← if classNum = 2 then preds.mapM fun v => (positive v).map fun b => if b then (1 : Int) else -1 else preds.mapM pyInt
  if labels.length = predicts.length ∧ labels ≠ [] then some (((labels.zip predicts).countP fun p => p.1 = p.2 : Nat) / (labels.length : ℚ)) else none

/-- The program: with the number of classes if it is not 2 (vw.py:176-177), the settings and the data it makes a model, and with a model
    and data predictions; `none`: a status other than 0. -/
structure Program (S : Type) where
  learn : Option Nat → S → List Char → Option File
  predict : File → List Char → Option (List Char)

section
variable {S : Type} (pw : Int → F32) (writes : List Char → Bool) (positive : List Char → Option Bool) (vw : Program S)

/-- `convert_to_vw(src, dst, class_num)`, with `dst` opened first. -/
def convertFile (classNum : Nat) (src dst : List Char) (fs : Files) : Out Unit :=
  if writes dst then
    match (fs.after [(dst, [])]) src with
    | none => .raises (fs.after [(dst, [])])
    | some f =>
      let r := convertToVw classNum (chars f)
      if r.2 then .gives () (fs.after [(dst, ofChars r.1)]) else .raises (fs.after [(dst, ofChars r.1)])
  else .raises fs

/-- The translated file, which is made if there is none (vw.py:103-104, 189-190); `source`: the method that gives the libsvm text. -/
def translated (classNum : Nat) (source : Files → Res (Out (List Char))) (dst : List Char) (fs : Files) : Res (Out Unit) :=
  if (fs dst).isSome then .ok (.gives () fs)
  else (source fs).bind fun o => .ok (match o with
    | .gives src fs => convertFile writes classNum src dst fs
    | .raises fs => .raises fs
    | .exits fs => .exits fs)

def modelPath (ds : DataSet) : List Char := join ds.workDir "vw.model".toList
def predictPath (ds : DataSet) : List Char := join ds.workDir "vw.predict".toList
/-- vw.py:102 -/
def testPath (ds : DataSet) : List Char := join ds.workDir (basename ds.dataPath ++ ".vw".toList)
/-- vw.py:188 -/
def trainPath (ds : DataSet) : List Char := ds.shufflePath "svm".toList ++ ".vw".toList

/-- `test` (vw.py:81-113). -/
def test (ds : DataSet) (fs : Files) : Res (Out ℚ) :=
  (translated writes ds.classNum (ds.convert pw writes "svm".toList) (testPath ds) fs).bind fun o => .ok (match o with
    | .gives _ fs =>
      match fs (modelPath ds), fs (testPath ds) with
      | some m, some f =>
        match vw.predict m (chars f) with
        | none => .exits fs
        | some p =>
          if writes (predictPath ds) then
            match calcAccuracy positive ds.classNum (chars f) p with
            | none => .raises (fs.after [(predictPath ds, ofChars p)])
            | some a => .gives a (fs.after [(predictPath ds, ofChars p)])
          else .exits fs
      | _, _ => .exits fs
    | .raises fs => .raises fs
    | .exits fs => .exits fs)

/-- `train` without cross validation (vw.py:175-207). -/
def train (choice : Nat → Nat) (ds : DataSet) (s : S) (fs : Files) : Res (Out ℚ) :=
  (ds.randPath pw writes (some "svm".toList) false choice fs).bind fun o => match o with
    | .gives _ fs =>
      (translated writes ds.classNum (ds.randPath pw writes (some "svm".toList) false choice) (trainPath ds) fs).bind fun o => match o with
        | .gives _ fs =>
          match fs (trainPath ds) with
          | none => .ok (.exits fs)
          | some f =>
            match vw.learn (if ds.classNum ≠ 2 then some ds.classNum else none) s (chars f) with
            | none => .ok (.exits fs)
            | some m => if writes (modelPath ds) then test pw writes positive vw ds (fs.after [(modelPath ds, m)]) else .ok (.exits fs)
        | .raises fs => .ok (.raises fs)
        | .exits fs => .ok (.exits fs)
    | .raises fs => .ok (.raises fs)
    | .exits fs => .ok (.exits fs)

/-- `train_test` (vw.py:209-233): the accuracies of the test and of the training. -/
def trainTest (choice : Nat → Nat) (dtrain dtest : DataSet) (s : S) (fs : Files) : Res (Out (ℚ × ℚ)) :=
  (train pw writes positive vw choice dtrain s fs).bind fun o => match o with
    | .gives a fs => (test pw writes positive vw dtest fs).bind fun o => .ok (match o with
      | .gives b fs => .gives (b, a) fs
      | .raises fs => .raises fs
      | .exits fs => .exits fs)
    | .raises fs => .ok (.raises fs)
    | .exits fs => .ok (.exits fs)

end

/-! ### Columns of the test data for liblinear (experiments/liblinear.py) -/

/-- A matrix with its number of columns. -/
structure Mat where
  cols : Nat
  rows : List (List ℚ)
deriving DecidableEq, Repr

/-- `train_test_l2` (liblinear.py:85-90): the padding has `x_train.shape[1] - x_train.shape[1]` columns. -/
def columnsL2 (n : Nat) (x : Mat) : Mat :=
  if x.cols < n then ⟨x.cols + (n - n), x.rows.map (· ++ List.replicate (n - n) 0)⟩
  else if x.cols > n then ⟨n, x.rows.map (·.take n)⟩ else x

/-- `train_test_l1` (liblinear.py:141-146). -/
def columnsL1 (n : Nat) (x : Mat) : Mat :=
  if x.cols < n then ⟨x.cols + (n - x.cols), x.rows.map (· ++ List.replicate (n - x.cols) 0)⟩
  else if x.cols > n then ⟨n, x.rows.map (·.take n)⟩ else x

/-- Of the model of the package only this: with another number of columns than in training it raises a `ValueError`, and else the score
    of a row is the sum of the products (one class vector). -/
def scores (w : List ℚ) (x : Mat) : Option (List ℚ) :=
  if x.cols = w.length then some (x.rows.map fun r => (List.zipWith (· * ·) w r).sum) else none

end Sol.Vw
