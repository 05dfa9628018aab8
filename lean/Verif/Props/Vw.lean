import Verif.Proofs.Vw
/-!
# C94, C95: the experiments with other packages
-/

namespace Sol.Props
open Sol.Spec Sol.Vw
open Sol.DataSet (Files Out DataSet)
open Sol.DataFile (File chars ofChars)

/-! ### C94: Vowpal Wabbit -/

/-- The translated text has a line for each point in order, with its label (counted from 1 if there are not two classes) and its features. -/
theorem C94_convert (c : Nat) (text : List Char) (rows : List (Int × List Char)) (h : SvmText text rows) :
    convertToVw c text = (vwText (fromOne c rows), true) := svm_lines h c

/-- The accuracy is the share of right predictions. -/
theorem C94_accuracy (positive : List Char → Option Bool) (c : Nat) (rows : List (Int × List Char)) (text : List Char) (vs : List Int)
    (hf : ∀ r ∈ rows, FeatureText r.2) (h0 : c ≠ 2 → ∀ r ∈ rows, r.1 ≠ 0) (hne : rows ≠ []) (h : Predictions positive c text vs)
    (hlen : vs.length = rows.length) : calcAccuracy positive c (vwText rows) text = some (share c rows vs) := calc_ok hf h0 hne h hlen

/-- `train_test` with a shuffled file and without translated files.  What is missing: points without features, translated files of
    earlier runs, a training and a test file with the same name, and test data whose number of labels is another than in training. -/
theorem C94_train_test_partial {S : Type} (pw : Int → F32) (writes : List Char → Bool) (positive : List Char → Option Bool) (vw : Program S)
    (choice : Nat → Nat) (dtrain dtest : DataSet) (s : S) (fs : Files)
    (hdir : dtest.workDir = dtrain.workDir) (htype : dtrain.dtype = "svm".toList) (htypeT : dtest.dtype = "svm".toList)
    (shuffled data dataT : File) (rowsS rows rowsT : List (Int × List Char))
    (hS : fs (dtrain.shufflePath "svm".toList) = some shuffled) (htS : SvmText (chars shuffled) rowsS) (haS : ∀ c ∈ chars shuffled, c.toNat < 128)
    (hf : fs dtrain.dataPath = some data) (ht : SvmText (chars data) rows) (ha : ∀ c ∈ chars data, c.toNat < 128) (hne : rows ≠ [])
    (hfT : fs dtest.dataPath = some dataT) (htT : SvmText (chars dataT) rowsT) (haT : ∀ c ∈ chars dataT, c.toNat < 128) (hneT : rowsT ≠ [])
    (hclass : (dtrain.classNum = 2 ∧ dtest.classNum = 2) ∨
      (dtrain.classNum ≠ 2 ∧ dtest.classNum ≠ 2 ∧ (∀ r ∈ rows, 0 ≤ r.1) ∧ ∀ r ∈ rowsT, 0 ≤ r.1))
    (hd : ∀ q ∈ [trainPath dtrain, testPath dtrain, testPath dtest], fs q = none)
    (hw : ∀ q ∈ [trainPath dtrain, modelPath dtrain, testPath dtrain, testPath dtest, predictPath dtrain], writes q = true)
    (hnd : [trainPath dtrain, modelPath dtrain, testPath dtrain, testPath dtest, predictPath dtrain].Nodup)
    (hown : ∀ q ∈ [dtrain.dataPath, dtest.dataPath], q ≠ modelPath dtrain ∧ q ≠ predictPath dtrain)
    (m : File) (p pT : List Char) (vs vsT : List Int)
    (hl : vw.learn (if dtrain.classNum = 2 then none else some dtrain.classNum) s (vwText (fromOne dtrain.classNum rowsS)) = some m)
    (hp : vw.predict m (vwText (fromOne dtrain.classNum rows)) = some p) (hv : Predictions positive dtrain.classNum p vs)
    (hlen : vs.length = rows.length)
    (hpT : vw.predict m (vwText (fromOne dtrain.classNum rowsT)) = some pT) (hvT : Predictions positive dtrain.classNum pT vsT)
    (hlenT : vsT.length = rowsT.length) :
    ∃ fs', trainTest pw writes positive vw choice dtrain dtest s fs =
        .ok (.gives (share dtrain.classNum (fromOne dtrain.classNum rowsT) vsT, share dtrain.classNum (fromOne dtrain.classNum rows) vs) fs') ∧
      fs' (modelPath dtrain) = some m ∧
      ∀ q, q ∉ [trainPath dtrain, modelPath dtrain, testPath dtrain, testPath dtest, predictPath dtrain] → fs' q = fs q := by
  have h1 : fromOne dtest.classNum rowsT = fromOne dtrain.classNum rowsT := by
    unfold fromOne
    rcases hclass with ⟨a, b⟩ | ⟨a, b, -⟩ <;> simp [a, b]
  have h2 : ∀ rows vs, share dtest.classNum rows vs = share dtrain.classNum rows vs := by
    intro rows vs
    unfold share
    rcases hclass with ⟨a, b⟩ | ⟨a, b, -⟩ <;> simp [a, b]
  have h3 : Predictions positive dtest.classNum pT vsT := by
    obtain ⟨ps, e, hr⟩ := hvT
    refine ⟨ps, e, hr.imp fun p v h => ?_⟩
    unfold PredictionLine at h ⊢
    rcases hclass with ⟨a, b⟩ | ⟨a, b, -⟩
    · rw [if_pos a] at h
      rw [if_pos b]
      exact h
    · rw [if_neg a] at h
      rw [if_neg b]
      exact h
  have := trainTest_ok (pw := pw) (choice := choice) hdir htype htypeT hS htS haS hf ht ha hne
    (fun hc => by rcases hclass with ⟨a, -⟩ | ⟨-, -, h, -⟩; exact absurd a hc; exact h) hfT htT haT hneT
    (fun hc => by rcases hclass with ⟨-, b⟩ | ⟨-, -, -, h⟩; exact absurd b hc; exact h) hd hw hnd hown
    (by rw [ite_not]; exact hl) hp hv hlen (by rw [h1]; exact hpT) h3 hlenT
  rw [h1, h2] at this
  exact this

/-- Text of libsvm lines without spaces around them. -/
theorem svmText_of (rows : List (List Char × Int × List Char)) (h : ∀ r ∈ rows, NumberText r.1 r.2.1 ∧ FeatureText r.2.2) :
    SvmText (rows.map fun r => r.1 ++ r.2.2 ++ ['\n']).flatten (rows.map (·.2)) := by
  refine ⟨rows.map fun r => r.1 ++ r.2.2, by rw [List.map_map]; rfl, ?_⟩
  rw [List.forall₂_map_left_iff, List.forall₂_map_right_iff, List.forall₂_same]
  intro r hr
  refine ⟨[], r.1, [], by simp, ?_, ?_, (h r hr).1, (h r hr).2⟩ <;> intro c hc <;> cases hc

/-- A program whose model is the data, and which predicts 1 for the points that end with the last feature of the first point. -/
def recalls : Program Unit where
  learn _ _ t := some (ofChars t)
  predict m t := some ((lines t).flatMap fun l => if l.getLast? = ((lines (chars m)).head?.bind (·.getLast?)) then "1\n".toList else "-1\n".toList)

/-- The sign of the predictions of the program. -/
def signs (t : List Char) : Option Bool := if t = "1".toList then some true else if t = "-1".toList then some false else none

def wabbitTrain : DataSet := ⟨"./a/train".toList, "svm".toList, "svm".toList, "./cache/a".toList, "train".toList, 2, 2, 2⟩
def wabbitTest : DataSet := ⟨"./a/test".toList, "svm".toList, "svm".toList, "./cache/a".toList, "test".toList, 3, 2, 2⟩

/-- Two points for training, in another order in the shuffled file, and three points for the test. -/
def wabbitFiles : Files := fun p =>
  if p = "./a/train".toList then some (ofChars "-1 2:5\n+1 1:2\n".toList)
  else if p = "./cache/a/train.shuffle.svm".toList then some (ofChars "+1 1:2\n-1 2:5\n".toList)
  else if p = "./a/test".toList then some (ofChars "1 1:2\n0 1:2\n0 3:7\n".toList)
  else none

/-- The hypotheses of `C94_train_test_partial` hold for two small files. -/
theorem C94_instance : ∃ fs', trainTest (fun _ => 0) (fun _ => true) signs recalls id wabbitTrain wabbitTest () wabbitFiles =
      .ok (.gives (share 2 [(1, " 1:2".toList), (0, " 1:2".toList), (0, " 3:7".toList)] [1, 1, -1],
        share 2 [(-1, " 2:5".toList), (1, " 1:2".toList)] [-1, 1]) fs') ∧
    fs' "./cache/a/vw.model".toList = some (ofChars "1 | 1:2\n-1 | 2:5\n".toList) := by
  have num : ∀ (s ds : List Char) (l : Int), ds ≠ [] → Digits ds → ((s = ds ∨ s = '+' :: ds) ∧ l = decVal ds) ∨ (s = '-' :: ds ∧ l = -(decVal ds : Int)) →
      NumberText s l := fun s ds l h1 h2 h3 => ⟨ds, h1, h2, h3⟩
  have one : Digits "1".toList := by decide
  have zero : Digits "0".toList := by decide
  have feat : ∀ (mid : List Char) (last : Char), '\n' ∉ mid → last ≠ '\n' → 32 < last.toNat → FeatureText (' ' :: (mid ++ [last])) :=
    fun mid last h1 h2 h3 => ⟨' ', mid, last, rfl, .inl rfl, h1, h2, h3⟩
  have f1 : FeatureText " 1:2".toList := feat "1:".toList '2' (by decide) (by decide) (by decide)
  have f2 : FeatureText " 2:5".toList := feat "2:".toList '5' (by decide) (by decide) (by decide)
  have f3 : FeatureText " 3:7".toList := feat "3:".toList '7' (by decide) (by decide) (by decide)
  have nplus : NumberText "+1".toList 1 := num _ "1".toList _ (by decide) one (.inl ⟨.inr rfl, rfl⟩)
  have n1 : NumberText "1".toList 1 := num _ "1".toList _ (by decide) one (.inl ⟨.inl rfl, rfl⟩)
  have nneg : NumberText "-1".toList (-1) := num _ "1".toList _ (by decide) one (.inr ⟨rfl, rfl⟩)
  have n0 : NumberText "0".toList 0 := num _ "0".toList _ (by decide) zero (.inl ⟨.inl rfl, rfl⟩)
  have sS := svmText_of [("+1".toList, 1, " 1:2".toList), ("-1".toList, -1, " 2:5".toList)] (by
    simp only [List.forall_mem_cons, List.not_mem_nil, false_imp_iff, implies_true, and_true]
    exact ⟨⟨nplus, f1⟩, nneg, f2⟩)
  have sD := svmText_of [("-1".toList, -1, " 2:5".toList), ("+1".toList, 1, " 1:2".toList)] (by
    simp only [List.forall_mem_cons, List.not_mem_nil, false_imp_iff, implies_true, and_true]
    exact ⟨⟨nneg, f2⟩, nplus, f1⟩)
  have sT := svmText_of [("1".toList, 1, " 1:2".toList), ("0".toList, 0, " 1:2".toList), ("0".toList, 0, " 3:7".toList)] (by
    simp only [List.forall_mem_cons, List.not_mem_nil, false_imp_iff, implies_true, and_true]
    exact ⟨⟨n1, f1⟩, ⟨n0, f1⟩, n0, f3⟩)
  have pone : PredictionLine signs 2 "1".toList 1 := ⟨by decide, by decide, by rw [if_pos rfl]; exact ⟨true, rfl, rfl⟩⟩
  have pneg : PredictionLine signs 2 "-1".toList (-1) := ⟨by decide, by decide, by rw [if_pos rfl]; exact ⟨false, rfl, rfl⟩⟩
  obtain ⟨fs', h1, h2, -⟩ := C94_train_test_partial (fun _ => 0) (fun _ => true) signs recalls id wabbitTrain wabbitTest () wabbitFiles rfl rfl rfl
    (ofChars "+1 1:2\n-1 2:5\n".toList) (ofChars "-1 2:5\n+1 1:2\n".toList) (ofChars "1 1:2\n0 1:2\n0 3:7\n".toList)
    _ _ _ (by decide +kernel) sS (by decide +kernel) (by decide +kernel) sD (by decide +kernel) (by decide) (by decide +kernel) sT (by decide +kernel) (by decide)
    (.inl ⟨rfl, rfl⟩) (by decide +kernel) (fun _ _ => rfl) (by decide +kernel) (by decide +kernel)
    (ofChars "1 | 1:2\n-1 | 2:5\n".toList) "-1\n1\n".toList "1\n1\n-1\n".toList [-1, 1] [1, 1, -1] (by decide +kernel) (by decide +kernel)
    ⟨["-1".toList, "1".toList], rfl, .cons pneg (.cons pone .nil)⟩ rfl (by decide +kernel)
    ⟨["1".toList, "1".toList, "-1".toList], rfl, .cons pone (.cons pone (.cons pneg .nil))⟩ rfl
  exact ⟨fs', h1, h2⟩

/-- The share in the instance: two of three. -/
theorem C94_instance_share : share 2 [(1, " 1:2".toList), (0, " 1:2".toList), (0, " 3:7".toList)] [1, 1, -1] = 2 / 3 := by decide +kernel

/-- A point without features stops the translation, and what was written before it stays. -/
theorem C94_no_features (c : Nat) (text line rest : List Char) (rows : List (Int × List Char)) (h : SvmText text rows) (hne : line ≠ [])
    (hl : ∀ ch ∈ line, 32 < ch.toNat) : convertToVw c (text ++ line ++ '\n' :: rest) = (vwText (fromOne c rows), false) :=
  stops_ok h hne hl

/-- The value of a call. -/
def valueOfRun {α : Type} (r : Res (Out α)) : Option α :=
  match r with
  | .ok (.gives a _) => some a
  | _ => none

/-- The files after a call, whether it raises or not. -/
def filesOfRun {α : Type} (r : Res (Out α)) : Files :=
  match r with
  | .ok (.gives _ fs) => fs
  | .ok (.raises fs) => fs
  | .ok (.exits fs) => fs
  | _ => fun _ => none

/-- A program that predicts 1 always. -/
def sure : Program Unit where
  learn _ _ t := some (ofChars t)
  predict _ t := some ((lines t).flatMap fun _ => "1\n".toList)

/-- Test data with a point that has no feature. -/
def bareFiles : Files := fun p => if p = "./a/test".toList then some (ofChars "1 1:2\n-1\n-1 2:1\n".toList)
  else if p = "./cache/a/vw.model".toList then some [] else none

/-- Test data of another directory with the same name as the training data. -/
def elsewhere : DataSet := { wabbitTest with dataPath := "./b/train".toList }
def elsewhereFiles : Files := fun p => if p = "./b/train".toList then some (ofChars "-1 1:2\n-1 1:2\n".toList) else wabbitFiles p

/-- The same data in another order, as a repeated experiment shuffles them. -/
def again : Files := (filesOfRun (train (fun _ => 0) (fun _ => true) signs recalls id wabbitTrain () wabbitFiles)).after
  [("./cache/a/train.shuffle.svm".toList, ofChars "-1 2:5\n+1 1:2\n".toList)]

/-- Test data with one label. -/
def oneLabel : DataSet := { wabbitTest with classNum := 1 }
def oneLabelFiles : Files := fun p => if p = "./a/test".toList then some (ofChars "1 1:2\n1 3:2\n".toList) else wabbitFiles p

/-- The script does not do what C94 asks for: (1) a point without features raises an exception, and the next run takes the cut file for the
    data, here with accuracy 1 instead of 1/3; (2) after the training file is shuffled again, the model is that of the first order; (3) test data
    in a file with the name of the training file are never read: accuracy 1/2, that of the training data, instead of 0; (4) test data
    with a single label are shifted and not recognised: accuracy 0 instead of 1. -/
theorem C94_is_violated :
    (valueOfRun (test (fun _ => 0) (fun _ => true) signs sure wabbitTest bareFiles) = none ∧
      valueOfRun (test (fun _ => 0) (fun _ => true) signs sure wabbitTest
        (filesOfRun (test (fun _ => 0) (fun _ => true) signs sure wabbitTest bareFiles))) = some 1) ∧
    (filesOfRun (train (fun _ => 0) (fun _ => true) signs recalls id wabbitTrain () again) "./cache/a/vw.model".toList =
        some (ofChars "1 | 1:2\n-1 | 2:5\n".toList) ∧
      again "./cache/a/train.shuffle.svm".toList = some (ofChars "-1 2:5\n+1 1:2\n".toList)) ∧
    (valueOfRun (trainTest (fun _ => 0) (fun _ => true) signs sure id wabbitTrain elsewhere () elsewhereFiles) = some (1 / 2, 1 / 2) ∧
      share 2 [(-1, " 1:2".toList), (-1, " 1:2".toList)] [1, 1] = 0) ∧
    valueOfRun (trainTest (fun _ => 0) (fun _ => true) signs sure id wabbitTrain oneLabel () oneLabelFiles) = some (0, 1 / 2) ∧
      share 2 [(1, " 1:2".toList), (1, " 3:2".toList)] [1, 1] = 1 := by
  refine ⟨⟨?_, ?_⟩, ⟨?_, ?_⟩, ⟨?_, ?_⟩, ?_, ?_⟩ <;> decide +kernel

/-- A data file that is missing raises an exception; an empty file is left, which later calls take for the translated data. -/
theorem C94_missing {S : Type} (pw : Int → F32) (writes : List Char → Bool) (positive : List Char → Option Bool) (vw : Program S) (ds : DataSet) (fs : Files)
    (htype : ds.dtype = "svm".toList) (hf : fs ds.dataPath = none) (hd : fs (testPath ds) = none) (hw : writes (testPath ds) = true)
    (hne : ds.dataPath ≠ testPath ds) :
    ∃ fs', test pw writes positive vw ds fs = .ok (.raises fs') ∧ fs' (testPath ds) = some [] ∧
      ∀ source, translated writes ds.classNum source (testPath ds) fs' = .ok (.gives () fs') := by
  refine ⟨fs.after [(testPath ds, [])], ?_, after_one _ _ _, fun source => ?_⟩
  · have h1 : ds.convert pw writes "svm".toList fs = .ok (.gives ds.dataPath fs) := by
      unfold DataSet.convert
      rw [if_pos htype]
    have h2 : convertFile writes ds.classNum ds.dataPath (testPath ds) fs = .raises (fs.after [(testPath ds, [])]) := by
      unfold convertFile
      rw [if_pos hw, after_one_other fs [] hne, hf]
    have h3 : translated writes ds.classNum (ds.convert pw writes "svm".toList) (testPath ds) fs = .ok (.raises (fs.after [(testPath ds, [])])) := by
      unfold translated
      rw [if_neg (by simp [hd]), h1, ← h2]
      rfl
    unfold test
    rw [h3]
    rfl
  · unfold translated
    rw [if_pos (by rw [after_one]; rfl)]

/-- The hypotheses of `C94_missing` are met. -/
theorem C94_missing_hypotheses : wabbitTest.dtype = "svm".toList ∧ wabbitTest.dataPath ≠ testPath wabbitTest := by decide

/-! ### C95: liblinear -/

theorem dot_range (w r : List ℚ) : (List.zipWith (· * ·) w r).sum = ∑ j ∈ Finset.range w.length, w.getD j 0 * r.getD j 0 := by
  induction w generalizing r with
  | nil => simp
  | cons a w ih =>
    rw [List.length_cons, Finset.sum_range_succ']
    cases r with
    | nil => simp
    | cons b r => simp [ih, add_comm]

/-- L1 experiments: whatever the number of columns of the test data, each row has the score over the features of training. -/
theorem C95_l1 (w : List ℚ) (x : Mat) :
    scores w (columnsL1 w.length x) = some (x.rows.map fun r => ∑ j ∈ Finset.range w.length, w.getD j 0 * r.getD j 0) := by
  rw [scores_columnsL1]
  simp only [dot_range]

/-- L2 experiments, if the test data have no fewer columns than the training data (which is what is missing). -/
theorem C95_l2_partial (w : List ℚ) (x : Mat) (h : w.length ≤ x.cols) :
    scores w (columnsL2 w.length x) = some (x.rows.map fun r => ∑ j ∈ Finset.range w.length, w.getD j 0 * r.getD j 0) := by
  rw [scores_columnsL2 w x h]
  simp only [dot_range]

theorem C95_instance : (3 : Nat) ≤ (⟨4, [[1, 2, 0, 5]]⟩ : Mat).cols ∧ scores [1, 1 / 2, 7] (columnsL2 3 ⟨4, [[1, 2, 0, 5]]⟩) = some [2] ∧
    scores [1, 1 / 2, 7] (columnsL1 3 ⟨2, [[1, 2]]⟩) = some [2] := by
  refine ⟨by decide, ?_, ?_⟩ <;> decide +kernel

/-- L2 experiments fail for all test data with fewer columns than the training data. -/
theorem C95_is_violated (w : List ℚ) (x : Mat) (h : x.cols < w.length) : scores w (columnsL2 w.length x) = none := scores_columnsL2_none w x h

theorem C95_instance_violated : (⟨2, [[1, 2]]⟩ : Mat).cols < [1, 1 / 2, (7 : ℚ)].length ∧ scores [1, 1 / 2, 7] (columnsL2 3 ⟨2, [[1, 2]]⟩) = none := by
  refine ⟨by decide, ?_⟩
  decide +kernel

end Sol.Props
