import Verif.Proofs.TrainTest
import Verif.Spec.TrainTest
import Verif.Props.SolTrain
/-! C100: training with Python, followed by a test. -/

namespace Sol.Props
open Sol.Params Sol.Online Sol.Loss Sol.Whole Sol.Spec Sol.PySol Sol.Cv Sol.PyCv Sol.SolTrain Sol.TrainTest
open Sol.DataSet (Files DataSet)

section
variable [FFun F32] {pw : Int → F32} {powf : F32 → F32 → F32} {ρ : Nat → F32} {disp : Train.Disp} {V : Type} [PyVal V] {st : Style V}
  {writes : List Char → Bool} {load : List Char → Loaded} {choice : Nat → Nat}

theorem lessons_once (pts : List DataFile.Point) : lessons pts .endOfFile 1 = pts.map exOf := by
  unfold lessons filePoints
  simp

theorem test_calls (W : World) (j : Job V) (test : DataSet) {m : M} {files : List Char → Option (List Char)} (hm : Reached files m)
    {pts tests : List DataFile.Point} {file tfile : DataFile.File}
    (hf : W.reads j.ds.dataPath = some file) (hr : ReadsAs pw j.ds.dtype file pts .endOfFile) (hp : 1 ≤ j.passes)
    (htf : W.reads test.dataPath = some tfile) (htr : ReadsAs pw test.dtype tfile tests .endOfFile)
    (hte : ∀ p ∈ tests, Sparse.Ascending (exOf p).x)
    (ht : Trainable m (lessons pts .endOfFile j.passes)) (hc : j.output = none ∨ m.cls ∈ settled) (size num : Nat) (hs : 1 ≤ size) (hn : 1 ≤ num) :
    (∃ e, PySol.Session pw powf ρ disp W (Py.start m size num) (calls j test) e) ∧
    ∀ e, PySol.Session pw powf ρ disp W (Py.start m size num) (calls j test) e →
      TrainedThenTested powf ρ disp W m pts tests j.passes j.output e := by
  obtain ⟨sv, hsv⟩ : ∃ sv : List (Op × List (Ex F32)), sv = (j.output.map fun p => (Op.save p, ([] : List (Ex F32)))).toList := ⟨_, rfl⟩
  have hsv' : ∀ p ∈ sv, ∃ q, j.output = some q ∧ p = (Op.save q, []) := by
    intro p hp'
    rw [hsv] at hp'
    cases ho : j.output with
    | none => rw [ho] at hp'; cases hp'
    | some q => rw [ho] at hp'; exact ⟨q, rfl, List.mem_singleton.1 hp'⟩
  obtain ⟨ops, hops⟩ : ∃ ops : List (Op × List (Ex F32)), ops = (.fit j.ds.dataPath j.ds.dtype j.passes, lessons pts .endOfFile j.passes) ::
    (sv ++ [(.score test.dataPath test.dtype, tests.map exOf)]) := ⟨_, rfl⟩
  have hcalls : ops.map (·.1) = calls j test := by
    rw [hops, hsv, calls, Job.calls]
    cases j.output <;> rfl
  have htaught : taught ops = [lessons pts .endOfFile j.passes] := by
    rw [hops, hsv]
    cases j.output <;> simp [taught, isFit]
  obtain ⟨h1, h2⟩ := C85_session_partial (pw := pw) (powf := powf) (ρ := ρ) (d := disp) W m hm ops (by
      intro p hp'
      rw [hops] at hp'
      rcases List.mem_cons.1 hp' with rfl | h
      · exact ⟨file, hf, .inr ⟨by exact_mod_cast hp, pts, .endOfFile, hr, rfl⟩⟩
      · rcases List.mem_append.1 h with h | h
        · obtain ⟨q, -, rfl⟩ := hsv' p h
          rfl
        · obtain rfl := List.mem_singleton.1 h
          exact ⟨tfile, htf, .inr ⟨by norm_num, tests, .endOfFile, htr, (lessons_once tests).symm⟩⟩)
    (fun _ => by rw [htaught]; simpa using ht) (by
      intro p hp' hfit e he
      rw [hops] at hp'
      rcases List.mem_cons.1 hp' with rfl | h
      · cases hfit
      · rcases List.mem_append.1 h with h | h
        · obtain ⟨q, -, rfl⟩ := hsv' p h
          cases he
        · obtain rfl := List.mem_singleton.1 h
          obtain ⟨t, ht', rfl⟩ := List.mem_map.1 he
          exact hte t ht')
    (by
      rcases hc with h | h
      · refine .inr ⟨[], [.fit j.ds.dataPath j.ds.dtype j.passes], [.score test.dataPath test.dtype], ?_, by simp, by simp [isFit], by simp [isFit], by simp⟩
        rw [hcalls, calls, Job.calls, h]
        rfl
      · exact .inl h) size num hs hn
  rw [hcalls] at h1 h2
  refine ⟨h1, fun e he => ?_⟩
  obtain ⟨s, rs, rfl, h3, h4⟩ := h2 e he
  obtain ⟨m', hm', -⟩ := trainModel_trained hm powf ρ disp [lessons pts .endOfFile j.passes] (by simpa using ht)
  have hall : ∀ ls m₂, ls = [lessons pts .endOfFile j.passes] → TaughtAll powf ρ disp m ls m₂ → m₂ = m' := by
    rintro ls m₂ rfl (⟨h5, -⟩ | ⟨-, h5⟩)
    · cases h5
    · rw [List.flatten_cons, List.flatten_nil, List.append_nil, hm'] at h5
      cases h5
      rfl
  cases ho : j.output with
  | none =>
    rw [ho] at hsv
    subst hsv
    rw [hops] at h3
    obtain ⟨r, r', rfl⟩ : ∃ r r', rs = [r, r'] := List.length_eq_two.1 (by simpa using h3)
    have k1 := h4 0 _ _ r (by rw [hops]; rfl) rfl
    obtain ⟨x, rfl, k1⟩ : ∃ x, r = .rate x ∧ RateOfAll powf ρ disp m (taught (ops.take 0) ++ [lessons pts .endOfFile j.passes]) x := k1
    obtain ⟨m₂, k2, rows, y, k3, rfl⟩ := h4 1 (.score test.dataPath test.dtype) (tests.map exOf) r' (by rw [hops]; rfl) rfl
    obtain rfl := hall _ m₂ (by rw [hops]; rfl) k2
    exact ⟨m₂, s, x, [], rows, y, hm', rfl, k1, fun _ => rfl, fun p h => by simp at h, k3⟩
  | some p =>
    rw [ho] at hsv
    subst hsv
    rw [hops] at h3
    obtain ⟨r, r', r'', rfl⟩ : ∃ r r' r'', rs = [r, r', r''] := List.length_eq_three.1 (by simpa using h3)
    have k1 := h4 0 _ _ r (by rw [hops]; rfl) rfl
    obtain ⟨x, rfl, k1⟩ : ∃ x, r = .rate x ∧ RateOfAll powf ρ disp m (taught (ops.take 0) ++ [lessons pts .endOfFile j.passes]) x := k1
    obtain ⟨m₁, k4, k5⟩ := h4 1 (.save p) [] r' (by rw [hops]; rfl) rfl
    obtain rfl := hall _ m₁ (by rw [hops]; rfl) k4
    obtain ⟨m₂, k2, rows, y, k3, rfl⟩ := h4 2 (.score test.dataPath test.dtype) (tests.map exOf) r'' (by rw [hops]; rfl) rfl
    obtain rfl := hall _ m₂ (by rw [hops]; rfl) k2
    exact ⟨m₂, s, x, [r'], rows, y, hm', rfl, k1, fun h => by simp at h, fun q h => by
      cases h
      exact ⟨r', rfl, k5⟩, k3⟩

/-- What is made of the settings `p`, in whatever order, and done with it. -/
theorem settled_tests (j : Job V) (test : DataSet) (fs : Files) {p : Dict V} (hd : Apart j.cls (p.map (·.1))) {m : M}
    (hm : createWith (World.files ⟨fs, writes, load⟩) j.cls j.ds.classNum p = some m) (hroom : Roomy p)
    {pts tests : List DataFile.Point} {file tfile : DataFile.File}
    (hf : fs j.ds.dataPath = some file) (hr : ReadsAs pw j.ds.dtype file pts .endOfFile) (hp : 1 ≤ j.passes)
    (htf : fs test.dataPath = some tfile) (htr : ReadsAs pw test.dtype tfile tests .endOfFile)
    (hte : ∀ p ∈ tests, Sparse.Ascending (exOf p).x)
    (ht : ∀ es, (∀ e ∈ es, ∃ p ∈ pts, e = exOf p) → Trainable m es) (hc : j.output = none ∨ j.cls ∈ settled) {q : Dict V} (hq : q.Perm p) :
    ∃ s, newObject (World.files ⟨fs, writes, load⟩) j.cls j.ds.classNum q = some s ∧
      (∃ e, PySol.Session pw powf ρ disp ⟨fs, writes, load⟩ s (calls j test) e) ∧
      ∀ e, PySol.Session pw powf ρ disp ⟨fs, writes, load⟩ s (calls j test) e →
        TrainedThenTested powf ρ disp ⟨fs, writes, load⟩ m pts tests j.passes j.output e := by
  have hm' : createWith (World.files ⟨fs, writes, load⟩) j.cls j.ds.classNum q = some m := by
    rw [← hm]
    refine C87_python_partial _ hq ?_
    have h1 : (PyCv.settings q).map (fun p => slotOf j.cls p.1) = ((q.filter fun p => p.1 ∉ PyCv.ownNames).map (·.1)).map (slotOf j.cls) := by
      simp only [PyCv.settings, List.map_map]
      rfl
    rw [h1]
    have h2 : ((q.map (·.1)).map (slotOf j.cls)).Nodup := ((hq.map _).map _).nodup_iff.2 hd
    exact h2.sublist ((List.filter_sublist.map _).map _)
  have hroom' : Roomy q := fun x hx => hroom x (hq.subset hx)
  obtain ⟨⟨size, h1⟩, num, h2⟩ := sizes_of hroom'
  exact ⟨_, newObject_start hm' h1 h2, test_calls ⟨fs, writes, load⟩ j test (create_reached hm') hf hr hp htf htr hte
    (ht _ fun e he => lessons_mem he) (hc.imp id fun h => by rw [create_cls hm]; exact h) size num (sizeOf_pos (by norm_num) h1)
    (sizeOf_pos (by norm_num) h2)⟩

/-- **C100 (given settings), the part that holds.** Without cross validation, `train_test` makes the model of the given settings, trains it on
    the one data set like `sol_train` does, and tests it on the other like `sol_test` does. -/
theorem C100_given_partial (pts tests : List DataFile.Point) (j : Job V) (test : DataSet) (fs : Files) (file tfile : DataFile.File)
    (hf : fs j.ds.dataPath = some file) (hr : ReadsAs pw j.ds.dtype file pts .endOfFile) (hp : 1 ≤ j.passes)
    (htf : fs test.dataPath = some tfile) (htr : ReadsAs pw test.dtype tfile tests .endOfFile)
    (hte : ∀ p ∈ tests, Sparse.Ascending (exOf p).x) (hg : j.grid = none) (hd : Apart j.cls (j.params.map (·.1)))
    (hc : j.output = none ∨ j.cls ∈ settled) (m : M) (hm : createWith (World.files ⟨fs, writes, load⟩) j.cls j.ds.classNum j.params = some m)
    (hroom : Roomy j.params) (ht : ∀ es, (∀ e ∈ es, ∃ p ∈ pts, e = exOf p) → Trainable m es) :
    (∃ e, TrainTests pw powf ρ disp st writes load choice j test fs e) ∧
    ∀ e, TrainTests pw powf ρ disp st writes load choice j test fs e → ∃ e', e = some (fs, e') ∧
      TrainedThenTested powf ρ disp ⟨fs, writes, load⟩ m pts tests j.passes j.output e' := by
  have hset : ∀ r, Settles pw powf ρ disp st writes load choice j fs r → r = some (fs, j.params) := by
    intro r h
    cases h with
    | given => rfl
    | again h => rw [hg] at h; cases h
    | refused h => rw [hg] at h; cases h
    | unsplit h => rw [hg] at h; cases h
    | chosen h => rw [hg] at h; cases h
  have key := fun (q : Dict V) (hq : q.Perm j.params) => settled_tests (pw := pw) (powf := powf) (ρ := ρ) (disp := disp) (writes := writes) (load := load)
    j test fs hd hm hroom hf hr hp htf htr hte ht hc hq
  constructor
  · obtain ⟨s, h1, ⟨e, h2⟩, -⟩ := key _ (.refl _)
    exact ⟨_, .done (.given hg) (.refl _) h1 h2⟩
  · intro e he
    cases he with
    | unsettled h => cases hset _ h
    | refused h hq hm' =>
      cases hset _ h
      obtain ⟨s, h1, -⟩ := key _ hq
      rw [h1] at hm'
      cases hm'
    | done h hq hm' hs =>
      cases hset _ h
      obtain ⟨s, h1, -, h2⟩ := key _ hq
      rw [h1] at hm'
      cases hm'
      exact ⟨_, rfl, h2 _ hs⟩

/-- The choice of settings changes no files but those of the folds and of the results. -/
theorem settles_keeps {j : Job V} {fs fs' : Files} {p : Dict V} (h : Settles pw powf ρ disp st writes load choice j fs (some (fs', p))) {path : List Char}
    (ha : ∀ s, path ≠ DataSet.join j.ds.workDir (j.ds.dataName ++ s)) (hcv : path ≠ j.cvPath) : fs' path = fs path := by
  generalize hr : some (fs', p) = r at h
  cases h with
  | given => cases hr; rfl
  | @again g f _ _ _ =>
    cases hl : loadResults st (DataFile.chars f) with
    | none => rw [hl] at hr; cases hr
    | some b => rw [hl] at hr; cases hr; rfl
  | refused => cases hr
  | unsplit => cases hr
  | @chosen g ds₂ fs₂ lib cv cv' _ _ _ hs _ _ =>
    cases hb : cv'.best with
    | none => rw [hb] at hr; cases hr
    | some b =>
      cases ht : resultsText st g cv' with
      | none => rw [hb, ht] at hr; cases hr
      | some text =>
        rw [hb, ht] at hr
        change some (fs', p) = if writes j.cvPath then _ else _ at hr
        split at hr
        · cases hr
          rw [DataSet.after_other (by simpa using hcv)]
          refine DataSet.splitFile_other hs fun i e => ?_
          exact ha _ (e.trans (DataSet.fold_cached j.ds .bin i))
        · cases hr

section
variable (hpw : Powf pw) (t : F32) (pts : List DataFile.Point) (j : Job V) (fs : Files) (ha : Aside writes j.ds) (h : Coherent pw t pts j.ds fs)
  (hw : Workable pts) (hs : ∀ p ∈ pts, BinaryPoint p) (hn : 2 ≤ j.folds) (hn2 : j.folds < 2 ^ 31) (hp : 1 ≤ j.passes)
  (g : List (String × List V)) (hg : j.grid = some g) (h0 : g ≠ []) (h1 : ∀ p ∈ g, p.2 ≠ []) (hprocs : 1 ≤ j.procs)
  (hnew : j.retrain = true ∨ fs j.cvPath = none) (hwr : writes j.cvPath = true) (hcv : j.cvPath ≠ j.ds.dataPath)
  (hd : Apart j.cls (g.map (·.1) ++ j.params.map (·.1))) (hB : ∀ x ∈ j.params, x.1 ≠ "B" ∧ x.1 ≠ "lambda")
  (hm : ∀ c, Combination g c → ∃ m, (∀ files, createWith files j.cls j.ds.classNum (update c j.params) = some m) ∧
    Roomy (update c j.params) ∧ ∀ es, (∀ e ∈ es, ∃ p ∈ pts, e = exOf p) → Trainable m es)
include hpw ha h hw hs hn hn2 hp hg h0 h1 hprocs hnew hwr hcv hB hm hd

/-- **C100 (cross validation), the part that holds.** With cross validation, `train_test` trains the model with the settings that had the best
    average accuracy on held out points on the whole data set, and tests it on the other data set, whose points had no part in the choice. -/
theorem C100_train_partial (hc : j.output = none ∨ j.cls ∈ settled) (test : DataSet) (tests : List DataFile.Point) (tfile : DataFile.File)
    (htf : fs test.dataPath = some tfile) (htr : ReadsAs pw test.dtype tfile tests .endOfFile) (hte : ∀ p ∈ tests, Sparse.Ascending (exOf p).x)
    (hta : ∀ s, test.dataPath ≠ DataSet.join j.ds.workDir (j.ds.dataName ++ s)) (htc : test.dataPath ≠ j.cvPath) :
    ∃ parts, SplitInto pw writes j.ds pts j.folds choice fs parts ∧ ((∀ l ∈ parts, l ≠ []) →
      (∃ e, TrainTests pw powf ρ disp st writes load choice j test fs e) ∧
      ∀ e, TrainTests pw powf ρ disp st writes load choice j test fs e → ∃ fs' e' c files m,
        BestOnHeldOut powf ρ disp files j.cls j.ds.classNum (parts.map fun l => l.map exOf) j.passes g j.params c ∧
        createWith files j.cls j.ds.classNum (update c j.params) = some m ∧ e = some (fs', e') ∧
        TrainedThenTested powf ρ disp ⟨fs', writes, load⟩ m pts tests j.passes j.output e') := by
  obtain ⟨parts, p1, p3⟩ := C88_choice_partial (powf := powf) (ρ := ρ) (disp := disp) (st := st) (load := load) (choice := choice) hpw t pts j fs ha h hw hs
    hn hn2 hp g hg h0 h1 hprocs hnew hwr hcv hB hm
  refine ⟨parts, p1, fun hne => ?_⟩
  obtain ⟨⟨r, hr⟩, hset⟩ := p3 hne
  have key : ∀ r, Settles pw powf ρ disp st writes load choice j fs r → ∃ fs' p c files m, r = some (fs', p) ∧
      BestOnHeldOut powf ρ disp files j.cls j.ds.classNum (parts.map fun l => l.map exOf) j.passes g j.params c ∧
      createWith files j.cls j.ds.classNum (update c j.params) = some m ∧ ∀ q, q.Perm p →
        ∃ s, newObject (World.files ⟨fs', writes, load⟩) j.cls j.ds.classNum q = some s ∧
      (∃ e, PySol.Session pw powf ρ disp ⟨fs', writes, load⟩ s (calls j test) e) ∧
      ∀ e, PySol.Session pw powf ρ disp ⟨fs', writes, load⟩ s (calls j test) e →
        TrainedThenTested powf ρ disp ⟨fs', writes, load⟩ m pts tests j.passes j.output e := by
    intro r hr
    obtain ⟨fs', c, files, rfl, ⟨file, f1, f2⟩, k2, -⟩ := hset r hr
    obtain ⟨m, m1, m2, m3⟩ := hm c k2.1
    have hnames := combination_names k2.1
    have hnd : ((c ++ j.params).map (·.1)).Nodup := by
      rw [List.map_append, hnames]
      exact hd.of_map
    have hperm : (update j.params c).Perm (update c j.params) := by
      rw [update_append hnd, update_append (((List.perm_append_comm.map _).nodup_iff).1 hnd)]
      exact List.perm_append_comm
    refine ⟨fs', _, c, files, m, rfl, k2, m1 files, fun q hq => ?_⟩
    refine settled_tests j test fs' ?_ (m1 _) m2 f1 f2 hp ((settles_keeps hr hta htc).trans htf) htr hte m3 hc (hq.trans hperm)
    rw [update_append hnd, List.map_append, hnames]
    exact hd
  constructor
  · obtain ⟨fs', p, c, files, m, rfl, -, -, k⟩ := key r hr
    obtain ⟨s, s1, ⟨e, s2⟩, -⟩ := k p (.refl _)
    exact ⟨_, .done hr (.refl _) s1 s2⟩
  · intro e he
    cases he with
    | unsettled h => obtain ⟨_, _, _, _, _, h, -⟩ := key _ h; cases h
    | refused h hq hm' =>
      obtain ⟨_, _, _, _, _, h, -, -, k⟩ := key _ h
      cases h
      obtain ⟨s, s1, -⟩ := k _ hq
      rw [s1] at hm'
      cases hm'
    | done h hq hm' hs =>
      obtain ⟨_, _, c, files, m, h, k1, k2, k⟩ := key _ h
      cases h
      obtain ⟨s, s1, -, s2⟩ := k _ hq
      rw [s1] at hm'
      cases hm'
      exact ⟨_, _, c, files, m, k1, k2, rfl, s2 _ hs⟩

end
end

/-- A data set whose file is this one. -/
def dataSetAt (path : List Char) : DataSet := { DataSet.unread path path svm with dataPath := path, dtype := svm }

/-- A training without cross validation. -/
def plainJob (c : Cls) (passes : Nat) (output : Option (List Char)) : Job (List Char) :=
  ⟨dataSetAt fileD, passes, [], c, [], output, 5, none, false, 1⟩

/-- **C100.** A Perceptron makes one mistake in training on one file, is saved, and makes none in the test on another. -/
theorem C100_instance :
    Returns smallDisk (fresh .perceptron 2) (calls (plainJob .perceptron 1 (some "m".toList)) (dataSetAt fileE))
      [.rate (.fin (1 / 2)), .saved (DataFile.ofChars (perceptronFile "4" "2" "0 0 -1.5 0").toList), .rate 0] :=
  returns_decide (by decide +kernel)

/-- The hypotheses of `C100_given_partial` are met by this call. -/
theorem C100_hypotheses_given :
    letI : FFun F32 := unusedFun
    ∃ (pts tests : List DataFile.Point) (file tfile : DataFile.File),
      smallDisk.reads (plainJob .perceptron 1 (some "m".toList)).ds.dataPath = some file ∧
      ReadsAs bestPow (plainJob .perceptron 1 (some "m".toList)).ds.dtype file pts .endOfFile ∧ pts.length = 2 ∧
      smallDisk.reads (dataSetAt fileE).dataPath = some tfile ∧ ReadsAs bestPow (dataSetAt fileE).dtype tfile tests .endOfFile ∧ tests.length = 1 ∧
      (∀ p ∈ tests, Sparse.Ascending (exOf p).x) ∧ Apart .perceptron ((plainJob .perceptron 1 none).params.map (·.1)) ∧ Cls.perceptron ∈ settled ∧
      createWith noFiles .perceptron 2 (plainJob .perceptron 1 none).params = some (fresh .perceptron 2) ∧ Roomy (plainJob .perceptron 1 none).params ∧
      ∀ es, (∀ e ∈ es, ∃ p ∈ pts, e = exOf p) → Trainable (fresh .perceptron 2) es := by
  letI : FFun F32 := unusedFun
  have hgood : ∀ p ∈ ([⟨1, [(1, .fin (1 / 2)), (3, .fin 2)]⟩, ⟨-1, [(2, .fin (3 / 2))]⟩] : List DataFile.Point), Good (exOf p).x := by
    unfold Good Sparse.Ascending
    decide
  refine ⟨[⟨1, [(1, .fin (1 / 2)), (3, .fin 2)]⟩, ⟨-1, [(2, .fin (3 / 2))]⟩], [⟨1, [(1, .fin 2)]⟩], DataFile.ofChars good.toList,
    DataFile.ofChars "1 1:2\n".toList, by decide +kernel, ⟨⟨.svm, 4096, DataFile.ofChars good.toList⟩, by decide +kernel, by decide +kernel⟩, rfl,
    by decide +kernel, ⟨⟨.svm, 4096, DataFile.ofChars "1 1:2\n".toList⟩, by decide +kernel, by decide +kernel⟩, rfl, ?_, by unfold Apart; decide, by decide,
    rfl, fun p hp => (by cases hp), fun es hes => ?_⟩
  · unfold Sparse.Ascending
    decide
  · exact ⟨fun e he => ⟨by obtain ⟨p, hp, rfl⟩ := hes e he; exact hgood p hp, fun h => absurd h (by decide), .inl rfl⟩, fun h => absurd h (by decide),
      fun h => absurd h (by decide), fun h => absurd h (by decide), fun h => absurd h (by decide), fun h => absurd h (by decide)⟩

/-- The hypotheses of `C100_train_partial` that are not those of `C88_train_partial` are met too: a test on the training data. -/
theorem C100_hypotheses :
    letI : FFun F32 := unusedFun
    ∃ ds fs tfile, Aside (fun _ => true) (smallJob ds).ds ∧ Coherent bestPow (.fin 1) twoPoints (smallJob ds).ds fs ∧ fs ds.dataPath = some tfile ∧
      ReadsAs bestPow ds.dtype tfile twoPoints .endOfFile ∧ (∀ p ∈ twoPoints, Sparse.Ascending (exOf p).x) ∧
      (∀ s, ds.dataPath ≠ DataSet.join (smallJob ds).ds.workDir ((smallJob ds).ds.dataName ++ s)) ∧ ds.dataPath ≠ (smallJob ds).cvPath := by
  letI : FFun F32 := unusedFun
  obtain ⟨ds, fs, -, h1, h2, h3, -⟩ := C88_hypotheses
  obtain ⟨f, h4, h5⟩ := h2.data
  refine ⟨ds, fs, f, h1, h2, h4, h5, ?_, h1.data, fun e => h3 e.symm⟩
  unfold Sparse.Ascending
  decide

/-- **C100 is violated.** With a lazy regularizer the model in the file is not the one that is tested: its weights have not been brought
    up to date (those of the trained model are in `lassoFile`), and the test comes after that. -/
theorem C100_is_violated :
    Returns smallDisk { fresh .fobosL1 2 with lambda := .fin (1 / 8) } (calls (plainJob .fobosL1 2 (some "m".toList)) (dataSetAt fileE))
      [.rate (.fin (1 / 4)), .saved (lassoWith "[ 0 0.323223 -0.883883 1.82322 ]\n"), .rate 0] ∧
    lassoWith "[ 0 0.323223 -0.883883 1.82322 ]\n" ≠ DataFile.ofChars lassoFile.toList :=
  ⟨returns_decide (by decide +kernel), by decide +kernel⟩

end Sol.Props
