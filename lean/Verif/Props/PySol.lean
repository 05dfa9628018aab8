import Verif.Proofs.PyTaught
import Verif.Props.Whole
/-! C85: sessions with an object of the Python class. -/

namespace Sol.Props
open Sol.Params Sol.Online Sol.Loss Sol.Whole Sol.Spec Sol.PySol

section
variable [FFun F32] {pw : Int → F32} {powf : F32 → F32 → F32} {ρ : Nat → F32} {d : Train.Disp}

/-- **C85.** A session with an object has one outcome: what the calls return and the model in the end do not depend on the reading threads,
    on the batch size and on the buffer size. -/
theorem C85_one_outcome (W : World) (m : M) (ops : List Op) :
    ∃ r : Res (Obj × List Ret), ∀ size num, 1 ≤ size → 1 ≤ num →
      (∃ e, PySol.Session pw powf ρ d W (Py.start m size num) ops e) ∧
      ∀ e, PySol.Session pw powf ρ d W (Py.start m size num) ops e → (e.bind fun p => .ok (p.1.obj, p.2)) = r := by
  refine ⟨(acts pw powf ρ d W ops (.new m) []).bind fun p => .ok (p.1.1, p.2), fun size num hs hn => ?_⟩
  obtain ⟨h1, h2⟩ := session_acts pw powf ρ d W hs hn ops (s := Py.start m size num) (waits_start size num)
  refine ⟨h1, fun e he => ?_⟩
  have h3 := h2 e he
  have h4 : (Py.start m size num).obj = .new m := rfl
  rw [h4] at h3
  generalize acts pw powf ρ d W ops (.new m) [] = q at h3 ⊢
  cases e with
  | ub k => cases q with
    | ub k' => rw [show k = k' from h3]; rfl
    | ok p => exact h3.elim
  | ok p => cases q with
    | ub k' => exact h3.elim
    | ok q =>
      obtain ⟨s, rs⟩ := p
      obtain ⟨⟨o, pend⟩, rs'⟩ := q
      obtain ⟨rfl, -, rfl⟩ := h3
      rfl

/-- What every session returns. -/
theorem returns_of {W : World} {m : M} {ops : List Op} {r : (Obj × List (Ex F32)) × List Ret}
    (h : acts pw powf ρ d W ops (.new m) [] = .ok r) (size num : Nat) (hs : 1 ≤ size) (hn : 1 ≤ num) :
    (∃ e, PySol.Session pw powf ρ d W (Py.start m size num) ops e) ∧
      ∀ e, PySol.Session pw powf ρ d W (Py.start m size num) ops e → ∃ s, e = .ok (s, r.2) := by
  obtain ⟨h1, h2⟩ := session_acts pw powf ρ d W hs hn ops (s := Py.start m size num) (waits_start size num)
  refine ⟨h1, fun e he => ?_⟩
  have h3 := h2 e he
  have h4 : (Py.start m size num).obj = .new m := rfl
  rw [h4, h] at h3
  cases e with
  | ub k => exact h3.elim
  | ok p =>
    obtain ⟨s, rs⟩ := p
    obtain ⟨⟨o, pend⟩, rs'⟩ := r
    obtain ⟨-, -, rfl⟩ := h3
    exact ⟨s, rfl⟩

/-- What the calls of a session with training calls meet. -/
theorem taught_frame (m : M) {files : List Char → Option (List Char)} (hm : Reached files m) (ops : List (Op × List (Ex F32)))
    (ht : Trainable m (taught ops).flatten) (he : ∀ p ∈ ops, isFit p.1 = false → ∀ e ∈ p.2, Sparse.Ascending e.x)
    (hc : m.cls ∈ settled ∨ InOneGo (ops.map (·.1))) :
    ∃ F : Frame powf m, (∃ lp, F.loop ρ d (taught ops).flatten = .ok lp) ∧
      (m.cls ∈ settled ∨ oneGo (decide (taught ([] : List (Op × List (Ex F32))) ≠ [])) false (ops.map (·.1))) ∧
      ∀ pre op l suf, ops = pre ++ (op, l) :: suf → isFit op = false →
        ∃ m', TaughtAll powf ρ d m (taught pre) m' ∧ ∃ x, testModel m' [l] = .ok x := by
  have htest : ∀ {m' : M}, Reached files m' → ∀ p ∈ ops, isFit p.1 = false → ∃ x, testModel m' [p.2] = .ok x := by
    intro m' hm' p hp hf
    obtain ⟨xs, rows, rate, h, -⟩ := testModel_rows hm' p.2 (he p hp hf)
    exact ⟨_, h⟩
  obtain ⟨F, lp, hlp⟩ := frame_of hm powf ρ d ht
  have hcc : m.cls ∈ settled ∨ oneGo (decide (taught ([] : List (Op × List (Ex F32))) ≠ [])) false (ops.map (·.1)) := by
    rcases hc with h | h
    · exact .inl h
    · exact .inr (oneGo_of h)
  have hm' : ∀ ls, ls ≠ [] → (∀ e ∈ ls.flatten, Teaches m e) →
      (m.cls ∈ settled ∨ ls = taught ops) → ∃ m', TaughtAll powf ρ d m ls m' ∧ Reached files m' := by
    intro ls hls hp hcl
    have htr : Trainable m ls.flatten := by
      rcases hcl with h | rfl
      · exact ⟨hp, ht.budget, ht.features, ht.dim, fun h1 => by rcases h1 with h1 | h1 <;> rw [h1] at h <;> exact absurd h (by decide), ht.cost⟩
      · exact ht
    obtain ⟨m', h1, h2⟩ := trainModel_trained hm powf ρ d [ls.flatten] (by simpa using htr)
    exact ⟨m', .inr ⟨hls, h1⟩, .train hm h2⟩
  refine ⟨F, ⟨lp, hlp⟩, hcc, ?_⟩
  intro pre op l suf hops hf
  have hmem : (op, l) ∈ ops := by rw [hops]; exact List.mem_append_right _ List.mem_cons_self
  by_cases hpre : taught pre = []
  · exact ⟨m, .inl ⟨hpre, rfl⟩, htest hm _ hmem hf⟩
  · have hsub : ∀ e ∈ (taught pre).flatten, Teaches m e := by
      intro e he
      apply ht.points
      rw [hops, taught_append, List.flatten_append]
      exact List.mem_append_left _ he
    have hcl : m.cls ∈ settled ∨ taught pre = taught ops := by
      rcases hc with h | h
      · exact .inl h
      · rw [hops] at h
        rcases all_or_none h hf with h1 | h1
        · exact absurd h1 hpre
        · exact .inr (by rw [hops]; exact h1)
    obtain ⟨m', h1, h2⟩ := hm' _ hpre hsub hcl
    exact ⟨m', h1, htest h2 _ hmem hf⟩

/-- **C85.** In a session with files that can be read, every call answers for the model that a single training on the examples of all
    training calls so far makes, the one that `sol_train` saves: `score` and `predict` are `sol_test` with it on their own file, `sparsity`
    counts its weights and `save` writes it; and the error rate of a training call is that of all training calls so far.  For the classes
    whose `EndTrain` does more than to reset a flag, the training calls have to follow each other and `save` must not come right after
    them. -/
theorem C85_session_partial (W : World) (m : M) {files : List Char → Option (List Char)} (hm : Reached files m) (ops : List (Op × List (Ex F32)))
    (hg : ∀ p ∈ ops, OpGives pw W p.1 p.2) (ht : taught ops ≠ [] → Trainable m (taught ops).flatten)
    (he : ∀ p ∈ ops, isFit p.1 = false → ∀ e ∈ p.2, Sparse.Ascending e.x)
    (hc : m.cls ∈ settled ∨ InOneGo (ops.map (·.1))) (size num : Nat) (hs : 1 ≤ size) (hn : 1 ≤ num) :
    (∃ e, PySol.Session pw powf ρ d W (Py.start m size num) (ops.map (·.1)) e) ∧
    ∀ e, PySol.Session pw powf ρ d W (Py.start m size num) (ops.map (·.1)) e →
      ∃ s rs, e = .ok (s, rs) ∧ rs.length = ops.length ∧
        ∀ i op l r, ops[i]? = some (op, l) → rs[i]? = some r → Answers powf ρ d W m (ops.take i) op l r := by
  suffices h : ∃ o' rs, acts pw powf ρ d W (ops.map (·.1)) (.new m) [] = .ok ((o', []), rs) ∧ rs.length = ops.length ∧
      ∀ i op l r, ops[i]? = some (op, l) → rs[i]? = some r → Answers powf ρ d W m (ops.take i) op l r by
    obtain ⟨o', rs, h1, h2, h3⟩ := h
    obtain ⟨h4, h5⟩ := returns_of h1 size num hs hn
    refine ⟨h4, fun e he => ?_⟩
    obtain ⟨s, rfl⟩ := h5 e he
    exact ⟨s, rs, rfl, h2, h3⟩
  have htest : ∀ {m' : M}, Reached files m' → ∀ p ∈ ops, isFit p.1 = false → ∃ x, testModel m' [p.2] = .ok x := by
    intro m' hm' p hp hf
    obtain ⟨xs, rows, rate, h, -⟩ := testModel_rows hm' p.2 (he p hp hf)
    exact ⟨_, h⟩
  by_cases h0 : taught ops = []
  · have hnf : ∀ p ∈ ops, isFit p.1 = false := by
      simp only [taught, List.map_eq_nil_iff, List.filter_eq_nil_iff, Bool.not_eq_true] at h0
      exact h0
    exact untrained_session ops hnf hg fun p hp => htest hm p hp (hnf p hp)
  · obtain ⟨F, hlp, hcc, hev⟩ := taught_frame (powf := powf) (ρ := ρ) (d := d) m hm ops (ht h0) he hc
    have := F.session (W := W) (pw := pw) ops [] false (.new m) .new hcc hg hlp hev
    simpa using this

end

/-- The values that the calls return, and no undefined behaviour. -/
def Returns (W : World) (m : M) (ops : List Op) (rs : List Ret) : Prop :=
  letI : FFun F32 := unusedFun
  ∀ size num, 1 ≤ size → 1 ≤ num →
    (∃ e, PySol.Session bestPow (fun a _ => a) (fun _ => 0) (.newStep 1) W (Py.start m size num) ops e) ∧
      ∀ e, PySol.Session bestPow (fun a _ => a) (fun _ => 0) (.newStep 1) W (Py.start m size num) ops e → ∃ s, e = .ok (s, rs)

theorem returns_decide {W : World} {m : M} {ops : List Op} {rs : List Ret}
    (h : letI : FFun F32 := unusedFun
      ((acts bestPow (fun a _ => a) (fun _ => 0) (.newStep 1) W ops (.new m) []).bind fun r => Res.ok r.2) = .ok rs) : Returns W m ops rs := by
  letI : FFun F32 := unusedFun
  intro size num hs hn
  cases ha : acts bestPow (fun a _ => a) (fun _ => 0) (.newStep 1) W ops (.new m) [] with
  | ub k => rw [ha] at h; cases h
  | ok r =>
    rw [ha] at h
    obtain rfl := Res.ok.inj h
    exact returns_of ha size num hs hn

/-- A model file of the Perceptron. -/
def perceptronFile (dim t w : String) : String :=
  "model info:\n{\n\t\"clf_num\" : 1,\n\t\"cls_num\" : 2,\n\t\"loss\" : \"bool\",\n\t\"model\" : \"perceptron\",\n\t\"norm\" : 0,\n" ++
  "\t\"online\" : \n\t{\n\t\t\"bias_eta\" : 0,\n\t\t\"dim\" : " ++ dim ++ ",\n\t\t\"lazy_update\" : \"false\",\n\t\t\"t\" : " ++ t ++
  "\n\t}\n}\nmodel parameters:\nweight[0]:\n[ " ++ w ++ " ]\n"

/-- The file of `C85_instance` and its type. -/
def fileD : List Char := "d".toList
def fileE : List Char := "e".toList
def svm : List Char := "svm".toList

/-- **C85.** Two trainings of a Perceptron with evaluations in between: one mistake of two, and with the second training one of three. -/
theorem C85_instance :
    Returns smallDisk (fresh .perceptron 2)
      [.fit fileD svm 1, .score fileD svm, .save "m".toList, .fit fileE svm 1, .predict fileD svm, .sparsity, .save "m".toList, .save "readonly".toList]
      [.rate (.fin (1 / 2)), .rate 0, .saved (DataFile.ofChars (perceptronFile "4" "2" "0 0 -1.5 0").toList),
        .rate (.fin (11184811 / 33554432)), .rows [⟨1, 1, [0]⟩, ⟨-1, -1, [.fin (-9 / 4)]⟩], .weights 1 3,
        .saved (DataFile.ofChars (perceptronFile "4" "3" "0 0 -1.5 0").toList), .unsaved] :=
  returns_decide (by decide +kernel)

/-- **C85.** A training of a class with a lazy regularizer, in one go: `save` after `sparsity` writes the file that `sol_train` writes
    (`C78_instance`). -/
theorem C85_instance_lazy :
    Returns smallDisk { fresh .fobosL1 2 with lambda := .fin (1 / 8) } [.fit fileD svm 1, .fit fileD svm 1, .sparsity, .save "m".toList]
      [.rate (.fin (1 / 2)), .rate (.fin (1 / 4)), .weights 3 3, .saved (DataFile.ofChars lassoFile.toList)] :=
  returns_decide (by decide +kernel)

/-- The model file of `C78_instance` with other weights. -/
def lassoWith (w : String) : DataFile.File := DataFile.ofChars (lassoFile.toList.take (lassoFile.toList.length - 33) ++ w.toList)

/-- **C85 is violated** for other orders and without its conditions.  `save` right after a training, which is what python/sol_train.py
    does: weights that have not been brought up to date, not those of `sol_train`.  `score` between two trainings: another model.  A
    training that `BeginTrain` refuses: accuracy 1, and its examples are counted by the next `score`, which has one mistake in three
    examples, though its file has one example, on which the model is right. -/
theorem C85_is_violated :
    Returns smallDisk { fresh .fobosL1 2 with lambda := .fin (1 / 8) } [.fit fileD svm 2, .save "m".toList]
      [.rate (.fin (1 / 4)), .saved (lassoWith "[ 0 0.323223 -0.883883 1.82322 ]\n")] ∧
    Returns smallDisk { fresh .fobosL1 2 with lambda := .fin (1 / 8) } [.fit fileD svm 1, .score fileD svm, .fit fileD svm 1, .sparsity, .save "m".toList]
      [.rate (.fin (1 / 2)), .rate 0, .rate (.fin (1 / 4)), .weights 2 3,
        .saved (lassoWith "[ 0 0 -0.707107 1.46967 ]\n")] ∧
    Returns smallDisk
      (Params.set noFiles (Params.set noFiles (fresh .ogd 2) "loss" "logistic".toList).1 "cost_margin" "1".toList).1
      [.score fileE svm, .fit fileD svm 1, .score fileE svm] [.rate 0, .rate 0, .rate (.fin (11184811 / 33554432))] :=
  ⟨returns_decide (by decide +kernel), returns_decide (by decide +kernel), returns_decide (by decide +kernel)⟩

/-- The examples of the two files. -/
def examplesD : List (Ex F32) := [⟨1, [(1, .fin (1 / 2)), (3, .fin 2)]⟩, ⟨-1, [(2, .fin (3 / 2))]⟩]
def examplesE : List (Ex F32) := [⟨1, [(1, .fin 2)]⟩]

/-- The hypotheses of C85 are met by the sessions of `C85_instance` and `C85_instance_lazy`. -/
theorem C85_hypotheses :
    letI : FFun F32 := unusedFun
    FileGives bestPow smallDisk fileD svm 1 examplesD ∧ FileGives bestPow smallDisk fileE svm 1 examplesE ∧
    Reached smallDisk.files (fresh .perceptron 2) ∧ Trainable (fresh .perceptron 2) (examplesD ++ examplesE) ∧
    (∀ e ∈ examplesD ++ examplesE, Sparse.Ascending e.x) ∧ Cls.perceptron ∈ settled ∧
    Trainable { fresh .fobosL1 2 with lambda := .fin (1 / 8) } (examplesD ++ examplesD) ∧
    InOneGo [.fit fileD svm 1, .fit fileD svm 1, .sparsity, .save "m".toList] := by
  have key : ∀ e ∈ examplesD ++ examplesE, Good e.x := by
    intro e he
    simp only [examplesD, examplesE, List.cons_append, List.nil_append, List.mem_cons, List.not_mem_nil, or_false] at he
    rcases he with rfl | rfl | rfl <;> exact ⟨by unfold Sparse.Ascending; decide, by decide⟩
  refine ⟨?_, ?_, .new (n := 2) rfl, ?_, fun e he => (key e he).1, by decide, ?_, ?_⟩
  · exact ⟨DataFile.ofChars good.toList, by decide +kernel, .inr ⟨by decide, [⟨1, [(1, .fin (1 / 2)), (3, .fin 2)]⟩, ⟨-1, [(2, .fin (3 / 2))]⟩], .endOfFile,
      ⟨⟨.svm, 4096, DataFile.ofChars good.toList⟩, by decide +kernel, by decide +kernel⟩, rfl⟩⟩
  · exact ⟨DataFile.ofChars "1 1:2\n".toList, by decide +kernel, .inr ⟨by decide, [⟨1, [(1, .fin 2)]⟩], .endOfFile,
      ⟨⟨.svm, 4096, DataFile.ofChars "1 1:2\n".toList⟩, by decide +kernel, by decide +kernel⟩, rfl⟩⟩
  · exact ⟨fun e he => ⟨key e he, fun h => absurd h (by decide), .inl rfl⟩, fun h => absurd h (by decide), fun h => absurd h (by decide),
      fun h => absurd h (by decide), fun h => absurd h (by decide), fun h => absurd h (by decide)⟩
  · have key' : ∀ e ∈ examplesD ++ examplesD, Good e.x := fun e he => key e (by
      rcases List.mem_append.1 he with h | h <;> exact List.mem_append_left _ h)
    exact ⟨fun e he => ⟨key' e he, fun h => absurd h (by decide), .inl rfl⟩, fun h => absurd h (by decide), fun h => absurd h (by decide),
      fun h => absurd h (by decide), fun _ => .inl rfl, fun h => absurd h (by decide)⟩
  · exact ⟨[], [.fit fileD svm 1, .fit fileD svm 1], [.sparsity, .save "m".toList], rfl, by simp, by simp [isFit], by simp [isFit], by simp⟩

end Sol.Props
