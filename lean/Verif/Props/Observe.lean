import Verif.Proofs.Observe
import Verif.Props.PySol
/-! C92: what an object of the Python class reports while it trains. -/

namespace Sol.Props
open Sol.Params Sol.Online Sol.Loss Sol.Whole Sol.Spec Sol.PySol Sol.Observe

section
variable [FFun F32] {pw : Int → F32} {powf : F32 → F32 → F32} {ρ : Nat → F32} {d : Train.Disp}

/-- The callback of a new object. -/
def firstCallback (verbose : Bool) : Callback := if verbose then .printed else .handler none

omit [FFun F32] in
theorem firstCallback_none (verbose : Bool) (h : Nat) : firstCallback verbose ≠ .handler (some h) := by cases verbose <;> simp [firstCallback]

/-- **C92.** Listening changes nothing: what the calls of a program return and what becomes of the object is what happens in the session
    with the same calls and without handlers. -/
theorem C92_unchanged {W : World} {s s' : Obs} {ops : List OOp} {outs : List Out} (h : OSession pw powf ρ d W s ops (.ok (s', outs))) :
    PySol.Session pw powf ρ d W s.py (ops.filterMap fun o => match o with | .call op => some op | _ => none)
      (.ok (s'.py, outs.filterMap (·.ret))) := by
  suffices hh : ∀ e, OSession pw powf ρ d W s ops e → ∀ s' outs, e = .ok (s', outs) →
      PySol.Session pw powf ρ d W s.py (ops.filterMap fun o => match o with | .call op => some op | _ => none)
        (.ok (s'.py, outs.filterMap (·.ret))) from hh _ h s' outs rfl
  clear h s' outs
  intro e h
  induction h with
  | nil =>
    rintro s' outs he
    obtain ⟨rfl, rfl⟩ := Prod.mk.inj (Res.ok.inj he)
    exact .nil
  | stop => intro s' outs he; cases he
  | @cons s s1 op ops r e h ht ih =>
    intro s' outs he
    cases e with
    | ub k => cases he
    | ok p =>
      obtain ⟨s2, rs⟩ := p
      obtain ⟨rfl, rfl⟩ := Prod.mk.inj (Res.ok.inj he)
      have := ih s2 rs rfl
      cases h with
      | inspect => exact this
      | release => exact this
      | done hc hg => exact .cons hc this

/-- The outcome of every program. -/
theorem observes_of {W : World} {m : M} {verbose : Bool} {ops : List OOp} {r : Res (Seen × List Out)}
    (h : looks pw powf ρ d W ops ⟨.new m, [], firstCallback verbose, []⟩ = r) (size num : Nat) (hs : 1 ≤ size) (hn : 1 ≤ num) :
    (∃ e, OSession pw powf ρ d W (Obs.start m size num verbose) ops e) ∧
      ∀ e, OSession pw powf ρ d W (Obs.start m size num verbose) ops e →
        (e.bind fun p => Res.ok p.2) = r.bind fun p => .ok p.2 := by
  obtain ⟨h1, h2⟩ := session_looks (pw := pw) (powf := powf) (ρ := ρ) (d := d) (W := W) hs hn ops (s := Obs.start m size num verbose) (waits_start size num)
  refine ⟨h1, fun e he => ?_⟩
  have h3 := h2 e he
  have h4 : (⟨(Obs.start m size num verbose).py.obj, [], (Obs.start m size num verbose).cb, (Obs.start m size num verbose).held⟩ : Seen) =
      ⟨.new m, [], firstCallback verbose, []⟩ := rfl
  rw [h4, h] at h3
  cases e with
  | ub k =>
    cases r with
    | ub k' => rw [show k = k' from h3]; rfl
    | ok p => exact h3.elim
  | ok p =>
    cases r with
    | ub k' => exact h3.elim
    | ok q =>
      obtain ⟨s, rs⟩ := p
      obtain ⟨x, rs'⟩ := q
      rw [h3.2.2.2.2]
      rfl

/-- **C92.** In a program with files that can be read, and with a reference to the handler whenever training begins, all calls answer as
    in C85.  During a training call, the callback that was set last is told the reports of a single training on all examples so far that
    were not told before, and the last report has the error rate that the call returns; nothing is reported otherwise. -/
theorem C92_session_partial (W : World) (m : M) {files : List Char → Option (List Char)} (hm : Reached files m)
    (ops : List (OOp × List (Ex F32))) (hg : ∀ p ∈ callsOf ops, OpGives pw W p.1 p.2)
    (ht : taught (callsOf ops) ≠ [] → Trainable m (taught (callsOf ops)).flatten)
    (he : ∀ p ∈ callsOf ops, isFit p.1 = false → ∀ e ∈ p.2, Sparse.Ascending e.x)
    (hc : m.cls ∈ settled ∨ InOneGo ((callsOf ops).map (·.1))) (ha : Attended (ops.map (·.1))) (verbose : Bool) (size num : Nat)
    (hs : 1 ≤ size) (hn : 1 ≤ num) :
    (∃ e, OSession pw powf ρ d W (Obs.start m size num verbose) (ops.map (·.1)) e) ∧
    ∀ e, OSession pw powf ρ d W (Obs.start m size num verbose) (ops.map (·.1)) e →
      ∃ s outs, e = .ok (s, outs) ∧ outs.length = ops.length ∧
        ∀ i op l out, ops[i]? = some (op, l) → outs[i]? = some out →
          Observed powf ρ d W m (if verbose then .printed else .handler none) (ops.take i) op l out := by
  suffices h : ∃ x outs, looks pw powf ρ d W (ops.map (·.1)) ⟨.new m, [], firstCallback verbose, []⟩ = .ok (x, outs) ∧
      outs.length = ops.length ∧ ∀ i op l out, ops[i]? = some (op, l) → outs[i]? = some out →
        Observed powf ρ d W m (firstCallback verbose) (ops.take i) op l out by
    obtain ⟨x, outs, h1, h2, h3⟩ := h
    obtain ⟨h4, h5⟩ := observes_of h1 size num hs hn
    refine ⟨h4, fun e he => ?_⟩
    have h6 := h5 e he
    cases e with
    | ub k => cases h6
    | ok p =>
      obtain ⟨s, outs'⟩ := p
      obtain rfl := Res.ok.inj h6
      exact ⟨s, outs', rfl, h2, h3⟩
  by_cases h0 : taught (callsOf ops) = []
  · have hnf : ∀ p ∈ callsOf ops, isFit p.1 = false := by
      simp only [taught, List.map_eq_nil_iff, List.filter_eq_nil_iff, Bool.not_eq_true] at h0
      exact h0
    have := looks_all (pw := pw) (powf := powf) (ρ := ρ) (d := d) (W := W) (m := m) (firstCallback_none verbose)
      (fun before todo o => o = .new m ∧ taught before = [] ∧ ∀ p ∈ todo, p ∈ callsOf ops) ?_ ops [] ⟨.new m, [], firstCallback verbose, []⟩
      ⟨rfl, rfl, fun _ hp => hp⟩ rfl (heard_start _ (firstCallback_none verbose)) ha
    · simpa using this
    · rintro before op l todo o ⟨rfl, hb, hall⟩
      have hmem := hall _ List.mem_cons_self
      have hf : isFit op = false := hnf _ hmem
      obtain ⟨xs, rows, rate, htest, -⟩ := testModel_rows hm l (he _ hmem hf)
      obtain ⟨r, h1, h2⟩ := tell_new (powf := powf) (ρ := ρ) (d := d) (hg _ hmem) hf ⟨_, htest⟩
      refine ⟨.new m, r, h1, ?_, ?_, rfl, ?_, fun p hp => hall p (List.mem_cons_of_mem _ hp)⟩
      · unfold Answers
        rw [hf, if_neg (by simp)]
        exact ⟨m, .inl ⟨hb, rfl⟩, h2⟩
      · unfold Logged
        rw [hf, if_neg (by simp)]
        rfl
      · rw [taught_append, taught_other hf, List.append_nil, hb]
  · obtain ⟨F, hlp, hcc, hev⟩ := taught_frame (powf := powf) (ρ := ρ) (d := d) m hm (callsOf ops) (ht h0) he hc
    have := looks_all (pw := pw) (powf := powf) (ρ := ρ) (d := d) (W := W) (m := m) (firstCallback_none verbose)
      (fun before todo o => before ++ todo = callsOf ops ∧ ∃ b, After F ρ d (taught before) b o ∧
        (m.cls ∈ settled ∨ oneGo (decide (taught before ≠ [])) b (List.map (fun p : Op × List (Ex F32) => p.1) todo))) ?_ ops [] ⟨.new m, [], firstCallback verbose, []⟩
      ⟨rfl, false, .new, hcc⟩ rfl (heard_start _ (firstCallback_none verbose)) ha
    · simpa using this
    · rintro before op l todo o ⟨hops, b, ho, hb⟩
      have hmem : (op, l) ∈ callsOf ops := by rw [← hops]; exact List.mem_append_right _ List.mem_cons_self
      obtain ⟨o', r, b', h1, h2, h3, h4, h5⟩ := F.call ho hb (hg _ hmem) (by rw [hops]; exact hlp) (hev before op l todo hops.symm)
      exact ⟨o', r, h1, h2, h5, by rw [← hops]; simp, b', h3, h4⟩

/-- **C92 is violated** for handlers that only `inspect_learning` was given, as in `inspect_learning(lambda ...)`: the object keeps no
    reference, and every training call, whatever model and data, calls an object that is no more. -/
theorem C92_is_violated (W : World) (m : M) {files : List Char → Option (List Char)} (hm : Reached files m) (h : Nat) (p f : List Char)
    (n : Int) (l : List (Ex F32)) (hg : FileGives pw W p f n l) (ht : Trainable m l) (verbose : Bool) (size num : Nat) (hs : 1 ≤ size)
    (hn : 1 ≤ num) :
    (∃ e, OSession pw powf ρ d W (Obs.start m size num verbose) [.inspect (some h), .release h, .call (.fit p f n)] e) ∧
    ∀ e, OSession pw powf ρ d W (Obs.start m size num verbose) [.inspect (some h), .release h, .call (.fit p f n)] e →
      e = .ub .useAfterFree := by
  obtain ⟨F, hlp, hcc, hev⟩ := taught_frame (powf := powf) (ρ := ρ) (d := d) m hm [(.fit p f n, l)] (by simpa [taught, isFit] using ht)
    (by simp [isFit]) (.inr ⟨[], [.fit p f n], [], rfl, by simp, by simp [isFit], by simp, by simp⟩)
  obtain ⟨o', r, b', h1, h2, h3, h4, h5⟩ := F.call (W := W) (pw := pw) (before := []) (todo := []) (l := l) (op := .fit p f n) .new hcc hg hlp
    (by simp [isFit])
  have hne : newReports (.new m) o' ≠ [] := by
    intro h6
    unfold Logged at h5
    rw [if_pos (show isFit (.fit p f n) = true from rfl), h6] at h5
    obtain ⟨R, R', -, -, -, last, h7, -⟩ := h5
    cases h7
  have hgone : Gone (.handler (some h)) (((some h).toList ++ []).filter (· ≠ h)) := ⟨h, rfl, by simp⟩
  have hlook : looks pw powf ρ d W [.inspect (some h), .release h, .call (.fit p f n)] ⟨.new m, [], firstCallback verbose, []⟩ =
      .ub .useAfterFree := by
    simp only [looks, look, Res.bind, h1]
    rw [if_neg (by rw [not_or, not_not]; exact ⟨hne, hgone⟩)]
  obtain ⟨h6, h7⟩ := observes_of hlook size num hs hn
  refine ⟨h6, fun e he => ?_⟩
  have := h7 e he
  cases e with
  | ub k => rw [show k = .useAfterFree from Res.ub.inj this]
  | ok p => cases this

/-- **C92.** The numbers of examples in the log of a training on `n` examples: those up to `n` at which the displayer is due, and `n`. -/
theorem C92_numbers {m : M} {es : List (Ex F32)} {R : List (Train.Report F32)} (hd : Spec.Waits d 0) (h : LogOf powf ρ d m es R) :
    ReportsAt d es.length (R.map (·.data)) := by
  obtain ⟨k, K, s, q, -, hK, hs, hq, rfl⟩ := h
  have h0 : s.data = 0 := Olm.kit_begin_data hK _ _ _ hs
  simp only [Train.train, batches_flat, List.flatten_cons, List.flatten_nil, List.append_nil, Res.bind_eq_ok] at hq
  obtain ⟨lp, h1, h2⟩ := hq
  obtain rfl := Res.ok.inj h2
  obtain ⟨h3, more, h4, h5, h6⟩ := batch_numbers (Olm.kit_tally hK) _ _ es _ lp (by rw [h0]; exact hd) h1
  simp only [h0, Nat.zero_add] at h3 h6
  refine ⟨more.map (·.data), ?_, h5, fun k => ?_⟩
  · simp only [h4, List.nil_append, List.map_append, List.map_cons, List.map_nil, Train.report, h3]
  · rw [h6]
    exact ⟨fun ⟨a, b, c⟩ => ⟨by omega, b, c⟩, fun ⟨a, b, c⟩ => ⟨by omega, b, c⟩⟩

/-- **C92.** Logs of trainings on equally many examples, whatever the examples, their order, the random numbers and the algorithm, have
    the same numbers of examples, so that the rows can be averaged (experiments/experiment.py:245-255). -/
theorem C92_alike {m m' : M} {es es' : List (Ex F32)} {R R' : List (Train.Report F32)} {ρ' : Nat → F32} (hd : Spec.Waits d 0)
    (hl : es.length = es'.length) (h : LogOf powf ρ d m es R) (h' : LogOf powf ρ' d m' es' R') : R.map (·.data) = R'.map (·.data) := by
  obtain ⟨a, h1, h2, h3⟩ := C92_numbers hd h
  obtain ⟨a', h1', h2', h3'⟩ := C92_numbers hd h'
  rw [h1, h1', hl]
  congr 1
  refine List.Perm.eq_of_pairwise (le := (· < ·)) (fun x y _ _ hxy hyx => by omega) h2 h2' ?_
  rw [List.perm_ext_iff_of_nodup (h2.imp fun h => by omega) (h2'.imp fun h => by omega)]
  intro k
  rw [h3, h3', hl]

end

/-- The outcome of all programs about a new object, with displayers that report at powers of two. -/
def Notices (W : World) (m : M) (verbose : Bool) (ops : List OOp) (outs : Res (List Out)) : Prop :=
  letI : FFun F32 := unusedFun
  ∀ size num, 1 ≤ size → 1 ≤ num →
    (∃ e, OSession bestPow (fun a _ => a) (fun _ => 0) (.newExp 2) W (Obs.start m size num verbose) ops e) ∧
      ∀ e, OSession bestPow (fun a _ => a) (fun _ => 0) (.newExp 2) W (Obs.start m size num verbose) ops e → (e.bind fun p => Res.ok p.2) = outs

theorem notices_decide {W : World} {m : M} {verbose : Bool} {ops : List OOp} {outs : Res (List Out)}
    (h : letI : FFun F32 := unusedFun
      ((looks bestPow (fun a _ => a) (fun _ => 0) (.newExp 2) W ops ⟨.new m, [], firstCallback verbose, []⟩).bind fun r => Res.ok r.2) = outs) :
    Notices W m verbose ops outs := by
  letI : FFun F32 := unusedFun
  intro size num hs hn
  rw [← h]
  exact observes_of rfl size num hs hn

/-- **C92.** A handler hears of the first training, nobody of the second, and another handler of the third; the first one may go. -/
theorem C92_instance :
    Notices smallDisk (fresh .perceptron 2) true
      [.call (.fit fileE svm 1), .inspect (some 7), .call (.fit fileD svm 1), .call (.score fileD svm), .inspect none, .call (.fit fileD svm 2),
        .inspect (some 8), .release 7, .call (.fit fileE svm 1)]
      (.ok [⟨some (.rate 0), [⟨1, 1, 0, 0⟩], .printed⟩, ⟨none, [], .handler (some 7)⟩,
        ⟨some (.rate (.fin (11184811 / 33554432))), [⟨2, 2, 0, 0⟩, ⟨3, 3, 1, .fin (11184811 / 33554432)⟩], .handler (some 7)⟩,
        ⟨some (.rate 0), [], .handler (some 7)⟩, ⟨none, [], .handler none⟩,
        ⟨some (.rate (.fin (9586981 / 67108864))), [⟨4, 4, 1, .fin (1 / 4)⟩, ⟨7, 7, 1, .fin (9586981 / 67108864)⟩], .handler none⟩,
        ⟨none, [], .handler (some 8)⟩, ⟨none, [], .handler (some 8)⟩,
        ⟨some (.rate (.fin (1 / 8))), [⟨8, 8, 1, .fin (1 / 8)⟩, ⟨8, 8, 1, .fin (1 / 8)⟩], .handler (some 8)⟩]) :=
  notices_decide (by decide +kernel)

/-- The same without a variable for the handler. -/
theorem C92_instance_gone :
    Notices smallDisk (fresh .perceptron 2) false [.call (.fit fileE svm 1), .inspect (some 7), .release 7, .call (.score fileD svm), .call (.fit fileD svm 1)]
      (.ub .useAfterFree) :=
  notices_decide (by decide +kernel)

/-- The hypotheses of C92 are met by a part of the program of `C92_instance`; those about the model and the files are those of C85
    (`C85_hypotheses`). -/
theorem C92_hypotheses :
    letI : FFun F32 := unusedFun
    let ops : List (OOp × List (Ex F32)) := [(.inspect (some 7), []), (.call (.fit fileD svm 1), examplesD), (.release 7, []),
      (.call (.score fileD svm), examplesD), (.inspect none, []), (.call (.fit fileE svm 1), examplesE)]
    (∀ p ∈ callsOf ops, OpGives bestPow smallDisk p.1 p.2) ∧ Reached smallDisk.files (fresh .perceptron 2) ∧
    Trainable (fresh .perceptron 2) (taught (callsOf ops)).flatten ∧
    (∀ p ∈ callsOf ops, isFit p.1 = false → ∀ e ∈ p.2, Sparse.Ascending e.x) ∧ Cls.perceptron ∈ settled ∧ Attended (ops.map (·.1)) ∧
    Spec.Waits (Train.Disp.newExp 2) 0 := by
  letI : FFun F32 := unusedFun
  obtain ⟨h1, h2, h3, h4, h5, h6, -⟩ := C85_hypotheses
  refine ⟨?_, h3, h4, ?_, h6, ?_, (C62_new 2 1 (le_refl _) (le_refl _)).1⟩
  · intro p hp
    simp only [callsOf, List.filterMap_cons, List.filterMap_nil, List.mem_cons, List.not_mem_nil, or_false] at hp
    rcases hp with rfl | rfl | rfl
    · exact h1
    · exact h1
    · exact h2
  · intro p hp hf
    simp only [callsOf, List.filterMap_cons, List.filterMap_nil, List.mem_cons, List.not_mem_nil, or_false] at hp
    rcases hp with rfl | rfl | rfl
    · cases hf
    · exact fun e he => h5 e (List.mem_append_left _ he)
    · cases hf
  · intro pre op suf hp hf a h b hpre hb hm
    rcases pre with _ | ⟨x1, _ | ⟨x2, _ | ⟨x3, _ | ⟨x4, _ | ⟨x5, _ | ⟨x6, pre⟩⟩⟩⟩⟩⟩ <;> simp at hp
    · obtain ⟨rfl, rfl, rfl⟩ := hp
      have : b = [] := by
        rcases a with _ | ⟨y, a⟩
        · simp at hpre; exact hpre.2
        · simp at hpre
      rw [this] at hm
      cases hm
    · obtain ⟨-, -, -, rfl, -⟩ := hp
      cases hf
    · obtain ⟨rfl, rfl, rfl, rfl, rfl, -⟩ := hp
      rcases a with _ | ⟨y1, _ | ⟨y2, _ | ⟨y3, _ | ⟨y4, _ | ⟨y5, a⟩⟩⟩⟩⟩ <;> simp at hpre
      obtain ⟨rfl, rfl⟩ := hpre
      exact hb none (by simp)

end Sol.Props
