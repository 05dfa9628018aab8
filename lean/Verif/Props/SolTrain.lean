import Verif.Proofs.SolTrain
import Verif.Props.ParamOrder
import Verif.Props.PyCv
/-! C88: training with Python, with or without cross validation. -/

namespace Sol.Props
open Sol.Params Sol.Online Sol.Loss Sol.Whole Sol.Spec Sol.PySol Sol.Cv Sol.PyCv Sol.SolTrain
open Sol.DataSet (Files DataSet)

/-- **C88 (results).** The settings that cross validation writes into a file as the best ones are those that are read from it. -/
theorem C88_results {V : Type} {st : Style V} {g : List (String × List V)} {P : Dict V → Prop} (hl : Legible st g P) {cv : CV V ℚ}
    (he : P cv.extra) (hs : ∀ p ∈ cv.space, P p) {text : List Char} (h : resultsText st g cv = some text) :
    ∃ p i, cv.best = some (p, i) ∧ loadResults st (DataFile.chars (DataFile.ofChars text)) = some p := by
  rw [DataFile.chars_ofChars (ascii_results hl he hs h)]
  exact load_results hl he hs h

section
variable [FFun F32] {pw : Int → F32} {powf : F32 → F32 → F32} {ρ : Nat → F32} {disp : Train.Disp} {V : Type} [PyVal V] {st : Style V}
  {writes : List Char → Bool} {load : List Char → Loaded} {choice : Nat → Nat}

theorem create_cls {files : List Char → Option (List Char)} {cls : Cls} {n : Int} {d : Dict V} {m : M} (h : createWith files cls n d = some m) :
    m.cls = cls := by
  unfold createWith create at h
  split at h
  · cases h
  · rename_i m₀ hm
    have hc : m₀.cls = cls := by
      split at hm
      · cases hm; rfl
      · cases hm
    rw [← hc]
    clear hm hc
    generalize PyCv.settings d = l at h
    induction l generalizing m₀ with
    | nil =>
      simp only [setAll, Option.some.injEq] at h
      rw [h]
    | cons p l ih =>
      obtain ⟨k, v⟩ := p
      simp only [setAll, andThen] at h
      by_cases h1 : (Params.set files m₀ k v).2 = .accepted
      · rw [if_pos h1] at h
        obtain ⟨a, -, -, h3⟩ := atomic_set files m₀.cls m₀.classNum k v m₀ _ rfl rfl (show Params.set files m₀ k v = (_, .accepted) by rw [← h1])
        have h4 : Params.set files m₀ k v = (a.apply m₀, .accepted) := h3 m₀ rfl rfl
        rw [h4] at h
        rw [ih _ h, (a.cls m₀).1]
      · rw [if_neg h1] at h
        split at h
        · rename_i m₁ h2
          exact absurd (by rw [h2]) h1
        · cases h

theorem fit_calls (W : World) (j : Job V) {m : M} {files : List Char → Option (List Char)} (hm : Reached files m) {pts : List DataFile.Point} {file : DataFile.File}
    (hf : W.reads j.ds.dataPath = some file) (hr : ReadsAs pw j.ds.dtype file pts .endOfFile) (hp : 1 ≤ j.passes)
    (ht : Trainable m (lessons pts .endOfFile j.passes)) (hc : j.output = none ∨ m.cls ∈ settled) (size num : Nat) (hs : 1 ≤ size) (hn : 1 ≤ num) :
    (∃ e, PySol.Session pw powf ρ disp W (Py.start m size num) j.calls e) ∧
    ∀ e, PySol.Session pw powf ρ disp W (Py.start m size num) j.calls e → TrainedOn powf ρ disp W m pts j.passes j.output e := by
  obtain ⟨ops, hops⟩ : ∃ ops : List (Op × List (Ex F32)), ops = (.fit j.ds.dataPath j.ds.dtype j.passes, lessons pts .endOfFile j.passes) ::
    (j.output.map fun p => (Op.save p, [])).toList := ⟨_, rfl⟩
  have hcalls : ops.map (·.1) = j.calls := by
    rw [hops, Job.calls]
    cases j.output <;> rfl
  have htaught : taught ops = [lessons pts .endOfFile j.passes] := by
    rw [hops]
    cases j.output <;> simp [taught, isFit]
  obtain ⟨h1, h2⟩ := C85_session_partial (pw := pw) (powf := powf) (ρ := ρ) (d := disp) W m hm ops (by
      intro p hp'
      rw [hops] at hp'
      rcases List.mem_cons.1 hp' with rfl | h
      · exact ⟨file, hf, .inr ⟨by exact_mod_cast hp, pts, .endOfFile, hr, rfl⟩⟩
      · cases ho : j.output with
        | none => rw [ho] at h; cases h
        | some p =>
          rw [ho] at h
          obtain rfl := List.mem_singleton.1 h
          rfl)
    (fun _ => by rw [htaught]; simpa using ht) (by
      intro p hp' hfit e he
      rw [hops] at hp'
      rcases List.mem_cons.1 hp' with rfl | h
      · cases hfit
      · cases ho : j.output with
        | none => rw [ho] at h; cases h
        | some p =>
          rw [ho] at h
          obtain rfl := List.mem_singleton.1 h
          cases he)
    (by
      rcases hc with h | h
      · refine .inr ⟨[], [.fit j.ds.dataPath j.ds.dtype j.passes], [], ?_, by simp, by simp [isFit], by simp, by simp⟩
        rw [hcalls, Job.calls, h]
        rfl
      · exact .inl h) size num hs hn
  rw [hcalls] at h1 h2
  refine ⟨h1, fun e he => ?_⟩
  obtain ⟨s, rs, rfl, h3, h4⟩ := h2 e he
  obtain ⟨r, rs, rfl⟩ : ∃ r rs', rs = r :: rs' := by
    cases rs with
    | nil => rw [hops] at h3; simp at h3
    | cons r rs => exact ⟨r, rs, rfl⟩
  have k1 := h4 0 _ _ r (by rw [hops]; rfl) rfl
  obtain ⟨x, rfl, k1⟩ : ∃ x, r = .rate x ∧ RateOfAll powf ρ disp m (taught (ops.take 0) ++ [lessons pts .endOfFile j.passes]) x := k1
  have k1 : RateOfAll powf ρ disp m [lessons pts .endOfFile j.passes] x := k1
  obtain ⟨m', hm', -⟩ := trainModel_trained hm powf ρ disp [lessons pts .endOfFile j.passes] (by simpa using ht)
  refine ⟨m', s, x, rs, hm', rfl, k1, fun ho => ?_, fun p ho => ?_⟩
  · rw [hops, ho] at h3
    simpa using h3
  · rw [hops, ho] at h3
    obtain ⟨r, rfl⟩ : ∃ r, rs = [r] := List.length_eq_one_iff.1 (by simpa using h3)
    obtain ⟨m₂, h5, h6⟩ := h4 1 (.save p) [] r (by rw [hops, ho]; rfl) rfl
    have h7 : taught (ops.take 1) = [lessons pts .endOfFile j.passes] := by
      rw [hops]
      rfl
    rw [h7] at h5
    rcases h5 with ⟨h5, -⟩ | ⟨-, h5⟩
    · cases h5
    · rw [List.flatten_cons, List.flatten_nil, List.append_nil, hm'] at h5
      cases h5
      exact ⟨r, rfl, h6⟩

theorem lessons_mem {pts : List DataFile.Point} {passes : Int} {e : Ex F32} (h : e ∈ lessons pts .endOfFile passes) : ∃ p ∈ pts, e = exOf p := by
  unfold lessons at h
  obtain ⟨p, hp, rfl⟩ := List.mem_map.1 h
  refine ⟨p, ?_, rfl⟩
  unfold filePoints at hp
  split at hp
  · cases hp
  · rw [if_neg (by simp)] at hp
    obtain ⟨l, hl, hp⟩ := List.mem_flatten.1 hp
    rw [List.eq_of_mem_replicate hl] at hp
    exact hp

/-- What is made of the settings `p`, in whatever order, and done with it. -/
theorem settled_calls (j : Job V) (fs : Files) {p : Dict V} (hd : Apart j.cls (p.map (·.1))) {m : M}
    (hm : createWith (World.files ⟨fs, writes, load⟩) j.cls j.ds.classNum p = some m) (hroom : Roomy p)
    {pts : List DataFile.Point} {file : DataFile.File}
    (hf : fs j.ds.dataPath = some file) (hr : ReadsAs pw j.ds.dtype file pts .endOfFile) (hp : 1 ≤ j.passes)
    (ht : ∀ es, (∀ e ∈ es, ∃ p ∈ pts, e = exOf p) → Trainable m es) (hc : j.output = none ∨ j.cls ∈ settled) {q : Dict V} (hq : q.Perm p) :
    ∃ s, newObject (World.files ⟨fs, writes, load⟩) j.cls j.ds.classNum q = some s ∧
      (∃ e, PySol.Session pw powf ρ disp ⟨fs, writes, load⟩ s j.calls e) ∧
      ∀ e, PySol.Session pw powf ρ disp ⟨fs, writes, load⟩ s j.calls e →
        TrainedOn powf ρ disp ⟨fs, writes, load⟩ m pts j.passes j.output e := by
  have hm' : createWith (World.files ⟨fs, writes, load⟩) j.cls j.ds.classNum q = some m := by
    rw [← hm]
    refine C87_python_partial _ hq ?_
    have h1 : (PyCv.settings q).map (fun p => slotOf j.cls p.1) = ((q.filter fun p => p.1 ∉ PyCv.ownNames).map (·.1)).map (slotOf j.cls) := by
      simp only [PyCv.settings, List.map_map]
      rfl
    rw [h1]
    have h2 : ((q.map (·.1)).map (slotOf j.cls)).Nodup := ((hq.map _).map _).nodup_iff.2 hd
    exact h2.sublist ((List.filter_sublist.map _).map _)
  have hroom' : Roomy q := fun x hx => hroom x (hq.subset hx)
  obtain ⟨⟨size, h1⟩, num, h2⟩ := sizes_of hroom'
  exact ⟨_, newObject_start hm' h1 h2, fit_calls ⟨fs, writes, load⟩ j (create_reached hm') hf hr hp (ht _ fun e he => lessons_mem he)
    (hc.imp id fun h => by rw [create_cls hm]; exact h) size num (sizeOf_pos (by norm_num) h1) (sizeOf_pos (by norm_num) h2)⟩

/-- **C88 (given settings), the part that holds.** Without cross validation, `train` makes the model of the given settings and trains it on
    the data set like `sol_train` does, whatever the order of the dictionary and of the steps of the threads. -/
theorem C88_given_partial (pts : List DataFile.Point) (j : Job V) (fs : Files) (file : DataFile.File) (hf : fs j.ds.dataPath = some file)
    (hr : ReadsAs pw j.ds.dtype file pts .endOfFile) (hp : 1 ≤ j.passes) (hg : j.grid = none) (hd : Apart j.cls (j.params.map (·.1)))
    (hc : j.output = none ∨ j.cls ∈ settled) (m : M) (hm : createWith (World.files ⟨fs, writes, load⟩) j.cls j.ds.classNum j.params = some m)
    (hroom : Roomy j.params) (ht : ∀ es, (∀ e ∈ es, ∃ p ∈ pts, e = exOf p) → Trainable m es) :
    (∃ e, SolTrain.Trains pw powf ρ disp st writes load choice j fs e) ∧
    ∀ e, SolTrain.Trains pw powf ρ disp st writes load choice j fs e → ∃ e', e = some (fs, e') ∧
      TrainedOn powf ρ disp ⟨fs, writes, load⟩ m pts j.passes j.output e' := by
  have hset : ∀ r, Settles pw powf ρ disp st writes load choice j fs r → r = some (fs, j.params) := by
    intro r h
    cases h with
    | given => rfl
    | again h => rw [hg] at h; cases h
    | refused h => rw [hg] at h; cases h
    | unsplit h => rw [hg] at h; cases h
    | chosen h => rw [hg] at h; cases h
  constructor
  · obtain ⟨s, h1, ⟨e, h2⟩, -⟩ := settled_calls (pw := pw) (powf := powf) (ρ := ρ) (disp := disp) (writes := writes) (load := load) j fs hd hm hroom hf hr hp
      ht hc (.refl _)
    exact ⟨_, .done (.given hg) (.refl _) h1 h2⟩
  · intro e he
    cases he with
    | unsettled h => cases hset _ h
    | refused h hq hm' =>
      cases hset _ h
      obtain ⟨s, h1, -⟩ := settled_calls (pw := pw) (powf := powf) (ρ := ρ) (disp := disp) (writes := writes) (load := load) j fs hd hm hroom hf hr hp
        ht hc hq
      rw [h1] at hm'
      cases hm'
    | done h hq hm' hs =>
      cases hset _ h
      obtain ⟨s, h1, -, h2⟩ := settled_calls (pw := pw) (powf := powf) (ρ := ρ) (disp := disp) (writes := writes) (load := load) j fs hd hm hroom hf hr hp
        ht hc hq
      rw [h1] at hm'
      cases hm'
      exact ⟨_, rfl, h2 _ hs⟩

section
variable (hpw : Powf pw) (t : F32) (pts : List DataFile.Point) (j : Job V) (fs : Files) (ha : Aside writes j.ds) (h : Coherent pw t pts j.ds fs)
  (hw : Workable pts) (hs : ∀ p ∈ pts, BinaryPoint p) (hn : 2 ≤ j.folds) (hn2 : j.folds < 2 ^ 31) (hp : 1 ≤ j.passes)
  (g : List (String × List V)) (hg : j.grid = some g) (h0 : g ≠ []) (h1 : ∀ p ∈ g, p.2 ≠ []) (hprocs : 1 ≤ j.procs)
  (hnew : j.retrain = true ∨ fs j.cvPath = none) (hwr : writes j.cvPath = true) (hcv : j.cvPath ≠ j.ds.dataPath)
  (hd : Apart j.cls (g.map (·.1) ++ j.params.map (·.1))) (hB : ∀ x ∈ j.params, x.1 ≠ "B" ∧ x.1 ≠ "lambda")
  (hm : ∀ c, Combination g c → ∃ m, (∀ files, createWith files j.cls j.ds.classNum (update c j.params) = some m) ∧
    Roomy (update c j.params) ∧ ∀ es, (∀ e ∈ es, ∃ p ∈ pts, e = exOf p) → Trainable m es)
include hpw ha h hw hs hn hn2 hp hg h0 h1 hprocs hnew hwr hcv hB hm

/-- **C88 (choice), the part that holds.** With cross validation, the settings are those given and the combination of searched values with
    the best average accuracy on held out points; they are written into a file, from which a second call takes the same settings. -/
theorem C88_choice_partial :
    ∃ parts, SplitInto pw writes j.ds pts j.folds choice fs parts ∧ ((∀ l ∈ parts, l ≠ []) →
      (∃ r, Settles pw powf ρ disp st writes load choice j fs r) ∧
      ∀ r, Settles pw powf ρ disp st writes load choice j fs r → ∃ fs' c files,
        r = some (fs', update j.params c) ∧ (∃ file, fs' j.ds.dataPath = some file ∧ ReadsAs pw j.ds.dtype file pts .endOfFile) ∧
        BestOnHeldOut powf ρ disp files j.cls j.ds.classNum (parts.map fun l => l.map exOf) j.passes g j.params c ∧
        (Legible st g (fun d => d = j.params ∨ Combination g d) → ∀ r', Settles pw powf ρ disp st writes load choice { j with retrain := false } fs' r' →
          r' = some (fs', update j.params c))) := by
  obtain ⟨e1, e2⟩ := restored_eq hB
  obtain ⟨ds', fs', parts, s1, s2, s3, s4, p1, p2, hread, s5⟩ := C86_data_set_partial (powf := powf) (ρ := ρ) (disp := disp) hpw writes t pts j.ds fs ha h hw hs
    j.folds hn hn2 choice j.cls j.passes hp g h0 h1 j.params j.procs hprocs load (fun files c hc => by
      obtain ⟨m, m1, m2, m3⟩ := hm c hc
      exact ⟨m, m1 files, m2, m3⟩)
  refine ⟨parts, ⟨p1, p2, _, _, s1, hread⟩, fun hne => ?_⟩
  obtain ⟨-, ⟨lib, hlib⟩, s6⟩ := s5 hne
  have hpath : (fun i => DataFile.foldName ds'.foldPrefix ds'.sliceType i) = foldAt ds'.foldPrefix .bin := by
    rw [s3]
    rfl
  obtain ⟨file, f1, f2⟩ := s4.data
  constructor
  · obtain ⟨cv, c1, ⟨cv', c2⟩, c3⟩ := s6 lib hlib
    exact ⟨_, .chosen hg hnew (by rw [e1]; exact c1) s1 (by rw [hpath]; exact hlib) c2⟩
  · intro r hr
    cases hr with
    | given h => rw [hg] at h; cases h
    | again h h1 h2 =>
      rcases hnew with h3 | h3
      · rw [h1] at h3; cases h3
      · rw [h2] at h3; cases h3
    | refused h _ h1 =>
      rw [hg] at h
      cases h
      obtain ⟨cv, c1, -⟩ := s6 lib hlib
      rw [e1, c1] at h1
      cases h1
    | unsplit _ _ h1 => exact absurd s1 (h1 _ _)
    | @chosen g' ds₂ fs₂ lib₂ cv₂ cv₃ h2 _ h3 h4 h5 h6 =>
      rw [hg] at h2
      cases h2
      rw [s1] at h4
      cases h4
      rw [hpath] at h5
      rw [e1] at h3
      obtain ⟨cv, c1, -, c3⟩ := s6 lib₂ h5
      rw [c1] at h3
      cases h3
      obtain ⟨c, i, b1, b2⟩ := c3 cv₃ h6
      obtain ⟨text, t1⟩ := results_some (st := st) c1 h6 b1
      refine ⟨fs'.after [(j.cvPath, DataFile.ofChars text)], c, _, ?_, ?_, b2, ?_⟩
      · rw [b1, t1, e2, hwr]
        rfl
      · exact ⟨file, by rw [DataSet.after_other (by simpa using hcv.symm)]; exact f1, f2⟩
      · intro hl r' hr'
        have hsome : fs'.after [(j.cvPath, DataFile.ofChars text)] j.cvPath = some (DataFile.ofChars text) :=
          DataSet.after_written (by simp) (by simp)
        have hcvp : ({ j with retrain := false } : Job V).cvPath = j.cvPath := rfl
        obtain ⟨sp, g1, -⟩ := trainVal_shape c1 h6
        obtain ⟨space, f3, f4, -⟩ := C83_grid g h0
        rw [sp] at f3
        cases f3
        obtain ⟨c', i', b3, b4⟩ := C88_results hl (.inl g1) (fun p hp => .inr ((f4 p).1 hp)) t1
        rw [b1] at b3
        cases b3
        cases hr' with
        | given h => rw [show ({ j with retrain := false } : Job V).grid = some g from hg] at h; cases h
        | again h h1 h2 =>
          rw [hcvp, hsome] at h2
          cases h2
          rw [b4]
          rfl
        | refused _ h1 =>
          rw [hcvp, hsome] at h1
          simp at h1
        | unsplit _ h1 =>
          rw [hcvp, hsome] at h1
          simp at h1
        | chosen _ h1 =>
          rw [hcvp, hsome] at h1
          simp at h1

include hd in
/-- **C88 (training), the part that holds.** `train` with cross validation then trains the model with these settings on the whole data set
    like `sol_train` does. -/
theorem C88_train_partial (hc : j.output = none ∨ j.cls ∈ settled) :
    ∃ parts, SplitInto pw writes j.ds pts j.folds choice fs parts ∧ ((∀ l ∈ parts, l ≠ []) →
      (∃ e, SolTrain.Trains pw powf ρ disp st writes load choice j fs e) ∧
      ∀ e, SolTrain.Trains pw powf ρ disp st writes load choice j fs e → ∃ fs' e' c files m,
        BestOnHeldOut powf ρ disp files j.cls j.ds.classNum (parts.map fun l => l.map exOf) j.passes g j.params c ∧
        createWith files j.cls j.ds.classNum (update c j.params) = some m ∧ e = some (fs', e') ∧
        TrainedOn powf ρ disp ⟨fs', writes, load⟩ m pts j.passes j.output e') := by
  obtain ⟨parts, p1, p3⟩ := C88_choice_partial (powf := powf) (ρ := ρ) (disp := disp) (st := st) (load := load) (choice := choice) hpw t pts j fs ha h hw hs
    hn hn2 hp g hg h0 h1 hprocs hnew hwr hcv hB hm
  refine ⟨parts, p1, fun hne => ?_⟩
  obtain ⟨⟨r, hr⟩, hset⟩ := p3 hne
  have key : ∀ r, Settles pw powf ρ disp st writes load choice j fs r → ∃ fs' p c files m, r = some (fs', p) ∧
      BestOnHeldOut powf ρ disp files j.cls j.ds.classNum (parts.map fun l => l.map exOf) j.passes g j.params c ∧
      createWith files j.cls j.ds.classNum (update c j.params) = some m ∧ ∀ q, q.Perm p →
        ∃ s, newObject (World.files ⟨fs', writes, load⟩) j.cls j.ds.classNum q = some s ∧
      (∃ e, PySol.Session pw powf ρ disp ⟨fs', writes, load⟩ s j.calls e) ∧
      ∀ e, PySol.Session pw powf ρ disp ⟨fs', writes, load⟩ s j.calls e →
        TrainedOn powf ρ disp ⟨fs', writes, load⟩ m pts j.passes j.output e := by
    intro r hr
    obtain ⟨fs', c, files, rfl, ⟨file, f1, f2⟩, k2, -⟩ := hset r hr
    obtain ⟨m, m1, m2, m3⟩ := hm c k2.1
    have hnames := combination_names k2.1
    have hnd : ((c ++ j.params).map (·.1)).Nodup := by
      rw [List.map_append, hnames]
      exact hd.of_map
    have hperm : (update j.params c).Perm (update c j.params) := by
      rw [update_append hnd, update_append (((List.perm_append_comm.map _).nodup_iff).1 hnd)]
      exact List.perm_append_comm
    refine ⟨fs', _, c, files, m, rfl, k2, m1 files, fun q hq => ?_⟩
    refine settled_calls j fs' ?_ (m1 _) m2 f1 f2 hp m3 hc (hq.trans hperm)
    rw [update_append hnd, List.map_append, hnames]
    exact hd
  constructor
  · obtain ⟨fs', p, c, files, m, rfl, -, -, k⟩ := key r hr
    obtain ⟨s, s1, ⟨e, s2⟩, -⟩ := k p (.refl _)
    exact ⟨_, .done hr (.refl _) s1 s2⟩
  · intro e he
    cases he with
    | unsettled h => obtain ⟨_, _, _, _, _, h, -⟩ := key _ h; cases h
    | refused h hq hm' =>
      obtain ⟨_, _, _, _, _, h, -, -, k⟩ := key _ h
      cases h
      obtain ⟨s, s1, -⟩ := k _ hq
      rw [s1] at hm'
      cases hm'
    | done h hq hm' hs =>
      obtain ⟨_, _, c, files, m, h, k1, k2, k⟩ := key _ h
      cases h
      obtain ⟨s, s1, -, s2⟩ := k _ hq
      rw [s1] at hm'
      cases hm'
      exact ⟨_, _, c, files, m, k1, k2, rfl, s2 _ hs⟩

end
end

/-- How Python writes a dictionary with strings (without quotation marks in them), and reads it back. -/
def quoted (t : List Char) : List Char := '\'' :: (t ++ ['\''])

def pairs : List (List Char) → List (String × List Char)
  | _ :: k :: _ :: v :: l => (String.ofList k, v) :: pairs l
  | _ => []

/-- The texts between quotation marks, and those between them. -/
def pieces : List Char → List (List Char)
  | [] => [[]]
  | c :: l => if c = '\'' then [] :: pieces l else (match pieces l with | [] => [[c]] | p :: ps => (c :: p) :: ps)

def pyStyle : Style (List Char) where
  grid g := '{' :: ((g.map fun p => quoted p.1.toList ++ ": [".toList ++ (p.2.map quoted).flatten ++ "]".toList).flatten ++ ['}'])
  dict d := '{' :: (((d.map fun p => quoted p.1.toList ++ ": ".toList ++ quoted p.2).intersperse ", ".toList).flatten ++ ['}'])
  num x := decText (x * 10000).floor.toNat
  literal t := some (pairs (pieces t))

/-- The results for two values of `lambda`. -/
def lambdaCv : CV (List Char) ℚ :=
  ⟨2, [[("lambda", "1".toList)], [("lambda", "0".toList)]], [("eta", "2".toList)], 3, [[1, 1, 1], [1, 1, 1]], [[1 / 2, 0, 1 / 4], [1, 1, 1]]⟩

/-- **C88.** The file with the results of `C86_instance`, and the settings that are read from it. -/
theorem C88_instance :
    resultsText pyStyle lambdas lambdaCv = some ("Cross Validation Parameters: {'lambda': ['1''0']}\nExtra Model Parameters: {'eta': '2'}\n" ++
      "Best Result: {'lambda': '0'}:\t10000\t10000\nValidation Accuracies\n{'lambda': '1'}:\t5000\t0\t2500\n{'lambda': '0'}:\t10000\t10000\t10000\n" ++
      "Train Accuracies\n{'lambda': '1'}:\t10000\t10000\t10000\n{'lambda': '0'}:\t10000\t10000\t10000\n").toList ∧
    ((resultsText pyStyle lambdas lambdaCv).bind (loadResults pyStyle)) = some [("lambda", "0".toList)] := by
  decide +kernel

/-- A data set of two points, two values of `lambda` to choose from, and `eta` as given. -/
def smallJob (ds : DataSet) : Job (List Char) :=
  ⟨ds, 1, "fobos-l1".toList, .fobosL1, [("eta", "2".toList)], none, 2, some lambdas, true, 3⟩

/-- The hypotheses of C88 are met. -/
theorem C88_hypotheses :
    letI : FFun F32 := unusedFun
    ∃ ds fs, Powf bestPow ∧ Aside (fun _ => true) (smallJob ds).ds ∧ Coherent bestPow (.fin 1) twoPoints (smallJob ds).ds fs ∧
      (smallJob ds).cvPath ≠ (smallJob ds).ds.dataPath ∧ Apart (smallJob ds).cls (lambdas.map (·.1) ++ (smallJob ds).params.map (·.1)) ∧
      (∀ x ∈ (smallJob ds).params, x.1 ≠ "B" ∧ x.1 ≠ "lambda") ∧
      (∀ c, Combination lambdas c → ∃ m, (∀ files, createWith files (smallJob ds).cls (smallJob ds).ds.classNum (update c (smallJob ds).params) = some m) ∧
        Roomy (update c (smallJob ds).params) ∧ ∀ es, (∀ e ∈ es, ∃ p ∈ twoPoints, e = exOf p) → Trainable m es) ∧
      Legible pyStyle lambdas fun d => d = (smallJob ds).params ∨ Combination lambdas d := by
  letI : FFun F32 := unusedFun
  have hpw : Powf bestPow := fun k => ⟨10 ^ k, by rw [sub_self, abs_zero]; positivity, rfl⟩
  obtain ⟨fs, file, h1, h2, h3, h4, h5, h6, -⟩ := C84_hypotheses
  obtain ⟨_, _, ds, fs', -, -, k1, k2, k3, k4⟩ := C84_history_partial bestPow hpw (fun _ => true) exactPct h6 (.fin 1) twoPoints h1 ['x'] "d/x.bin".toList
    "bin".toList fs h2 file h3 h4 h5 [] (by simp)
  have hcn : ds.classNum = 2 := by
    rw [k4.classes]
    decide +kernel
  have hgood : ∀ p ∈ twoPoints, Good (exOf p).x := by
    unfold Good Sparse.Ascending
    decide
  have key : ∀ q es, (∀ e ∈ es, ∃ p ∈ twoPoints, e = exOf p) → Trainable { lasso q with eta := .fin 2 } es := by
    intro q es hes
    refine ⟨fun e he => ⟨?_, fun h => absurd (show Cls.fobosL1 ∈ choosing from h) (by decide), .inl rfl⟩,
      fun h => absurd (show Cls.fobosL1 ∈ [Cls.pet, .sofs, .adaFobosOfs, .adaRdaOfs] from h) (by decide),
      fun h => absurd (show Cls.fobosL1 = .fofs from h) (by decide), fun h => absurd (show Cls.fobosL1 ∈ choosing from h) (by decide),
      fun _ => .inl rfl, fun h => absurd (show false = true from h) (by decide)⟩
    obtain ⟨p, hp, rfl⟩ := hes e he
    exact hgood p hp
  have hroom : ∀ v : List Char, Roomy (V := List Char) [("lambda", v), ("eta", "2".toList)] := by
    intro v p hp hn
    simp only [List.mem_cons, List.not_mem_nil, or_false] at hp
    rcases hp with rfl | rfl
    · exact absurd (show "lambda" ∈ ["batch_size", "buf_size"] from hn) (by decide)
    · exact absurd (show "eta" ∈ ["batch_size", "buf_size"] from hn) (by decide)
  refine ⟨ds, fs', hpw, k2, k3, ?_, show (List.map (slotOf .fobosL1) ["lambda", "eta"]).Nodup from by decide, ?_, ?_, ?_⟩
  · show DataSet.join ds.workDir ("cv-".toList ++ "fobos-l1".toList ++ ".txt".toList) ≠ ds.dataPath
    rw [k1.dir, k1.path]
    decide
  · show ∀ x ∈ [("eta", "2".toList)], x.1 ≠ "B" ∧ x.1 ≠ "lambda"
    decide
  · intro c hc
    show ∃ m, (∀ files, createWith files .fobosL1 ds.classNum _ = some m) ∧ _
    rw [hcn]
    rcases (lambdas_iff c).1 hc with rfl | rfl
    · exact ⟨{ lasso 1 with eta := .fin 2 }, fun files => by with_unfolding_all rfl, hroom _, key 1⟩
    · exact ⟨{ lasso 0 with eta := .fin 2 }, fun files => by with_unfolding_all rfl, hroom _, key 0⟩
  · have hd : ∀ d : Dict (List Char), d = (smallJob ds).params ∨ Combination lambdas d →
        d = [("eta", "2".toList)] ∨ d = [("lambda", "1".toList)] ∨ d = [("lambda", "0".toList)] := fun d h => h.imp id (lambdas_iff d).1
    refine ⟨fun d h => ?_, fun d h => ?_, fun d h => ?_, fun x c hc => .inl (digits_decText _ c hc), fun d h => ?_, by unfold Unlike; decide, fun d h => ?_,
      by decide⟩
    · rcases hd d h with rfl | rfl | rfl
      · exact ⟨"'eta': '2'".toList, by decide⟩
      · exact ⟨"'lambda': '1'".toList, by decide⟩
      · exact ⟨"'lambda': '0'".toList, by decide⟩
    · rcases hd d h with rfl | rfl | rfl <;> decide
    · rcases hd d h with rfl | rfl | rfl <;> decide +kernel
    · unfold Unlike
      rcases hd d h with rfl | rfl | rfl <;> decide
    · rcases hd d h with rfl | rfl | rfl <;> decide

/-- The folds of this data set may all have points. -/
theorem C88_instance_folds :
    leaves (begun (onlyFile good)) fun ds fs => leaves (ds.splitFile bestPow (fun _ => true) 2 (some "bin".toList) id fs) fun _ fs =>
      ((fs "./cache/x/x.split.0.bin".toList).any fun f => f.length == 30) && (fs "./cache/x/x.split.1.bin".toList).any fun f => f.length == 25 := by
  decide +kernel

/-- **C88 is violated.** A parameter that is given and searched has the given value in cross validation, whatever is tried, and the value
    that was tried first in the training; `lambda`, if given and not searched, is not in effect in cross validation; if `B` is given and
    `lambda` searched, the order of the dictionary decides which of them counts; the results of an earlier search are taken, though other
    values are to be tried now. -/
theorem C88_is_violated :
    (∀ v ∈ ["1", "2"], createWith noFiles .ogd 2 (update [("eta", v.toList)] (searched [("eta", "5".toList)])) = some { fresh .ogd 2 with eta := .fin 5 }) ∧
    createWith noFiles .ogd 2 (update (restored [("eta", "5".toList)]) [("eta", "1".toList)]) = some { fresh .ogd 2 with eta := .fin 1 } ∧
    createWith noFiles .fobosL1 2 (update [("eta", "1".toList)] (searched [("lambda", "3".toList)])) = some { fresh .fobosL1 2 with eta := .fin 1 } ∧
    createWith noFiles .fobosL1 2 (update (restored [("lambda", "3".toList)]) [("eta", "1".toList)]) =
      some { fresh .fobosL1 2 with lambda := .fin 3, eta := .fin 1 } ∧
    createWith noFiles .pet 2 (update (restored [("B", "3".toList)]) [("lambda", "5".toList)]) = some { fresh .pet 2 with lambda := .fin 5 } ∧
    createWith noFiles .pet 2 (update (restored [("B", "3".toList)]) [("lambda", "5".toList)]).reverse = some { fresh .pet 2 with lambda := .fin 3 } ∧
    letI : FFun F32 := unusedFun
    ∃ fs, Settles bestPow (fun a _ => a) (fun _ => 0) (.newStep 1) pyStyle (fun _ => true) (fun _ => .null) id
      { smallJob (DataSet.unread ['x'] "d/x.bin".toList "bin".toList) with grid := some [("lambda", ["7".toList, "8".toList])], retrain := false } fs
      (some (fs, [("eta", "2".toList), ("lambda", "0".toList)])) := by
  refine ⟨by decide +kernel, by decide +kernel, by decide +kernel, by decide +kernel, by decide +kernel, by decide +kernel, ?_⟩
  letI : FFun F32 := unusedFun
  refine ⟨fun _ => some (DataFile.ofChars "Best Result: {'lambda': '0'}:\t1.0000\t1.0000\n".toList), ?_⟩
  have h := Settles.again (pw := bestPow) (powf := fun a _ => a) (ρ := fun _ => 0) (d := .newStep 1) (st := pyStyle) (writes := fun _ => true)
    (load := fun _ => .null) (choice := id)
    (j := { smallJob (DataSet.unread ['x'] "d/x.bin".toList "bin".toList) with grid := some [("lambda", ["7".toList, "8".toList])], retrain := false })
    (fs := fun _ => some (DataFile.ofChars "Best Result: {'lambda': '0'}:\t1.0000\t1.0000\n".toList)) rfl rfl rfl
  have e : loadResults pyStyle (DataFile.chars (DataFile.ofChars "Best Result: {'lambda': '0'}:\t1.0000\t1.0000\n".toList)) = some [("lambda", "0".toList)] := by
    decide +kernel
  rw [e] at h
  exact h

end Sol.Props
