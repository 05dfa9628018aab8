import Verif.Spec.Experiment
import Verif.Props.Observe
import Verif.Props.SolTrain
/-! Lemmas about experiments with several algorithms. -/

namespace Sol.Experiment
open Sol.Params Sol.Loss Sol.Whole Sol.PySol Sol.Cv Sol.PyCv Sol.Observe Sol.SolTrain Sol.Spec Sol.Props Sol.Online
open Sol.DataSet (Files DataSet)

/-! ### Tables -/

theorem lookup_cons_ite {α : Type} (a k : List Char) (v : α) (t : Table α) :
    ((k, v) :: t : Table α).lookup a = if a = k then some v else t.lookup a := by
  rw [List.lookup_cons]
  by_cases h : a = k
  · simp [h]
  · rw [if_neg h, beq_eq_false_iff_ne.2 h]

theorem lookup_isSome {α : Type} {t : Table α} {a : List Char} : a ∈ t.map (·.1) ↔ ∃ v, t.lookup a = some v := by
  induction t with
  | nil => simp
  | cons p t ih =>
    obtain ⟨k, v⟩ := p
    rw [lookup_cons_ite, List.map_cons, List.mem_cons]
    by_cases h : a = k
    · simp [h]
    · simp [h, ih]

theorem lookup_none {α : Type} {t : Table α} {a : List Char} : t.lookup a = none ↔ a ∉ t.map (·.1) := by
  rw [lookup_isSome, Option.eq_none_iff_forall_ne_some, not_exists]

theorem lookup_map_put {α : Type} (k a : List Char) (v : α) (t : Table α) :
    (t.map fun p => if p.1 = k then (k, v) else p : Table α).lookup a = if a = k then (t.lookup k).map fun _ => v else t.lookup a := by
  induction t with
  | nil => simp
  | cons p t ih =>
    obtain ⟨k', v'⟩ := p
    rw [List.map_cons, lookup_cons_ite, lookup_cons_ite]
    dsimp only
    by_cases h : k' = k
    · subst h
      rw [if_pos rfl, lookup_cons_ite, ih]
      by_cases h2 : a = k'
      · simp [h2]
      · simp [h2]
    · rw [if_neg h, lookup_cons_ite, ih]
      by_cases h2 : a = k
      · subst h2
        rw [if_neg fun e => h e.symm, if_pos rfl, if_pos rfl, if_neg fun e => h e.symm]
      · simp [h2]

theorem lookup_put {α : Type} (t : Table α) (k a : List Char) (v : α) : (put t k v).lookup a = if a = k then some v else t.lookup a := by
  unfold put
  by_cases h : t.any (·.1 = k) = true
  · rw [if_pos h, lookup_map_put]
    obtain ⟨p, hp, e⟩ := List.any_eq_true.1 h
    obtain ⟨w, hw⟩ := lookup_isSome.1 (List.mem_map.2 ⟨p, hp, of_decide_eq_true e⟩)
    rw [hw]
    rfl
  · rw [if_neg h]
    have hk : k ∉ t.map (·.1) := by
      intro hk
      obtain ⟨p, hp, e⟩ := List.mem_map.1 hk
      exact h (List.any_eq_true.2 ⟨p, hp, decide_eq_true e⟩)
    clear h
    induction t with
    | nil => simp [lookup_cons_ite]
    | cons p t ih =>
      obtain ⟨k', v'⟩ := p
      simp only [List.map_cons, List.mem_cons, not_or] at hk
      rw [List.cons_append, lookup_cons_ite, lookup_cons_ite, ih hk.2]
      by_cases h2 : a = k
      · subst h2
        simp [hk.1]
      · simp [h2]

theorem put_keys {α : Type} {t : Table α} {k : List Char} {v : α} (h : k ∈ t.map (·.1)) : (put t k v).map (·.1) = t.map (·.1) := by
  unfold put
  rw [if_pos (by
    obtain ⟨p, hp, e⟩ := List.mem_map.1 h
    exact List.any_eq_true.2 ⟨p, hp, decide_eq_true e⟩), List.map_map]
  refine List.map_congr_left fun p _ => ?_
  dsimp only [Function.comp]
  split_ifs with e
  · exact e.symm
  · rfl

theorem mem_put_keys {α : Type} {t : Table α} {k a : List Char} {v : α} : a ∈ (put t k v).map (·.1) ↔ a = k ∨ a ∈ t.map (·.1) := by
  rw [lookup_isSome, lookup_isSome, lookup_put]
  by_cases h : a = k <;> simp [h]

/-! ### Settings -/

section
variable {V : Type}

theorem assign_mem_self (d : Dict V) (k : String) (v : V) : (k, v) ∈ assign d k v := by
  unfold assign
  split_ifs with h
  · obtain ⟨p, hp, e⟩ := List.any_eq_true.1 h
    exact List.mem_map.2 ⟨p, hp, if_pos (of_decide_eq_true e)⟩
  · exact List.mem_append_right _ (List.mem_singleton.2 rfl)

theorem assign_mem_other {d : Dict V} {k k' : String} {v v' : V} (h : (k', v') ∈ d) (hk : k' ≠ k) : (k', v') ∈ assign d k v := by
  unfold assign
  split_ifs
  · exact List.mem_map.2 ⟨_, h, if_neg hk⟩
  · exact List.mem_append_left _ h

theorem assign_same {d : Dict V} {k : String} {v : V} (hd : (d.map (·.1)).Nodup) (h : (k, v) ∈ d) : assign d k v = d := by
  unfold assign
  rw [if_pos (List.any_eq_true.2 ⟨_, h, decide_eq_true rfl⟩)]
  conv_rhs => rw [← List.map_id d]
  refine List.map_congr_left fun p hp => ?_
  dsimp only [id]
  split_ifs with e
  · exact (List.inj_on_of_nodup_map hd h hp e.symm)
  · rfl

theorem update_mem_of {d e : Dict V} {k : String} {v : V} (h : (k, v) ∈ d) (hk : k ∉ e.map (·.1)) : (k, v) ∈ update d e := by
  induction e generalizing d with
  | nil => exact h
  | cons p e ih =>
    simp only [List.map_cons, List.mem_cons, not_or] at hk
    exact ih (assign_mem_other h hk.1) hk.2

theorem update_mem {d e : Dict V} (he : (e.map (·.1)).Nodup) {p : String × V} (hp : p ∈ e) : p ∈ update d e := by
  induction e generalizing d with
  | nil => cases hp
  | cons q e ih =>
    rw [List.map_cons, List.nodup_cons] at he
    rcases List.mem_cons.1 hp with rfl | hp
    · show p ∈ update (assign d p.1 p.2) e
      exact update_mem_of (assign_mem_self _ _ _) he.1
    · exact ih he.2 hp

/-- A second time, the results of cross validation change nothing. -/
theorem update_again {d e : Dict V} (hd : ((update d e).map (·.1)).Nodup) (he : (e.map (·.1)).Nodup) : update (update d e) e = update d e := by
  have key : ∀ l : Dict V, (∀ p ∈ l, p ∈ update d e) → update (update d e) l = update d e := by
    intro l
    induction l with
    | nil => intro _; rfl
    | cons p l ih =>
      intro h
      have h1 : assign (update d e) p.1 p.2 = update d e := assign_same hd (h p List.mem_cons_self)
      show update (assign (update d e) p.1 p.2) l = _
      rw [h1]
      exact ih fun q hq => h q (List.mem_cons_of_mem _ hq)
  exact key e fun p hp => update_mem he hp

/-- The settings stay the same after a run. -/
theorem settings_updated {st : Style V} {x : Setup} {fs : Files} {a : List Char} {o : Opt V} {p : Dict V} (h : SettingsOf st x fs a o p)
    (hp : (p.map (·.1)).Nodup) : SettingsOf st x fs a (o.updated p) p := by
  obtain ⟨params, grid⟩ := o
  rcases h with ⟨h1, h2⟩ | ⟨g, f, b, h1, h2, h3, h4, h5⟩
  · refine .inl ⟨h1, ?_⟩
    cases params with
    | none => exact h2
    | some q => rfl
  · refine .inr ⟨g, f, b, h1, h2, h3, h4, ?_⟩
    cases params with
    | none => exact h5
    | some q =>
      show p = update p b
      rw [h5] at hp ⊢
      exact (update_again hp h4).symm

end

/-! ### One run -/

section
variable [FFun F32] {V : Type} [PyVal V] {pw : Int → F32} {powf : F32 → F32 → F32} {d : Train.Disp} {st : Style V} {writes : List Char → Bool}
  {load : List Char → Loaded}

/-- The only settings that a run comes to. -/
theorem settles_iff {x : Setup} {a : List Char} {c : Cls} {o : Opt V} {fs : Files} {p : Dict V} (h : SettingsOf st x fs a o p)
    (r : Option (Files × Dict V)) : Settles pw powf d st writes load x a c o fs r ↔ r = some (fs, p) := by
  rcases h with ⟨h1, rfl⟩ | ⟨g, f, b, h1, h2, h3, h4, rfl⟩
  · constructor
    · intro h
      cases h with
      | given => rfl
      | again h => rw [h1] at h; cases h
      | refused h => rw [h1] at h; cases h
      | unsplit h => rw [h1] at h; cases h
      | chosen h => rw [h1] at h; cases h
    · rintro rfl
      exact .given h1
  · constructor
    · intro h
      cases h with
      | given h => rw [h1] at h; cases h
      | again _ hf => rw [h2] at hf; cases hf; rw [h3]; rfl
      | refused _ hf => rw [h2] at hf; cases hf
      | unsplit _ hf => rw [h2] at hf; cases hf
      | chosen _ hf => rw [h2] at hf; cases hf
    · rintro rfl
      have := Settles.again (pw := pw) (powf := powf) (d := d) (st := st) (writes := writes) (load := load) (x := x) (algo := a) (cls := c) h1 h2
      rw [h3] at this
      exact this

/-- A log of a training without examples is the last report. -/
theorem log_nil {ρ : Nat → F32} {m : M} {R : List (Train.Report F32)} (h : LogOf powf ρ d m [] R) : R.dropLast = [] := by
  obtain ⟨k, K, s, q, -, -, -, hq, rfl⟩ := h
  simp only [Train.train, batches_flat, List.flatten_cons, List.flatten_nil, List.append_nil, Res.bind_eq_ok] at hq
  obtain ⟨lp, h1, h2⟩ := hq
  obtain rfl := Res.ok.inj h2
  simp only [Train.batch] at h1
  obtain rfl := Res.ok.inj h1
  rfl

/-- What the statements come to. -/
theorem statements_ok {W : World} {m : M} {files : List Char → Option (List Char)} (hm : Reached files m) {x : Setup} {path : List Char}
    {es tests : List (Ex F32)} (hf : FileGives pw W path x.train.dtype 1 es) (hg : FileGives pw W x.test.dataPath x.test.dtype 1 tests)
    (ht : Trainable m es) (ha : ∀ e ∈ tests, Sparse.Ascending e.x) (ρ : Nat → F32) (verbose : Bool) (size num : Nat) (hs : 1 ≤ size) (hn : 1 ≤ num) :
    (∃ e, OSession pw powf ρ d W (Obs.start m size num verbose) (statements x path) e) ∧
    ∀ e, OSession pw powf ρ d W (Obs.start m size num verbose) (statements x path) e → ∃ s outs, e = .ok (s, outs) ∧
      ∀ t1 t2, ∃ row log, summary t1 t2 outs = some (row, log) ∧ Measured powf d m es tests row log := by
  obtain ⟨h1, h2⟩ := C92_session_partial (pw := pw) (powf := powf) (ρ := ρ) (d := d) W m hm
    [(.inspect (some 0), []), (.call (.fit path x.train.dtype 1), es), (.call (.score x.test.dataPath x.test.dtype), tests)]
    (by
      intro p hp
      simp only [callsOf, List.filterMap_cons, List.filterMap_nil, List.mem_cons, List.not_mem_nil, or_false] at hp
      rcases hp with rfl | rfl
      · exact hf
      · exact hg)
    (fun _ => by simpa [callsOf, taught, isFit] using ht)
    (by
      intro p hp hfit
      simp only [callsOf, List.filterMap_cons, List.filterMap_nil, List.mem_cons, List.not_mem_nil, or_false] at hp
      rcases hp with rfl | rfl
      · cases hfit
      · exact ha)
    (.inr ⟨[], [.fit path x.train.dtype 1], [.score x.test.dataPath x.test.dtype], rfl, by simp, by simp [isFit], by simp [isFit], by simp⟩)
    (by
      intro pre op suf he hop
      match pre, he with
      | [], he => simp at he
      | [q], he =>
        simp only [List.map_cons, List.map_nil, List.cons_append, List.nil_append, List.cons.injEq] at he
        obtain ⟨rfl, -⟩ := he
        intro u h b hu _
        match u, hu with
        | [], hu =>
          simp only [List.nil_append, List.cons.injEq] at hu
          obtain ⟨-, rfl⟩ := hu
          simp
        | v :: u, hu => simp at hu
      | [q, q'], he =>
        simp only [List.map_cons, List.map_nil, List.cons_append, List.nil_append, List.cons.injEq] at he
        obtain ⟨-, -, he, -⟩ := he
        cases he
        cases hop
      | q :: q' :: q'' :: pre, he => simp at he)
    verbose size num hs hn
  refine ⟨h1, fun e he => ?_⟩
  obtain ⟨s, outs, rfl, h3, h4⟩ := h2 e he
  obtain ⟨o1, o2, o3, rfl⟩ : ∃ o1 o2 o3, outs = [o1, o2, o3] := by
    match outs, h3 with
    | [a, b, c], _ => exact ⟨a, b, c, rfl⟩
  obtain ⟨-, r, e1, k1, k2⟩ := h4 1 _ _ o2 rfl rfl
  obtain ⟨-, r', e2, k3, -⟩ := h4 2 _ _ o3 rfl rfl
  obtain ⟨a, rfl, k1⟩ : ∃ x', r = .rate x' ∧ RateOfAll powf ρ d m [es] x' := k1
  obtain ⟨m', k3, k4⟩ : ∃ m', TaughtAll powf ρ d m [es] m' ∧ Tells W m' (.score x.test.dataPath x.test.dtype) tests r' := k3
  obtain ⟨rows, b, k4, rfl⟩ := k4
  obtain ⟨R, R', k5, k6, k7, -⟩ : ∃ R R', LogOf powf ρ d m [] R ∧ LogOf powf ρ d m es R' ∧ R.dropLast ++ o2.told = R' ∧ _ := k2
  rw [log_nil k5, List.nil_append] at k7
  subst k7
  rcases k3 with ⟨k3, -⟩ | ⟨-, k3⟩
  · cases k3
  obtain ⟨ret2, told, whom⟩ := o2
  obtain ⟨ret3, told', whom'⟩ := o3
  dsimp only at e1 e2
  subst e1
  subst e2
  refine ⟨s, _, rfl, fun t1 t2 => ⟨_, _, rfl, ρ, m', a, rows, b, by simpa using k3, k1, ?_, k4, ?_, k6⟩⟩
  · rintro q rfl
    rfl
  · rintro q rfl
    rfl

/-- A run of an algorithm whose settings are known. -/
theorem run_ok {x : Setup} {a : List Char} {c : Cls} (hc : classNamed a = some c) {o : Opt V} {fs : Files} {p : Dict V}
    (h : SettingsOf st x fs a o p) (hd : Apart c (p.map (·.1))) {m : M}
    (hm : createWith (World.files ⟨fs, writes, load⟩) c x.train.classNum p = some m) (hroom : Roomy p)
    {f : DataFile.File} (hf : fs (x.train.shufflePath x.train.dtype) = some f) {qs : List DataFile.Point}
    (hr : ReadsAs pw x.train.dtype f qs .endOfFile) {tf : DataFile.File} (htf : fs x.test.dataPath = some tf) {tpts : List DataFile.Point}
    (htr : ReadsAs pw x.test.dtype tf tpts .endOfFile) (ht : Trainable m (qs.map exOf)) (ha : ∀ e ∈ tpts.map exOf, Sparse.Ascending e.x) :
    (∃ e, RunOl pw powf d st writes load x a o fs e) ∧
    ∀ e, RunOl pw powf d st writes load x a o fs e → ∃ row log, e = some (fs, o.updated p, row, log) ∧
      Measured powf d m (qs.map exOf) (tpts.map exOf) row log := by
  have hset := settles_iff (pw := pw) (powf := powf) (d := d) (writes := writes) (load := load) (c := c) h
  have hrand : ∀ choice, x.train.randPath pw writes none false choice fs = .ok (.gives (x.train.shufflePath x.train.dtype) fs) := by
    intro choice
    unfold DataSet.randPath
    dsimp only [Option.getD_none]
    rw [hf]
    rfl
  have hnew : ∀ q : Dict V, q.Perm p → ∃ size num, 1 ≤ size ∧ 1 ≤ num ∧
      newObject (World.files ⟨fs, writes, load⟩) c x.train.classNum q = some (Py.start m size num) := by
    intro q hq
    have hm' : createWith (World.files ⟨fs, writes, load⟩) c x.train.classNum q = some m := by
      rw [← hm]
      refine C87_python_partial _ hq ?_
      have h1 : (PyCv.settings q).map (fun p => slotOf c p.1) = ((q.filter fun p => p.1 ∉ PyCv.ownNames).map (·.1)).map (slotOf c) := by
        simp only [PyCv.settings, List.map_map]
        rfl
      rw [h1]
      have h2 : ((q.map (·.1)).map (slotOf c)).Nodup := ((hq.map _).map _).nodup_iff.2 hd
      exact h2.sublist ((List.filter_sublist.map _).map _)
    have hroom' : Roomy q := fun x hx => hroom x (hq.subset hx)
    obtain ⟨⟨size, h1⟩, num, h2⟩ := sizes_of hroom'
    exact ⟨size, num, sizeOf_pos (by norm_num) h1, sizeOf_pos (by norm_num) h2, newObject_start hm' h1 h2⟩
  have hone : ∀ (path ty : List Char) (f : DataFile.File) (pts : List DataFile.Point), fs path = some f → ReadsAs pw ty f pts .endOfFile →
      FileGives pw ⟨fs, writes, load⟩ path ty 1 (pts.map exOf) := by
    intro path ty f pts h1 h2
    refine ⟨f, h1, .inr ⟨by decide, pts, .endOfFile, h2, ?_⟩⟩
    simp [lessons, filePoints]
  have hall := fun ρ verbose size num hs hn => statements_ok (powf := powf) (d := d) (create_reached hm) (x := x) (hone _ _ _ _ hf hr) (hone _ _ _ _ htf htr)
    ht ha ρ verbose size num hs hn
  constructor
  · obtain ⟨size, num, hs, hn, h1⟩ := hnew p (.refl _)
    obtain ⟨⟨e, he⟩, -⟩ := hall (fun _ => 0) true size num hs hn
    exact ⟨_, .done (testTime := 0) (trainTime := 0) hc ((hset _).2 rfl) (.refl _) h1 (hrand id) he⟩
  · intro e he
    cases he with
    | unknown h => rw [hc] at h; cases h
    | unsettled h h1 => rw [hc] at h; cases h; cases (hset _).1 h1
    | refused h h1 h2 h3 =>
      rw [hc] at h
      cases h
      cases (hset _).1 h1
      obtain ⟨_, _, -, -, h4⟩ := hnew _ h2
      rw [h4] at h3
      cases h3
    | unshuffled h h1 h2 =>
      rw [hc] at h
      cases h
      cases (hset _).1 h1
      exact absurd (hrand _) (h2 _ _)
    | @done cls fs' fs'' p' q choice ρ s verbose path e t1 t2 h h1 h2 h3 h4 h5 =>
      rw [hc] at h
      cases h
      cases (hset _).1 h1
      obtain ⟨size, num, hs, hn, h6⟩ := hnew _ h2
      rw [h6] at h3
      cases h3
      rw [hrand] at h4
      cases h4
      obtain ⟨s, outs, rfl, h7⟩ := (hall ρ verbose size num hs hn).2 e h5
      obtain ⟨row, log, h8, h9⟩ := h7 t1 t2
      refine ⟨row, log, ?_, h9⟩
      dsimp only
      rw [h8]
      rfl

end

end Sol.Experiment

namespace Sol.Experiment
open Sol.Params Sol.Loss Sol.Whole Sol.PySol Sol.Cv Sol.PyCv Sol.Observe Sol.SolTrain Sol.Spec Sol.Props Sol.Online
open Sol.DataSet (Files DataSet)

section
variable [FFun F32] {V : Type} [PyVal V] {pw : Int → F32} {powf : F32 → F32 → F32} {d : Train.Disp} {st : Style V} {writes : List Char → Bool}
  {load : List Char → Loaded}

/-! ### The loops -/

/-- What the loop over the algorithms does with the results. -/
def Advance (powf : F32 → F32 → F32) (d : Train.Disp) (mo : List Char → M) (es tests : List (Ex F32)) (r : Nat) (l : List (List Char))
    (k k' : Kept) : Prop :=
  ∀ a, (a ∉ l → k'.res.lookup a = k.res.lookup a ∧ k'.logs.lookup a = k.logs.lookup a) ∧
    (a ∈ l → ∃ rows logs rows' logs', k.res.lookup a = some rows ∧ k.logs.lookup a = some logs ∧ k'.res.lookup a = some rows' ∧
      k'.logs.lookup a = some logs' ∧ rows'.length = rows.length ∧ logs'.length = logs.length ∧
      (∀ i : Nat, i ≠ r → rows'[i]? = rows[i]? ∧ logs'[i]? = logs[i]?) ∧
      ∃ row log, rows'[r]? = some row ∧ logs'[r]? = some (some log) ∧ Measured powf d (mo a) es tests row log)

theorem runnable_nodup {fmt : DataFile.Format} {x : Setup} {pts : List DataFile.Point} {P : List Char → Dict V} {mo : List Char → M} {a : List Char}
    (h : Runnable fmt x pts P mo a) : ((P a).map (·.1)).Nodup := by
  obtain ⟨c, -, h1, -⟩ := h.cls
  exact h1.of_map

/-- Recording a result. -/
theorem record_ok {k : Kept} {a : List Char} {r : Nat} {row : Row} {log : Log} {rows : List Row} {logs : List (Option Log)}
    (h1 : k.res.lookup a = some rows) (h2 : k.logs.lookup a = some logs) (h3 : r < rows.length) (h4 : r < logs.length) :
    k.record a r row log = some ⟨put k.res a (rows.set r row), put k.logs a (logs.set r (some log))⟩ := by
  unfold Kept.record
  rw [h1, h2]
  exact if_pos ⟨h3, h4⟩

theorem algos_ok {fmt : DataFile.Format} {x : Setup} {pts : List DataFile.Point} {P : List Char → Dict V} {mo : List Char → M} {r : Nat} {fs : Files}
    {f : DataFile.File} (hf : fs (x.train.shufflePath x.train.dtype) = some f) {qs : List DataFile.Point}
    (hr : ReadsAs pw x.train.dtype f qs .endOfFile) (ho : InSomeOrder fmt pts (qs.map exOf)) {tf : DataFile.File}
    (htf : fs x.test.dataPath = some tf) {tpts : List DataFile.Point} (htr : ReadsAs pw x.test.dtype tf tpts .endOfFile)
    (ha : ∀ e ∈ tpts.map exOf, Sparse.Ascending e.x) (l : List (List Char)) (hl : ∀ a ∈ l, Runnable fmt x pts P mo a) :
    ∀ (opts : Table (Opt V)) (k : Kept), (∀ a ∈ l, ∃ o, opts.lookup a = some o ∧ SettingsOf st x fs a o (P a)) →
      (∀ a ∈ l, ∃ rows logs, k.res.lookup a = some rows ∧ k.logs.lookup a = some logs ∧ r < rows.length ∧ r < logs.length) →
      (∃ e, Algos pw powf d st writes load x r l ⟨fs, opts, k⟩ e) ∧
      ∀ e, Algos pw powf d st writes load x r l ⟨fs, opts, k⟩ e → ∃ opts' k', e = some ⟨fs, opts', k'⟩ ∧
        opts'.map (·.1) = opts.map (·.1) ∧
        (∀ a o, opts.lookup a = some o → ∃ o', opts'.lookup a = some o' ∧ (SettingsOf st x fs a o (P a) → ((P a).map (·.1)).Nodup → SettingsOf st x fs a o' (P a))) ∧
        Advance powf d mo (qs.map exOf) (tpts.map exOf) r l k k' := by
  induction l with
  | nil =>
    intro opts k _ _
    refine ⟨⟨_, .nil⟩, fun e he => ?_⟩
    cases he
    exact ⟨opts, k, rfl, rfl, fun a o h => ⟨o, h, fun h _ => h⟩, fun a => ⟨fun _ => ⟨rfl, rfl⟩, fun h => absurd h (by simp)⟩⟩
  | cons b l ih =>
    intro opts k hopts hk
    obtain ⟨o, ho1, ho2⟩ := hopts b List.mem_cons_self
    obtain ⟨c, hc, hap, hcr⟩ := (hl b List.mem_cons_self).cls
    obtain ⟨⟨e0, he0⟩, hrun⟩ := run_ok (pw := pw) (powf := powf) (d := d) (writes := writes) (load := load) hc ho2 hap (hcr _)
      (hl b List.mem_cons_self).roomy hf hr htf htr ((hl b List.mem_cons_self).trains _ ho) ha
    obtain ⟨rows, logs, r1, r2, r3, r4⟩ := hk b List.mem_cons_self
    have hnext : ∀ row log, (∀ a ∈ l, ∃ o', (put opts b (o.updated (P b))).lookup a = some o' ∧ SettingsOf st x fs a o' (P a)) ∧
        ∀ a ∈ l, ∃ rows' logs', (put k.res b (rows.set r row)).lookup a = some rows' ∧ (put k.logs b (logs.set r (some log))).lookup a = some logs' ∧
          r < rows'.length ∧ r < logs'.length := by
      intro row log
      constructor
      · intro a ha'
        rw [lookup_put]
        by_cases e : a = b
        · subst e
          rw [if_pos rfl]
          exact ⟨_, rfl, settings_updated ho2 (runnable_nodup (hl a List.mem_cons_self))⟩
        · rw [if_neg e]
          exact hopts a (List.mem_cons_of_mem _ ha')
      · intro a ha'
        rw [lookup_put, lookup_put]
        by_cases e : a = b
        · rw [if_pos e, if_pos e]
          exact ⟨_, _, rfl, rfl, by simpa using r3, by simpa using r4⟩
        · rw [if_neg e, if_neg e]
          exact hk a (List.mem_cons_of_mem _ ha')
    have hih := fun row log => ih (fun a h => hl a (List.mem_cons_of_mem _ h)) (put opts b (o.updated (P b)))
      ⟨put k.res b (rows.set r row), put k.logs b (logs.set r (some log))⟩ (hnext row log).1 (hnext row log).2
    constructor
    · obtain ⟨row, log, rfl, -⟩ := hrun e0 he0
      obtain ⟨⟨e1, he1⟩, -⟩ := hih row log
      exact ⟨e1, .cons ho1 he0 (record_ok r1 r2 r3 r4) he1⟩
    · intro e he
      have hcase : ∃ row log, Measured powf d (mo b) (qs.map exOf) (tpts.map exOf) row log ∧
          Algos pw powf d st writes load x r l ⟨fs, put opts b (o.updated (P b)), ⟨put k.res b (rows.set r row), put k.logs b (logs.set r (some log))⟩⟩ e := by
        cases he with
        | missing h => rw [show (Stage.mk fs opts k).opts.lookup b = some o from ho1] at h; cases h
        | fails h h1 =>
          rw [show (Stage.mk fs opts k).opts.lookup b = some o from ho1] at h
          cases h
          obtain ⟨_, _, h2, -⟩ := hrun _ h1
          cases h2
        | unrecorded h h1 h2 =>
          rw [show (Stage.mk fs opts k).opts.lookup b = some o from ho1] at h
          cases h
          rw [record_ok (k := (Stage.mk fs opts k).kept) r1 r2 r3 r4] at h2
          cases h2
        | cons h h1 h2 h3 =>
          rw [show (Stage.mk fs opts k).opts.lookup b = some o from ho1] at h
          cases h
          obtain ⟨row, log, h4, h5⟩ := hrun _ h1
          cases h4
          rw [record_ok (k := (Stage.mk fs opts k).kept) r1 r2 r3 r4] at h2
          cases h2
          exact ⟨_, _, h5, h3⟩
      obtain ⟨row, log, hme, he⟩ := hcase
      obtain ⟨opts', k', rfl, g1, g2, g3⟩ := (hih row log).2 e he
      refine ⟨opts', k', rfl, ?_, ?_, ?_⟩
      · rw [g1, put_keys (lookup_isSome.2 ⟨_, ho1⟩)]
      · intro a o₁ ho₁
        by_cases e : a = b
        · subst e
          rw [ho1] at ho₁
          cases ho₁
          obtain ⟨o', q1, q2⟩ := g2 a (o.updated (P a)) (by rw [lookup_put, if_pos rfl])
          exact ⟨o', q1, fun h hn => q2 (settings_updated h hn) hn⟩
        · exact g2 a o₁ (by rw [lookup_put, if_neg e]; exact ho₁)
      · intro a
        obtain ⟨g4, g5⟩ := g3 a
        by_cases hal : a ∈ l
        · refine ⟨fun h => absurd (List.mem_cons_of_mem _ hal) h, fun _ => ?_⟩
          obtain ⟨rows1, logs1, rows2, logs2, q1, q2, q3, q4, q5, q6, q7, q8⟩ := g5 hal
          dsimp only at q1 q2
          rw [lookup_put] at q1 q2
          by_cases e : a = b
          · subst e
            rw [if_pos rfl] at q1 q2
            cases q1
            cases q2
            refine ⟨rows, logs, rows2, logs2, r1, r2, q3, q4, by simpa using q5, by simpa using q6, fun i hi => ?_, q8⟩
            rw [(q7 i hi).1, (q7 i hi).2, List.getElem?_set_ne hi.symm, List.getElem?_set_ne hi.symm]
            exact ⟨rfl, rfl⟩
          · rw [if_neg e] at q1 q2
            exact ⟨rows1, logs1, rows2, logs2, q1, q2, q3, q4, q5, q6, q7, q8⟩
        · obtain ⟨q1, q2⟩ := g4 hal
          dsimp only at q1 q2
          rw [lookup_put] at q1 q2
          constructor
          · intro h
            have e : a ≠ b := fun e => h (by rw [e]; exact List.mem_cons_self)
            rw [if_neg e] at q1 q2
            exact ⟨q1, q2⟩
          · intro h
            rcases List.mem_cons.1 h with rfl | h
            · rw [if_pos rfl] at q1 q2
              refine ⟨rows, logs, _, _, r1, r2, q1, q2, by simp, by simp, fun i hi => ?_, row, log, ?_, ?_, hme⟩
              · rw [List.getElem?_set_ne hi.symm, List.getElem?_set_ne hi.symm]
                exact ⟨rfl, rfl⟩
              · rw [List.getElem?_set_self r3]
              · rw [List.getElem?_set_self r4]
            · exact absurd h hal

end

end Sol.Experiment

namespace Sol.Experiment
open Sol.Params Sol.Loss Sol.Whole Sol.PySol Sol.Cv Sol.PyCv Sol.Observe Sol.SolTrain Sol.Spec Sol.Props Sol.Online
open Sol.DataSet (Files DataSet)

/-- `rand_path(force=True)` writes a new order. -/
theorem shuffle_forced {pw : Int → F32} (hpw : Powf pw) {writes : List Char → Bool} {t : F32} {pts : List DataFile.Point} {ds : DataSet} {fs : Files}
    (ha : Aside writes ds) (h : Coherent pw t pts ds fs) {fmt : DataFile.Format} (hty : ds.dtype = typeName fmt) (hs : Suits fmt pts)
    (choice : Nat → Nat) :
    ∃ f l, ds.randPath pw writes none true choice fs = .ok (.gives (ds.shufflePath ds.dtype) (fs.after [(ds.shufflePath ds.dtype, f)])) ∧
      Coherent pw t pts ds (fs.after [(ds.shufflePath ds.dtype, f)]) ∧ l.Perm pts ∧ Saved pw fmt l f := by
  obtain ⟨file, hd, hr⟩ := h.data
  have hw : writes (ds.shufflePath (typeName fmt)) = true := by
    rw [DataSet.shuffle_cached]
    exact ha.writes _
  obtain ⟨f, l, f1, q1, q2⟩ := C74_shuffle_partial pw hpw (DataSet.seen writes fs) choice ds.dataPath ds.dtype (ds.shufflePath (typeName fmt)) fmt file
    ⟨hd, hd, hw⟩ pts hr hs
  refine ⟨f, l, ?_, ?_, q1, q2⟩
  · unfold DataSet.randPath
    dsimp only [Option.getD_none]
    rw [if_neg (by simp)]
    rw [← hty] at f1
    rw [f1]
    rfl
  · rw [hty, DataSet.shuffle_cached]
    exact coherent_write ha h (.shuf fmt) f (fun _ _ e => by cases e) (fun _ e => by cases e) (fun _ e => by cases e)
      (fun g e => by cases e; exact ⟨l, q1, q2⟩) fun e => by cases e

/-- Settings that do not depend on the files of the data set. -/
theorem settings_same {V : Type} {st : Style V} {x : Setup} {fs fs' : Files} {a : List Char} {o : Opt V} {p : Dict V}
    (h : SettingsOf st x fs a o p) (hf : fs' (x.cvPath a) = fs (x.cvPath a)) : SettingsOf st x fs' a o p := by
  rcases h with h | ⟨g, f, b, h1, h2, h3⟩
  · exact .inl h
  · exact .inr ⟨g, f, b, h1, by rw [hf]; exact h2, h3⟩

section
variable [FFun F32] {V : Type} [PyVal V] {pw : Int → F32} {powf : F32 → F32 → F32} {d : Train.Disp} {st : Style V} {writes : List Char → Bool}
  {load : List Char → Loaded}

theorem repeats_ok (hpw : Powf pw) {fmt : DataFile.Format} {x : Setup} {t : F32} {pts : List DataFile.Point} (haside : Aside writes x.train)
    (hty : x.train.dtype = typeName fmt) (hs : Suits fmt pts) {P : List Char → Dict V} {mo : List Char → M}
    {tf : DataFile.File} {tpts : List DataFile.Point} (htr : ReadsAs pw x.test.dtype tf tpts .endOfFile)
    (htest : x.test.dataPath ≠ x.train.shufflePath x.train.dtype)
    (ha : ∀ e ∈ tpts.map exOf, Sparse.Ascending e.x) (T : List (List Char)) (hT : ∀ a ∈ T, Runnable fmt x pts P mo a)
    (hcv : ∀ a ∈ T, x.cvPath a ≠ x.train.shufflePath x.train.dtype) (n : Nat) (rids : List Nat) :
    ∀ (fs : Files) (opts : Table (Opt V)) (k : Kept), Coherent pw t pts x.train fs → fs x.test.dataPath = some tf →
      (∀ a ∈ T, ∃ o, opts.lookup a = some o ∧ SettingsOf st x fs a o (P a)) →
      (∀ a ∈ T, ∃ rows logs, k.res.lookup a = some rows ∧ k.logs.lookup a = some logs ∧ rows.length = n ∧ logs.length = n) →
      rids.Nodup → (∀ r ∈ rids, r < n) →
      (∃ e, Repeats pw powf d st writes load x T rids ⟨fs, opts, k⟩ e) ∧
      ∀ e, Repeats pw powf d st writes load x T rids ⟨fs, opts, k⟩ e → ∃ (fs' : Files) (opts' : Table (Opt V)) (k' : Kept) (orders : Nat → List (Ex F32)), e = some ⟨fs', opts', k'⟩ ∧
        opts'.map (·.1) = opts.map (·.1) ∧ (∀ r ∈ rids, InSomeOrder fmt pts (orders r)) ∧
        ∀ a, (a ∉ T → k'.res.lookup a = k.res.lookup a ∧ k'.logs.lookup a = k.logs.lookup a) ∧
          (a ∈ T → ∃ rows logs rows' logs', k.res.lookup a = some rows ∧ k.logs.lookup a = some logs ∧ k'.res.lookup a = some rows' ∧
            k'.logs.lookup a = some logs' ∧ rows'.length = n ∧ logs'.length = n ∧
            (∀ i : Nat, i ∉ rids → rows'[i]? = rows[i]? ∧ logs'[i]? = logs[i]?) ∧
            ∀ r ∈ rids, ∃ row log, rows'[r]? = some row ∧ logs'[r]? = some (some log) ∧
              Measured powf d (mo a) (orders r) (tpts.map exOf) row log) := by
  induction rids with
  | nil =>
    intro fs opts k _ _ _ hk _ _
    refine ⟨⟨_, .nil⟩, fun e he => ?_⟩
    cases he
    refine ⟨fs, opts, k, fun _ => [], rfl, rfl, by simp, fun a => ⟨fun _ => ⟨rfl, rfl⟩, fun h => ?_⟩⟩
    obtain ⟨rows, logs, h1, h2, h3, h4⟩ := hk a h
    exact ⟨rows, logs, rows, logs, h1, h2, h1, h2, h3, h4, fun i _ => ⟨rfl, rfl⟩, by simp⟩
  | cons r l ih =>
    intro fs opts k hco htf hopts hk hnd hlt
    rw [List.nodup_cons] at hnd
    have hother : ∀ (f : DataFile.File) (q : List Char), q ≠ x.train.shufflePath x.train.dtype →
        fs.after [(x.train.shufflePath x.train.dtype, f)] q = fs q := fun f q hq => DataSet.after_other (by simpa using hq)
    have hself : ∀ f : DataFile.File, fs.after [(x.train.shufflePath x.train.dtype, f)] (x.train.shufflePath x.train.dtype) = some f :=
      fun f => DataSet.after_written (by simp) (by simp)
    have hround : ∀ choice, ∃ (fs' : Files) (qs : List DataFile.Point), x.train.randPath pw writes none true choice fs = .ok (.gives (x.train.shufflePath x.train.dtype) fs') ∧
        InSomeOrder fmt pts (qs.map exOf) ∧
        (∃ e, Algos pw powf d st writes load x r T ⟨fs', opts, k⟩ e) ∧
        ∀ e, Algos pw powf d st writes load x r T ⟨fs', opts, k⟩ e → ∃ opts' k', e = some ⟨fs', opts', k'⟩ ∧
          opts'.map (·.1) = opts.map (·.1) ∧ Advance powf d mo (qs.map exOf) (tpts.map exOf) r T k k' ∧
          Coherent pw t pts x.train fs' ∧ fs' x.test.dataPath = some tf ∧
          (∀ a ∈ T, ∃ o, opts'.lookup a = some o ∧ SettingsOf st x fs' a o (P a)) ∧
          ∀ a ∈ T, ∃ rows logs, k'.res.lookup a = some rows ∧ k'.logs.lookup a = some logs ∧ rows.length = n ∧ logs.length = n := by
      intro choice
      obtain ⟨f, l0, f1, f2, f3, qs, f4, f5⟩ := shuffle_forced hpw haside hco hty hs choice
      have hord : InSomeOrder fmt pts (qs.map exOf) := ⟨l0, qs, f3, f5, rfl⟩
      have hopts' : ∀ a ∈ T, ∃ o, opts.lookup a = some o ∧ SettingsOf st x (fs.after [(x.train.shufflePath x.train.dtype, f)]) a o (P a) := by
        intro a haT
        obtain ⟨o, h1, h2⟩ := hopts a haT
        exact ⟨o, h1, settings_same h2 (hother f _ (hcv a haT))⟩
      obtain ⟨g1, g2⟩ := algos_ok (pw := pw) (powf := powf) (d := d) (writes := writes) (load := load) (r := r) (hself f) (by rw [hty]; exact f4) hord
        (by rw [hother f _ htest]; exact htf) htr ha T hT opts k hopts' (fun a haT => by
          obtain ⟨rows, logs, h1, h2, h3, h4⟩ := hk a haT
          have := hlt r List.mem_cons_self
          exact ⟨rows, logs, h1, h2, by omega, by omega⟩)
      refine ⟨_, qs, f1, hord, g1, fun e he => ?_⟩
      obtain ⟨opts', k', rfl, g3, g4, g5⟩ := g2 e he
      refine ⟨opts', k', rfl, g3, g5, f2, by rw [hother f _ htest]; exact htf, fun a haT => ?_, fun a haT => ?_⟩
      · obtain ⟨o, h1, h2⟩ := hopts' a haT
        obtain ⟨o', h3, h4⟩ := g4 a o h1
        exact ⟨o', h3, h4 h2 (runnable_nodup (hT a haT))⟩
      · obtain ⟨rows, logs, h1, h2, h3, h4⟩ := hk a haT
        obtain ⟨rows1, logs1, rows', logs', q1, q2, q3, q4, q5, q6, -⟩ := (g5 a).2 haT
        rw [h1] at q1
        rw [h2] at q2
        cases q1
        cases q2
        exact ⟨rows', logs', q3, q4, by omega, by omega⟩
    constructor
    · obtain ⟨fs', qs, h1, -, ⟨e, he⟩, h3⟩ := hround id
      obtain ⟨opts', k', rfl, -, -, h4, h5, h6, h7⟩ := h3 e he
      obtain ⟨⟨e', he'⟩, -⟩ := ih fs' opts' k' h4 h5 h6 h7 hnd.2 fun r hr => hlt r (List.mem_cons_of_mem _ hr)
      exact ⟨e', .cons h1 he he'⟩
    · intro e he
      cases he with
      | @unshuffled _ _ _ choice h =>
        obtain ⟨fs', qs, h1, -⟩ := hround choice
        exact absurd h1 (h _ _)
      | @stops _ _ _ choice path fs' h h' =>
        obtain ⟨fs'', qs, h1, -, -, h3⟩ := hround choice
        have h : x.train.randPath pw writes none true choice fs = _ := h
        rw [h1] at h
        cases h
        obtain ⟨_, _, h4, -⟩ := h3 _ h'
        cases h4
      | @cons _ _ _ s' choice path fs' _ h h' ht =>
        obtain ⟨fs'', qs, h1, hord, -, h3⟩ := hround choice
        have h : x.train.randPath pw writes none true choice fs = _ := h
        rw [h1] at h
        cases h
        obtain ⟨opts', k', h4, g1, g2, h5, h6, h7, h8⟩ := h3 _ h'
        cases h4
        obtain ⟨fs₂, opts₂, k₂, orders, rfl, g3, g4, g5⟩ := (ih fs' opts' k' h5 h6 h7 h8 hnd.2 fun r hr => hlt r (List.mem_cons_of_mem _ hr)).2 e ht
        refine ⟨fs₂, opts₂, k₂, fun i => if i = r then qs.map exOf else orders i, rfl, g3.trans g1, ?_, fun a => ⟨fun haT => ?_, fun haT => ?_⟩⟩
        · intro i hi
          dsimp only
          split_ifs with e
          · exact hord
          · exact g4 i ((List.mem_cons.1 hi).resolve_left e)
        · rw [((g5 a).1 haT).1, ((g5 a).1 haT).2]
          exact (g2 a).1 haT
        · obtain ⟨rows, logs, rows1, logs1, q1, q2, q3, q4, q5, q6, q7, row, log, q8, q9, q10⟩ := (g2 a).2 haT
          obtain ⟨rows1', logs1', rows2, logs2, p1, p2, p3, p4, p5, p6, p7, p8⟩ := (g5 a).2 haT
          rw [q3] at p1
          rw [q4] at p2
          cases p1
          cases p2
          refine ⟨rows, logs, rows2, logs2, q1, q2, p3, p4, p5, p6, fun i hi => ?_, fun i hi => ?_⟩
          · simp only [List.mem_cons, not_or] at hi
            rw [(p7 i hi.2).1, (p7 i hi.2).2]
            exact q7 i hi.1
          · by_cases e : i = r
            · subst e
              refine ⟨row, log, ?_, ?_, ?_⟩
              · rw [(p7 i hnd.1).1]; exact q8
              · rw [(p7 i hnd.1).2]; exact q9
              · dsimp only
                rw [if_pos rfl]
                exact q10
            · obtain ⟨row', log', u1, u2, u3⟩ := p8 i ((List.mem_cons.1 hi).resolve_left e)
              refine ⟨row', log', u1, u2, ?_⟩
              dsimp only
              rw [if_neg e]
              exact u3

end

end Sol.Experiment

namespace Sol.Experiment
open Sol.Spec

variable {V : Type}

/-- The algorithms that are asked for. -/
theorem asked_iff {opts : Table (Opt V)} (hlow : ∀ p ∈ opts, lower p.1 = p.1) {again : Option (List (List Char))} {a : List Char} (ha : lower a = a) :
    a ∈ asked opts again ↔ ∃ l, again = some l ∧ ((∃ w, l = [w] ∧ SameWord w "all".toList ∧ a ∈ opts.map (·.1)) ∨
      ∃ w ∈ l, SameWord w a ∧ ¬ (l = [w] ∧ SameWord w "all".toList)) := by
  have hsame : ∀ w, SameWord w a ↔ lower w = a := fun w => by
    unfold SameWord
    rw [show a.map Char.toLower = a from ha]
    rfl
  have hall : ∀ w, SameWord w "all".toList ↔ lower w = "all".toList := fun w => by
    unfold SameWord
    rw [show ("all".toList).map Char.toLower = "all".toList from by decide]
    rfl
  have hkeys : (opts.map fun p => lower p.1) = opts.map (·.1) := List.map_congr_left fun p hp => hlow p hp
  match again with
  | none => simp [asked]
  | some [] => simp [asked]
  | some [w] =>
    show a ∈ (if lower w = "all".toList then opts.map fun p => lower p.1 else [lower w]) ↔ _
    by_cases h : lower w = "all".toList
    · rw [if_pos h, hkeys]
      constructor
      · intro h1
        exact ⟨_, rfl, .inl ⟨w, rfl, (hall w).2 h, h1⟩⟩
      · rintro ⟨l, e, ⟨w', -, -, h1⟩ | ⟨w', h1, h2, h3⟩⟩
        · exact h1
        · cases e
          obtain rfl := List.mem_singleton.1 h1
          exact absurd ⟨rfl, (hall _).2 h⟩ h3
    · rw [if_neg h, List.mem_singleton]
      constructor
      · intro h1
        exact ⟨_, rfl, .inr ⟨w, List.mem_singleton.2 rfl, (hsame w).2 h1.symm, fun h2 => h ((hall w).1 h2.2)⟩⟩
      · rintro ⟨l, e, ⟨w', e', h1, -⟩ | ⟨w', h1, h2, h3⟩⟩
        · cases e
          cases e'
          exact absurd ((hall _).1 h1) h
        · cases e
          obtain rfl := List.mem_singleton.1 h1
          exact ((hsame _).1 h2).symm
  | some (w1 :: w2 :: l) =>
    show a ∈ (w1 :: w2 :: l).map lower ↔ _
    constructor
    · intro h1
      obtain ⟨w, h1, h2⟩ := List.mem_map.1 h1
      exact ⟨_, rfl, .inr ⟨w, h1, (hsame w).2 h2, fun h3 => by simp at h3⟩⟩
    · rintro ⟨l', e, ⟨w', e', -⟩ | ⟨w', h1, h2, -⟩⟩
      · cases e
        simp at e'
      · cases e
        exact List.mem_map.2 ⟨w', h1, (hsame w').1 h2⟩

theorem any_keys {α : Type} {t : Table α} {a : List Char} : t.any (·.1 = a) = true ↔ a ∈ t.map (·.1) := by
  simp [List.any_eq_true]

/-- The loop that looks for algorithms without results. -/
theorem plan_spec (n : Nat) (l : Table (Opt V)) (hnd : (l.map (·.1)).Nodup) (hlow : ∀ p ∈ l, lower p.1 = p.1) :
    ∀ (todo : List (List Char)) (k : Kept),
      (∀ a, a ∈ (plan n l todo k).1 ↔ a ∈ todo ∨ (a ∈ l.map (·.1) ∧ a ∉ k.res.map (·.1))) ∧
      ∀ a, ((a ∈ l.map (·.1) ∧ (a ∉ k.res.map (·.1) ∨ a ∈ todo)) → (plan n l todo k).2.res.lookup a = some (List.replicate n ⟨0, 0, 0, 0⟩) ∧
          (plan n l todo k).2.logs.lookup a = some (List.replicate n none)) ∧
        (¬ (a ∈ l.map (·.1) ∧ (a ∉ k.res.map (·.1) ∨ a ∈ todo)) → (plan n l todo k).2.res.lookup a = k.res.lookup a ∧
          (plan n l todo k).2.logs.lookup a = k.logs.lookup a) := by
  induction l with
  | nil =>
    intro todo k
    simp [plan]
  | cons p l ih =>
    intro todo k
    obtain ⟨b, o⟩ := p
    have hb : lower b = b := hlow _ List.mem_cons_self
    rw [List.map_cons, List.nodup_cons] at hnd
    have ih := ih hnd.2 fun p hp => hlow p (List.mem_cons_of_mem _ hp)
    unfold plan
    rw [hb]
    by_cases hc : k.res.any (·.1 = b) = true ∧ b ∉ todo
    · rw [if_pos hc]
      rw [any_keys] at hc
      obtain ⟨i1, i2⟩ := ih todo k
      refine ⟨fun a => ?_, fun a => ?_⟩
      · rw [i1, List.map_cons, List.mem_cons]
        constructor
        · rintro (h | ⟨h1, h2⟩)
          · exact .inl h
          · exact .inr ⟨.inr h1, h2⟩
        · rintro (h | ⟨rfl | h1, h2⟩)
          · exact .inl h
          · exact absurd hc.1 h2
          · exact .inr ⟨h1, h2⟩
      · have hiff : (a ∈ (((b, o) :: l : Table (Opt V)).map (·.1)) ∧ (a ∉ k.res.map (·.1) ∨ a ∈ todo)) ↔
            (a ∈ l.map (·.1) ∧ (a ∉ k.res.map (·.1) ∨ a ∈ todo)) := by
          rw [List.map_cons, List.mem_cons]
          constructor
          · rintro ⟨rfl | h1, h2⟩
            · rcases h2 with h2 | h2
              · exact absurd hc.1 h2
              · exact absurd h2 hc.2
            · exact ⟨h1, h2⟩
          · rintro ⟨h1, h2⟩
            exact ⟨.inr h1, h2⟩
        rw [hiff]
        exact i2 a
    · rw [if_neg hc]
      rw [any_keys] at hc
      have hc' : b ∉ k.res.map (·.1) ∨ b ∈ todo := by
        by_contra h
        rw [not_or, not_not] at h
        exact hc h
      obtain ⟨i1, i2⟩ := ih (if b ∈ todo then todo else todo ++ [b]) ⟨put k.res b (List.replicate n ⟨0, 0, 0, 0⟩), put k.logs b (List.replicate n none)⟩
      have htodo : ∀ a, a ∈ (if b ∈ todo then todo else todo ++ [b]) ↔ a = b ∨ a ∈ todo := by
        intro a
        split_ifs with h
        · constructor
          · exact .inr
          · rintro (rfl | h1)
            · exact h
            · exact h1
        · rw [List.mem_append, List.mem_singleton, or_comm]
      refine ⟨fun a => ?_, fun a => ?_⟩
      · rw [i1, htodo, mem_put_keys, List.map_cons, List.mem_cons]
        constructor
        · rintro ((rfl | h) | ⟨h1, h2⟩)
          · rcases hc' with h | h
            · exact .inr ⟨.inl rfl, h⟩
            · exact .inl h
          · exact .inl h
          · rw [not_or] at h2
            exact .inr ⟨.inr h1, h2.2⟩
        · rintro (h | ⟨rfl | h1, h2⟩)
          · exact .inl (.inr h)
          · exact .inl (.inl rfl)
          · by_cases e : a = b
            · exact .inl (.inl e)
            · exact .inr ⟨h1, not_or.2 ⟨e, h2⟩⟩
      · by_cases e : a = b
        · subst e
          have hnot : ¬ (a ∈ l.map (·.1) ∧ (a ∉ (put k.res a (List.replicate n (⟨0, 0, 0, 0⟩ : Row))).map (·.1) ∨
              a ∈ (if a ∈ todo then todo else todo ++ [a]))) := fun h => hnd.1 h.1
          obtain ⟨j1, j2⟩ := (i2 a).2 hnot
          refine ⟨fun _ => ?_, fun h => absurd ⟨by rw [List.map_cons]; exact List.mem_cons_self, hc'⟩ h⟩
          rw [j1, j2]
          dsimp only
          rw [lookup_put, lookup_put, if_pos rfl, if_pos rfl]
          exact ⟨rfl, rfl⟩
        · have hiff : (a ∈ l.map (·.1) ∧ (a ∉ (put k.res b (List.replicate n (⟨0, 0, 0, 0⟩ : Row))).map (·.1) ∨
              a ∈ (if b ∈ todo then todo else todo ++ [b]))) ↔
              (a ∈ (((b, o) :: l : Table (Opt V)).map (·.1)) ∧ (a ∉ k.res.map (·.1) ∨ a ∈ todo)) := by
            rw [htodo, mem_put_keys, List.map_cons, List.mem_cons]
            simp [e]
          have h2 := i2 a
          dsimp only at h2
          rw [hiff, lookup_put, lookup_put, if_neg e, if_neg e] at h2
          exact h2

end Sol.Experiment

namespace Sol.Experiment
open Sol.Spec

/-! ### The table and the curves -/

theorem add_same {a b : List ℚ} (h : a.length = b.length) : add a b = some (List.zipWith (· + ·) a b) := if_pos h

/-- Adding columns of equal length. -/
theorem total_ok (col : Train.Report F32 → ℚ) (w : Nat) (post : List Log) : ∀ (pre : List Log) (acc : List ℚ), (∀ l ∈ post, l.length = w) → acc.length = w →
    ∃ s, total ((pre ++ post).map some) col (List.range' pre.length post.length) acc = some s ∧ s.length = w ∧
      ∀ (i : Nat) x, acc[i]? = some x → ∃ reps : List (Train.Report F32), List.Forall₂ (fun (l : Log) r => l[i]? = some r) post reps ∧
        s[i]? = some (x + (reps.map col).sum) := by
  induction post with
  | nil =>
    intro pre acc _ hw
    exact ⟨acc, rfl, hw, fun i x hx => ⟨[], .nil, by simpa using hx⟩⟩
  | cons l post ih =>
    intro pre acc hl hw
    have hl0 : l.length = w := hl l List.mem_cons_self
    have hlen : acc.length = (l.map col).length := by rw [List.length_map, hl0, hw]
    obtain ⟨s, h1, h2, h3⟩ := ih (pre ++ [l]) (List.zipWith (· + ·) acc (l.map col)) (fun l' h => hl l' (List.mem_cons_of_mem _ h))
      (by rw [List.length_zipWith, ← hlen, hw, min_self])
    have hget : ((pre ++ l :: post).map some)[pre.length]? = some (some l) := by simp
    refine ⟨s, ?_, h2, fun i x hx => ?_⟩
    · rw [List.length_cons, List.range'_succ, total, hget]
      show (do let acc ← add acc (l.map col); total _ col _ acc) = _
      rw [add_same hlen]
      rw [List.append_assoc, List.singleton_append, List.length_append, List.length_singleton] at h1
      exact h1
    · have hi : i < l.length := by
        have := (List.getElem?_eq_some_iff.1 hx).1
        omega
      obtain ⟨reps, q1, q2⟩ := h3 i (x + col l[i]) (by
        rw [List.getElem?_zipWith, hx, List.getElem?_map, List.getElem?_eq_getElem hi]
        rfl)
      refine ⟨l[i] :: reps, .cons (List.getElem?_eq_getElem hi) q1, ?_⟩
      rw [q2, List.map_cons, List.sum_cons, add_assoc]

/-- The curve of logs with the same numbers. -/
theorem curve_ok {ls : List Log} {ns : List Nat} (h0 : ls ≠ []) (hn : ∀ l ∈ ls, l.map (·.data) = ns) :
    ∃ c, curve ls.length (ls.map some) = some c ∧ c.data = ns ∧ Shown ls c := by
  obtain ⟨l0, rest, rfl⟩ := List.exists_cons_of_ne_nil h0
  have hlen : ∀ l ∈ l0 :: rest, l.length = l0.length := fun l hl => by
    have h1 := congrArg List.length (hn l hl)
    have h2 := congrArg List.length (hn l0 List.mem_cons_self)
    simp only [List.length_map] at h1 h2
    omega
  obtain ⟨su, u1, u2, u3⟩ := total_ok (fun r => (r.upd : ℚ)) l0.length (l0 :: rest) [] (List.replicate l0.length 0) hlen (by simp)
  obtain ⟨se, e1, e2, e3⟩ := total_ok (fun r => number r.rate) l0.length (l0 :: rest) [] (List.replicate l0.length 0) hlen (by simp)
  rw [List.nil_append, List.length_nil, ← List.range_eq_range'] at u1 e1
  refine ⟨⟨l0.map (·.data), su.map (· / (l0 :: rest).length), se.map (· / (l0 :: rest).length)⟩, ?_, hn l0 List.mem_cons_self, ?_, ?_, ?_⟩
  · show ((total ((l0 :: rest).map some) (fun r => (r.upd : ℚ)) (List.range (l0 :: rest).length) (List.replicate l0.length 0)).bind fun u =>
      (total ((l0 :: rest).map some) (fun r => number r.rate) (List.range (l0 :: rest).length) (List.replicate l0.length 0)).bind fun e => some _) = _
    rw [u1, e1]
    rfl
  · simp [u2]
  · simp [e2]
  · intro i n u e hd hu he
    dsimp only at hd hu he
    rw [List.getElem?_map] at hd hu he
    obtain ⟨r0, hr0, -⟩ := Option.map_eq_some_iff.1 hd
    have hi : i < l0.length := (List.getElem?_eq_some_iff.1 hr0).1
    have hz : (List.replicate l0.length (0 : ℚ))[i]? = some 0 := by simp [hi]
    obtain ⟨reps, p1, p2⟩ := u3 i 0 hz
    obtain ⟨reps', p1', p2'⟩ := e3 i 0 hz
    have hsame : reps' = reps := by
      refine List.Forall₂.rec (motive := fun ls reps _ => ∀ reps', List.Forall₂ (fun (l : Log) r => l[i]? = some r) ls reps' → reps' = reps) ?_ ?_ p1 reps' p1'
      · rintro _ ⟨⟩
        rfl
      · rintro l r ls reps hlr - ih _ (_ | ⟨h1, h2⟩)
        rw [hlr] at h1
        cases h1
        rw [ih _ h2]
    subst hsame
    rw [p2] at hu
    rw [p2'] at he
    refine ⟨reps', ?_, ?_, ?_⟩
    · have hnum : ∀ l ∈ l0 :: rest, ∀ r, l[i]? = some r → r.data = n := by
        intro l hl r hr
        have h1 : (l.map (·.data))[i]? = some n := by rw [hn l hl, ← hn l0 List.mem_cons_self, List.getElem?_map]; exact hd
        rw [List.getElem?_map, hr] at h1
        exact Option.some.inj h1
      clear p2 p2' hu he u3 e3 p1' u1 e1
      revert hnum
      generalize l0 :: rest = ls at p1
      intro hnum
      clear hlen hn h0
      induction p1 with
      | nil => exact .nil
      | cons h1 _ ih => exact .cons ⟨h1, hnum _ List.mem_cons_self _ h1⟩ (ih fun l hl => hnum l (List.mem_cons_of_mem _ hl))
    · have := Option.some.inj hu
      rw [← this, zero_add, p1.length_eq]
    · have := Option.some.inj he
      rw [← this, zero_add, p1.length_eq]
      rfl

theorem mapM_ok {α β γ : Type} {f : α → Option β} {k : α → γ} {k' : β → γ} {Q : α → β → Prop} (l : List α)
    (h : ∀ a ∈ l, ∃ b, f a = some b ∧ k' b = k a ∧ Q a b) :
    ∃ t, l.mapM f = some t ∧ t.map k' = l.map k ∧ List.Forall₂ Q l t := by
  induction l with
  | nil => exact ⟨[], rfl, rfl, .nil⟩
  | cons a l ih =>
    obtain ⟨b, h1, h2, h3⟩ := h a List.mem_cons_self
    obtain ⟨t, g1, g2, g3⟩ := ih fun a' ha => h a' (List.mem_cons_of_mem _ ha)
    exact ⟨b :: t, by rw [List.mapM_cons, h1, g1]; rfl, by rw [List.map_cons, List.map_cons, h2, g2], .cons h3 g3⟩

/-- All logs are there. -/
theorem all_logs {logs : List (Option Log)} (h : ∀ r < logs.length, ∃ log, logs[r]? = some (some log)) : ∃ ls : List Log, logs = ls.map some := by
  induction logs with
  | nil => exact ⟨[], rfl⟩
  | cons o logs ih =>
    obtain ⟨l, hl⟩ := h 0 (by simp)
    obtain ⟨ls, rfl⟩ := ih fun r hr => by simpa using h (r + 1) (by simpa using hr)
    rw [List.getElem?_cons_zero] at hl
    exact ⟨l :: ls, by rw [Option.some.inj hl]; rfl⟩

end Sol.Experiment
