import Verif.Proofs.Experiment
import Verif.Props.PyMain
/-! C93: the experiments with several algorithms (experiments/experiment.py). -/

namespace Sol.Props
open Sol.Params Sol.Online Sol.Loss Sol.Whole Sol.PySol Sol.PyCv Sol.Observe Sol.Experiment Sol.Spec
open Sol.SolTrain (Style)
open Sol.DataSet (Files DataSet)

section
variable [FFun F32] {V : Type} [PyVal V] {pw : Int → F32} {powf : F32 → F32 → F32} {d : Train.Disp} {st : Style V} {writes : List Char → Bool}
  {load : List Char → Loaded} {fmt : DataFile.Format} {x : Setup} {t : F32} {pts tpts : List DataFile.Point} {P : List Char → Cv.Dict V}
  {mo : List Char → M} {tf : DataFile.File} {opts : Table (Opt V)} {again : Option (List (List Char))} {before : Option Kept} {fs : Files}

/-- What is known of an experiment: the data sets are there and usable, the algorithms have different names in lower-case letters, what is
    asked for is among them, and those that are to be run have their settings and can be trained. -/
structure Feasible (pw : Int → F32) (st : Style V) (writes : List Char → Bool) (fmt : DataFile.Format) (x : Setup) (t : F32)
    (pts tpts : List DataFile.Point) (P : List Char → Cv.Dict V) (mo : List Char → M) (tf : DataFile.File) (opts : Table (Opt V))
    (again : Option (List (List Char))) (before : Option Kept) (fs : Files) : Prop where
  pow : Powf pw
  aside : Aside writes x.train
  coherent : Coherent pw t pts x.train fs
  type : x.train.dtype = typeName fmt
  suits : Suits fmt pts
  test : fs x.test.dataPath = some tf
  reads : ReadsAs pw x.test.dtype tf tpts .endOfFile
  apart : x.test.dataPath ≠ x.train.shufflePath x.train.dtype
  ascending : ∀ e ∈ tpts.map exOf, Sparse.Ascending e.x
  names : (opts.map (·.1)).Nodup
  lower : ∀ p ∈ opts, p.1.map Char.toLower = p.1
  known : ∀ l, again = some l → ∀ w ∈ l, (l = [w] ∧ SameWord w "all".toList) ∨ ∃ p ∈ opts, SameWord w p.1
  settings : ∀ p ∈ opts, ToRun opts again before p.1 → SettingsOf st x fs p.1 p.2 (P p.1) ∧ Runnable fmt x pts P mo p.1 ∧
    x.cvPath p.1 ≠ x.train.shufflePath x.train.dtype

theorem lookup_of_mem {α : Type} {l : Table α} (hn : (l.map (·.1)).Nodup) {a : List Char} {v : α} (h : (a, v) ∈ l) : l.lookup a = some v := by
  induction l with
  | nil => simp at h
  | cons p l ih =>
    obtain ⟨b, w⟩ := p
    rw [List.map_cons, List.nodup_cons] at hn
    rw [lookup_cons_ite]
    rcases List.mem_cons.1 h with e | h
    · cases e
      rw [if_pos rfl]
    · have hm : a ∈ l.map (·.1) := List.mem_map.2 ⟨_, h, rfl⟩
      rw [if_neg, ih hn.2 h]
      rintro rfl
      exact hn.1 hm

/-- What the plan runs. -/
theorem todo_iff (hf : Feasible pw st writes fmt x t pts tpts P mo tf opts again before fs) (n : Nat) (a : List Char) :
    a ∈ (plan n opts (asked opts again) (before.getD ⟨[], []⟩)).1 ↔ a ∈ opts.map (·.1) ∧ ToRun opts again before a := by
  rw [(plan_spec n opts hf.names (fun p hp => hf.lower p hp) _ _).1]
  have hres : a ∉ (before.getD ⟨[], []⟩).res.map (·.1) ↔ ∀ k, before = some k → a ∉ k.res.map (·.1) := by
    cases before with
    | none => simp
    | some k => simp
  have hlow : a ∈ opts.map (·.1) → lower a = a := by
    rintro h
    obtain ⟨p, hp, rfl⟩ := List.mem_map.1 h
    exact hf.lower p hp
  have hkey : a ∈ asked opts again → a ∈ opts.map (·.1) := by
    intro h
    match again, hf.known with
    | none, _ => simp [asked] at h
    | some [], _ => simp [asked] at h
    | some [w], hk =>
      have h : a ∈ (if lower w = "all".toList then opts.map fun p => lower p.1 else [lower w]) := h
      split_ifs at h with hw
      · obtain ⟨p, hp, rfl⟩ := List.mem_map.1 h
        exact List.mem_map.2 ⟨p, hp, (hf.lower p hp).symm⟩
      · obtain rfl := List.mem_singleton.1 h
        rcases hk _ rfl w (by simp) with h1 | ⟨p, hp, h1⟩
        · exact absurd (by simpa [SameWord, lower] using h1.2) hw
        · exact List.mem_map.2 ⟨p, hp, (hf.lower p hp).symm.trans h1.symm⟩
    | some (w1 :: w2 :: l), hk =>
      have h : a ∈ (w1 :: w2 :: l).map lower := h
      obtain ⟨w, hw, rfl⟩ := List.mem_map.1 h
      rcases hk _ rfl w hw with h1 | ⟨p, hp, h1⟩
      · simp at h1
      · exact List.mem_map.2 ⟨p, hp, (hf.lower p hp).symm.trans h1.symm⟩
  unfold ToRun
  rw [hres]
  constructor
  · rintro (h | h)
    · exact ⟨hkey h, .inr ((asked_iff (fun p hp => hf.lower p hp) (hlow (hkey h))).1 h)⟩
    · exact ⟨h.1, .inl h.2⟩
  · rintro ⟨h1, h2 | h2⟩
    · exact .inr ⟨h1, h2⟩
    · exact .inl ((asked_iff (fun p hp => hf.lower p hp) (hlow h1)).2 h2)

theorem runs_core (hf : Feasible pw st writes fmt x t pts tpts P mo tf opts again before fs) (repeats : Nat) :
    (∃ e, ExpOl pw powf d st writes load x opts repeats again before fs e) ∧
    ∀ e, ExpOl pw powf d st writes load x opts repeats again before fs e → ∃ (k : Kept) (table : Table (ℚ × ℚ)) (orders : Nat → List (Ex F32))
      (opts' : Table (Opt V)), e = .ends k (some table) (curves repeats opts' k) ∧ opts'.map (·.1) = opts.map (·.1) ∧
      (∀ r < repeats, InSomeOrder fmt pts (orders r)) ∧
      (∀ p ∈ opts, ToRun opts again before p.1 → RanAll powf d (mo p.1) orders (tpts.map exOf) repeats k p.1) ∧
      (∀ p ∈ opts, ¬ ToRun opts again before p.1 → ∃ k₀, before = some k₀ ∧ k.res.lookup p.1 = k₀.res.lookup p.1 ∧ k.logs.lookup p.1 = k₀.logs.lookup p.1) ∧
      table.map (·.1) = opts.map (·.1) ∧
      ∀ p ∈ table, ∃ rows, k.res.lookup p.1 = some rows ∧ p.2 = ((rows.map (·.test)).sum / rows.length, (rows.map (·.train)).sum / rows.length) := by
  have hplan := plan_spec repeats opts hf.names (fun p hp => hf.lower p hp) (asked opts again) (before.getD ⟨[], []⟩)
  have htodo := todo_iff hf repeats
  have hmem : ∀ a, a ∈ (plan repeats opts (asked opts again) (before.getD ⟨[], []⟩)).1 → ∃ o, (a, o) ∈ opts ∧ ToRun opts again before a := by
    intro a ha
    obtain ⟨h1, h2⟩ := (htodo a).1 ha
    obtain ⟨p, hp, rfl⟩ := List.mem_map.1 h1
    exact ⟨p.2, hp, h2⟩
  have hcond : ∀ a, (a ∈ opts.map (·.1) ∧ (a ∉ (before.getD ⟨[], []⟩).res.map (·.1) ∨ a ∈ asked opts again)) ↔
      a ∈ (plan repeats opts (asked opts again) (before.getD ⟨[], []⟩)).1 := by
    intro a
    have h0 := (htodo a)
    rw [hplan.1]
    have : a ∈ asked opts again → a ∈ opts.map (·.1) := fun h => (h0.1 ((hplan.1 a).2 (.inl h))).1
    tauto
  obtain ⟨h1, h2⟩ := repeats_ok (pw := pw) (powf := powf) (d := d) (st := st) (writes := writes) (load := load) hf.pow hf.aside hf.type hf.suits hf.reads
    hf.apart hf.ascending (plan repeats opts (asked opts again) (before.getD ⟨[], []⟩)).1
    (fun a ha => by obtain ⟨o, h1, h2⟩ := hmem a ha; exact (hf.settings _ h1 h2).2.1)
    (fun a ha => by obtain ⟨o, h1, h2⟩ := hmem a ha; exact (hf.settings _ h1 h2).2.2) repeats (List.range repeats) fs opts
    (plan repeats opts (asked opts again) (before.getD ⟨[], []⟩)).2 hf.coherent hf.test
    (fun a ha => by obtain ⟨o, h1, h2⟩ := hmem a ha; exact ⟨o, lookup_of_mem hf.names h1, (hf.settings _ h1 h2).1⟩)
    (fun a ha => by
      obtain ⟨g1, g2⟩ := (hplan.2 a).1 ((hcond a).2 ha)
      exact ⟨_, _, g1, g2, by simp, by simp⟩) List.nodup_range (fun r hr => List.mem_range.1 hr)
  constructor
  · obtain ⟨e, he⟩ := h1
    cases e with
    | none => exact ⟨_, .dies he⟩
    | some s => exact ⟨_, .ends he⟩
  · intro e he
    have hs : ∃ s, Repeats pw powf d st writes load x (plan repeats opts (asked opts again) (before.getD ⟨[], []⟩)).1 (List.range repeats)
        ⟨fs, opts, (plan repeats opts (asked opts again) (before.getD ⟨[], []⟩)).2⟩ (some s) ∧
        e = .ends s.kept (averages s.opts s.kept) (curves repeats s.opts s.kept) := by
      cases he with
      | dies h =>
        obtain ⟨_, _, _, _, h3, -⟩ := h2 _ h
        cases h3
      | ends h => exact ⟨_, h, rfl⟩
    obtain ⟨s, hs, rfl⟩ := hs
    obtain ⟨fs', opts', k', orders, h3, h4, h5, h6⟩ := h2 _ hs
    obtain rfl := Option.some.inj h3
    have hran : ∀ p ∈ opts, ToRun opts again before p.1 → RanAll powf d (mo p.1) orders (tpts.map exOf) repeats k' p.1 := by
      intro p hp hr
      obtain ⟨_, _, rows, logs, -, -, q3, q4, q5, q6, -, q8⟩ := (h6 p.1).2 ((htodo _).2 ⟨List.mem_map.2 ⟨p, hp, rfl⟩, hr⟩)
      exact ⟨rows, logs, q3, q4, q5, q6, fun r hr => q8 r (List.mem_range.2 hr)⟩
    have hold : ∀ p ∈ opts, ¬ ToRun opts again before p.1 → ∃ k₀, before = some k₀ ∧ k'.res.lookup p.1 = k₀.res.lookup p.1 ∧
        k'.logs.lookup p.1 = k₀.logs.lookup p.1 ∧ p.1 ∈ k₀.res.map (·.1) := by
      intro p hp hr
      have hnot : p.1 ∉ (plan repeats opts (asked opts again) (before.getD ⟨[], []⟩)).1 := fun h => hr ((htodo _).1 h).2
      obtain ⟨q1, q2⟩ := (h6 p.1).1 hnot
      obtain ⟨q3, q4⟩ := (hplan.2 p.1).2 (fun h => hnot ((hcond _).1 h))
      have : ∃ k₀, before = some k₀ ∧ p.1 ∈ k₀.res.map (·.1) := by
        by_contra h
        refine hr (.inl fun k hk hm => h ⟨k, hk, hm⟩)
      obtain ⟨k₀, rfl, hk⟩ := this
      exact ⟨k₀, rfl, q1.trans q3, q2.trans q4, hk⟩
    have hlow : ∀ p ∈ opts', lower p.1 = p.1 ∧ p.1 ∈ opts.map (·.1) := by
      intro p hp
      have : p.1 ∈ opts.map (·.1) := by rw [← h4]; exact List.mem_map.2 ⟨p, hp, rfl⟩
      obtain ⟨q, hq, e⟩ := List.mem_map.1 this
      exact ⟨by rw [← e]; exact hf.lower q hq, this⟩
    have hrows : ∀ a ∈ opts.map (·.1), ∃ rows, k'.res.lookup a = some rows := by
      intro a ha
      obtain ⟨p, hp, rfl⟩ := List.mem_map.1 ha
      by_cases hr : ToRun opts again before p.1
      · obtain ⟨rows, _, q, -⟩ := hran p hp hr
        exact ⟨rows, q⟩
      · obtain ⟨k₀, -, q, -, hk⟩ := hold p hp hr
        rw [q]
        exact lookup_isSome.1 hk
    obtain ⟨table, t1, t2, t3⟩ := mapM_ok (f := fun p : List Char × Opt V => (k'.res.lookup (lower p.1)).map fun rows =>
        (p.1, mean (rows.map (·.test)), mean (rows.map (·.train)))) (k := fun p => p.1) (k' := fun p => p.1)
      (Q := fun p q => q.1 = p.1 ∧ ∃ rows, k'.res.lookup q.1 = some rows ∧ q.2 = ((rows.map (·.test)).sum / rows.length, (rows.map (·.train)).sum / rows.length)) opts' (by
        intro p hp
        obtain ⟨e, hp'⟩ := hlow p hp
        obtain ⟨rows, q⟩ := hrows _ hp'
        rw [e, q]
        refine ⟨_, rfl, rfl, rfl, rows, q, ?_⟩
        unfold mean
        dsimp only
        rw [List.length_map, List.length_map])
    refine ⟨k', table, orders, opts', by unfold averages; rw [t1], h4, fun r hr => h5 r (List.mem_range.2 hr), hran, fun p hp hr => ?_, by rw [t2, h4], ?_⟩
    · obtain ⟨k₀, q1, q2, q3, -⟩ := hold p hp hr
      exact ⟨k₀, q1, q2, q3⟩
    · intro p hp
      obtain ⟨hl, hq⟩ := List.forall₂_iff_get.1 t3
      obtain ⟨i, hi, rfl⟩ := List.getElem_of_mem hp
      exact (hq i (by rw [hl]; exact hi) hi).2

/-- **C93.** The experiment ends.  There is one order of the points for each repetition, and every algorithm that has no results or is
    asked for has, for each repetition, the results of a training like that of `sol_train` on this order and of a test like that of
    `sol_test`; the results of the others are those that were kept.  The table has their averages.  Missing: algorithms whose settings are
    yet to be found by cross validation, and `liblinear` and `vw`. -/
theorem C93_runs_partial (hf : Feasible pw st writes fmt x t pts tpts P mo tf opts again before fs) (repeats : Nat) :
    (∃ e, ExpOl pw powf d st writes load x opts repeats again before fs e) ∧
    ∀ e, ExpOl pw powf d st writes load x opts repeats again before fs e → ∃ (k : Kept) (table : Table (ℚ × ℚ))
      (cs : Option (Table Curve)) (orders : Nat → List (Ex F32)),
      e = .ends k (some table) cs ∧ (∀ r < repeats, InSomeOrder fmt pts (orders r)) ∧
      (∀ p ∈ opts, ToRun opts again before p.1 → RanAll powf d (mo p.1) orders (tpts.map exOf) repeats k p.1) ∧
      (∀ p ∈ opts, ¬ ToRun opts again before p.1 → ∃ k₀, before = some k₀ ∧ k.res.lookup p.1 = k₀.res.lookup p.1 ∧ k.logs.lookup p.1 = k₀.logs.lookup p.1) ∧
      table.map (·.1) = opts.map (·.1) ∧
      ∀ p ∈ table, ∃ rows, k.res.lookup p.1 = some rows ∧ p.2 = ((rows.map (·.test)).sum / rows.length, (rows.map (·.train)).sum / rows.length) := by
  obtain ⟨h1, h2⟩ := runs_core (powf := powf) (d := d) (load := load) hf repeats
  refine ⟨h1, fun e he => ?_⟩
  obtain ⟨k, table, orders, opts', h3, -, h4⟩ := h2 e he
  exact ⟨k, table, _, orders, h3, h4⟩

/-- **C93.** If the results that are kept are of as many repetitions, and the logs of an algorithm have the same numbers, the curves of all
    algorithms are drawn, and show the averages of the logs. -/
theorem C93_curves_partial (hf : Feasible pw st writes fmt x t pts tpts P mo tf opts again before fs) (repeats : Nat) (hr : 1 ≤ repeats)
    (hd : Spec.Waits d 0)
    (hb : ∀ p ∈ opts, ¬ ToRun opts again before p.1 → ∀ k, before = some k →
      ∃ (ls : List Log) (ns : List Nat), k.logs.lookup p.1 = some (ls.map some) ∧ ls.length = repeats ∧ ∀ l ∈ ls, l.map (·.data) = ns)
    (e : Experiment.End) (he : ExpOl pw powf d st writes load x opts repeats again before fs e) :
    ∃ (k : Kept) (table : Option (Table (ℚ × ℚ))) (cs : Table Curve), e = .ends k table (some cs) ∧ cs.map (·.1) = opts.map (·.1) ∧
      (∀ p ∈ cs, ∃ ls : List Log, k.logs.lookup p.1 = some (ls.map some) ∧ ls.length = repeats ∧ Shown ls p.2) ∧
      ∀ p ∈ cs, ToRun opts again before p.1 → ReportsAt d pts.length p.2.data := by
  obtain ⟨k, table, orders, opts', rfl, h3, h4, h5, h6, -⟩ := (runs_core (powf := powf) (d := d) (load := load) hf repeats).2 e he
  have hlen : ∀ r < repeats, (orders r).length = pts.length := by
    intro r hr
    obtain ⟨l, qs, q1, q2, q3⟩ := h4 r hr
    rw [q3, List.length_map, ← q2.length_eq, q1.length_eq]
  have hlogs : ∀ p ∈ opts, ∃ (ls : List Log) (ns : List Nat), k.logs.lookup p.1 = some (ls.map some) ∧ ls.length = repeats ∧
      (∀ l ∈ ls, l.map (·.data) = ns) ∧ (ToRun opts again before p.1 → ReportsAt d pts.length ns) := by
    intro p hp
    by_cases hrun : ToRun opts again before p.1
    · obtain ⟨rows, logs, -, q2, -, q4, q5⟩ := h5 p hp hrun
      obtain ⟨ls, rfl⟩ := all_logs (logs := logs) fun r hr => by
        obtain ⟨_, log, -, q, -⟩ := q5 r (by omega)
        exact ⟨log, q⟩
      rw [List.length_map] at q4
      have hnum : ∀ l ∈ ls, ∃ es ρ, es.length = pts.length ∧ LogOf powf ρ d (mo p.1) es l := by
        intro l hl
        obtain ⟨r, hr, rfl⟩ := List.getElem_of_mem hl
        obtain ⟨_, log, -, q, ρ, _, _, _, _, -, -, -, -, -, q6⟩ := q5 r (by omega)
        rw [List.getElem?_map, List.getElem?_eq_getElem hr] at q
        have q : ls[r] = log := by simpa using q
        rw [q]
        exact ⟨_, ρ, hlen r (by omega), q6⟩
      have hls : 0 < ls.length := by omega
      refine ⟨ls, (ls[0]'hls).map (·.data), q2, q4, fun l hl => ?_, fun _ => ?_⟩
      · obtain ⟨es, ρ, g1, g2⟩ := hnum l hl
        obtain ⟨es', ρ', g1', g2'⟩ := hnum _ (List.getElem_mem hls)
        exact C92_alike hd (by rw [g1, g1']) g2 g2'
      · obtain ⟨es, ρ, g1, g2⟩ := hnum _ (List.getElem_mem hls)
        rw [← g1]
        exact C92_numbers hd g2
    · obtain ⟨k₀, rfl, -, q⟩ := h6 p hp hrun
      obtain ⟨ls, ns, g1, g2, g3⟩ := hb p hp hrun k₀ rfl
      exact ⟨ls, ns, by rw [q, g1], g2, g3, fun h => absurd h hrun⟩
  obtain ⟨cs, t1, t2, t3⟩ := mapM_ok (f := fun p : List Char × Opt V => (k.logs.lookup (lower p.1)).bind fun logs => (curve repeats logs).map fun c => (p.1, c))
    (k := fun p => p.1) (k' := fun p => p.1)
    (Q := fun p q => (∃ ls : List Log, k.logs.lookup q.1 = some (ls.map some) ∧ ls.length = repeats ∧ Shown ls q.2) ∧
      (ToRun opts again before q.1 → ReportsAt d pts.length q.2.data)) opts' (by
      intro p hp
      have hp' : p.1 ∈ opts.map (·.1) := by rw [← h3]; exact List.mem_map.2 ⟨p, hp, rfl⟩
      obtain ⟨q, hq, e⟩ := List.mem_map.1 hp'
      obtain ⟨ls, ns, g1, g2, g3, g4⟩ := hlogs q hq
      obtain ⟨c, c1, c2, c3⟩ := curve_ok (ls := ls) (ns := ns) (by rintro rfl; simp at g2; omega) g3
      rw [g2] at c1
      rw [← e]
      refine ⟨(q.1, c), ?_, rfl, ⟨ls, g1, g2, c3⟩, fun h => by rw [c2]; exact g4 h⟩
      rw [show lower q.1 = q.1 from hf.lower q hq, g1, Option.bind_some, c1]
      rfl)
  refine ⟨k, _, cs, by unfold curves; rw [t1], by rw [t2, h3], ?_⟩
  have hall : ∀ p ∈ cs, (∃ ls : List Log, k.logs.lookup p.1 = some (ls.map some) ∧ ls.length = repeats ∧ Shown ls p.2) ∧
      (ToRun opts again before p.1 → ReportsAt d pts.length p.2.data) := by
    intro p hp
    obtain ⟨hl, hq⟩ := List.forall₂_iff_get.1 t3
    obtain ⟨i, hi, rfl⟩ := List.getElem_of_mem hp
    exact hq i (by rw [hl]; exact hi) hi
  exact ⟨fun p hp => (hall p hp).1, fun p hp => (hall p hp).2⟩

end

section
variable [FFun F32] {V : Type} [PyVal V] {pw : Int → F32} {powf : F32 → F32 → F32} {d : Train.Disp} {st : Style V} {writes : List Char → Bool}
  {load : List Char → Loaded} {x : Setup}

/-- The algorithms without results are run. -/
theorem plan_mem (n : Nat) (l : Table (Opt V)) : ∀ (todo : List (List Char)) (k : Kept) (a : List Char),
    (a ∈ todo ∨ ∃ p ∈ l, lower p.1 = a ∧ a ∉ k.res.map (·.1)) → a ∈ (plan n l todo k).1 := by
  induction l with
  | nil =>
    rintro todo k a (h | ⟨p, hp, -⟩)
    · exact h
    · simp at hp
  | cons p l ih =>
    obtain ⟨b, o⟩ := p
    intro todo k a h
    unfold plan
    split_ifs with hc h1
    · rw [any_keys] at hc
      refine ih _ _ _ ?_
      rcases h with h | ⟨p, hp, rfl, h⟩
      · exact .inl h
      · rcases List.mem_cons.1 hp with rfl | hp
        · exact absurd hc.1 h
        · exact .inr ⟨p, hp, rfl, h⟩
    · refine ih _ _ _ ?_
      rcases h with h | ⟨p, hp, rfl, h⟩
      · exact .inl h
      · by_cases e : lower p.1 = lower b
        · exact .inl (by rw [e]; exact h1)
        · rcases List.mem_cons.1 hp with rfl | hp
          · exact absurd rfl e
          · exact .inr ⟨p, hp, rfl, by rw [mem_put_keys]; exact not_or.2 ⟨e, h⟩⟩
    · refine ih _ _ _ ?_
      rcases h with h | ⟨p, hp, rfl, h⟩
      · exact .inl (List.mem_append_left _ h)
      · by_cases e : lower p.1 = lower b
        · exact .inl (by rw [e]; simp)
        · rcases List.mem_cons.1 hp with rfl | hp
          · exact absurd rfl e
          · exact .inr ⟨p, hp, rfl, by rw [mem_put_keys]; exact not_or.2 ⟨e, h⟩⟩

/-- An algorithm without options ends the loop. -/
theorem algos_missing {r : Nat} {l : List (List Char)} {s : Stage V} {e : Option (Stage V)} (h : Algos pw powf d st writes load x r l s e)
    {a : List Char} (ha : a ∈ l) (hn : s.opts.lookup a = none) : e = none := by
  induction h with
  | nil => simp at ha
  | missing => rfl
  | fails => rfl
  | unrecorded => rfl
  | @cons b l s o o' fs' row log k e ho hr hk ht ih =>
    have hab : a ≠ b := by
      rintro rfl
      rw [hn] at ho
      cases ho
    exact ih ((List.mem_cons.1 ha).resolve_left hab) (by dsimp only; rw [lookup_put, if_neg hab]; exact hn)

theorem exp_missing {opts : Table (Opt V)} {repeats : Nat} (hr : 1 ≤ repeats) {again : Option (List (List Char))} {before : Option Kept} {fs : Files}
    {a : List Char} (ha : a ∈ (plan repeats opts (asked opts again) (before.getD ⟨[], []⟩)).1) (hn : opts.lookup a = none) {e : Experiment.End}
    (he : ExpOl pw powf d st writes load x opts repeats again before fs e) : e = .dies := by
  cases he with
  | dies h => rfl
  | ends h =>
    exfalso
    obtain ⟨n, rfl⟩ : ∃ n, repeats = n + 1 := ⟨repeats - 1, by omega⟩
    rw [List.range_eq_range', List.range'_succ] at h
    cases h with
    | cons h1 h2 h3 => cases algos_missing h2 ha hn

/-- With nothing to run, the files are shuffled and what was kept is shown. -/
theorem repeats_nothing {rids : List Nat} {s : Stage V} {e : Option (Stage V)} (h : Repeats pw powf d st writes load x [] rids s e) :
    ∀ s', e = some s' → s'.opts = s.opts ∧ s'.kept = s.kept := by
  induction h with
  | nil => rintro _ ⟨⟩; exact ⟨rfl, rfl⟩
  | unshuffled => rintro _ ⟨⟩
  | stops => rintro _ ⟨⟩
  | cons h ha _ ih =>
    intro s' hs'
    cases ha
    exact ih s' hs'

theorem exp_nothing {opts : Table (Opt V)} {repeats : Nat} {again : Option (List (List Char))} {before : Option Kept} {fs : Files} {k : Kept}
    (hp : plan repeats opts (asked opts again) (before.getD ⟨[], []⟩) = ([], k)) {e : Experiment.End}
    (he : ExpOl pw powf d st writes load x opts repeats again before fs e) :
    e = .dies ∨ e = .ends k (averages opts k) (curves repeats opts k) := by
  cases he with
  | dies h => exact .inl rfl
  | ends h =>
    rw [hp] at h
    obtain ⟨h1, h2⟩ := repeats_nothing h _ rfl
    rw [h1, h2]
    exact .inr rfl

end

/-- A row and a log. -/
def rowOf (q : ℚ) : Row := ⟨q, 1, q, 1⟩
def logOf (u : Nat) : Log := [⟨2, 1, u, .fin (1 / 2)⟩]

/-- **C93 is violated.** Whatever the data and the options: an algorithm that is given in capital letters, and has no results, ends the
    experiment with an exception and nothing is saved; so does a name that is asked for and is not in the options.  With results of one
    repetition that are kept, an experiment of two has no curves; with results of two, an experiment of one shows the accuracy of both
    and the curve of the first. -/
theorem C93_is_violated [FFun F32] {V : Type} [PyVal V] (pw : Int → F32) (powf : F32 → F32 → F32) (d : Train.Disp) (st : Style V)
    (writes : List Char → Bool) (load : List Char → Loaded) (x : Setup) (o : Opt V) (fs : Files) (e : Experiment.End) :
    (ExpOl pw powf d st writes load x [("OGD".toList, o)] 1 none none fs e → e = .dies) ∧
    (ExpOl pw powf d st writes load x [("ogd".toList, o)] 1 (some ["pa".toList]) none fs e → e = .dies) ∧
    (ExpOl pw powf d st writes load x [("ogd".toList, o)] 2 none (some ⟨[("ogd".toList, [rowOf 1])], [("ogd".toList, [some (logOf 0)])]⟩) fs e →
      e = .dies ∨ ∃ k table, e = .ends k table none) ∧
    (ExpOl pw powf d st writes load x [("ogd".toList, o)] 1 none
      (some ⟨[("ogd".toList, [rowOf 1, rowOf 0])], [("ogd".toList, [some (logOf 4), some (logOf 8)])]⟩) fs e →
      e = .dies ∨ ∃ k, e = .ends k (some [("ogd".toList, 1 / 2, 1 / 2)]) (some [("ogd".toList, ⟨[2], [4], [1 / 2]⟩)])) := by
  refine ⟨fun h => exp_missing (le_refl _) (a := "ogd".toList) (plan_mem _ _ _ _ _ (.inr ⟨_, List.mem_singleton.2 rfl, show lower "OGD".toList = _ from by decide, by simp⟩)) ?_ h,
    fun h => exp_missing (le_refl _) (a := "pa".toList) (plan_mem _ _ _ _ _ (.inl ?_)) ?_ h, fun h => ?_, fun h => ?_⟩
  · rfl
  · show "pa".toList ∈ (if lower "pa".toList = "all".toList then [("ogd".toList, o)].map (fun p => lower p.1) else [lower "pa".toList])
    rw [if_neg (by decide)]
    decide
  · rfl
  · rcases exp_nothing (k := ⟨[("ogd".toList, [rowOf 1])], [("ogd".toList, [some (logOf 0)])]⟩) rfl h with h | h
    · exact .inl h
    · exact .inr ⟨_, _, h⟩
  · rcases exp_nothing (k := ⟨[("ogd".toList, [rowOf 1, rowOf 0])], [("ogd".toList, [some (logOf 4), some (logOf 8)])]⟩) rfl h with h | h
    · exact .inl h
    · refine .inr ⟨⟨[("ogd".toList, [rowOf 1, rowOf 0])], [("ogd".toList, [some (logOf 4), some (logOf 8)])]⟩, ?_⟩
      rw [h]
      congr 1
      · show some [("ogd".toList, mean [1, 0], mean [1, 0])] = _
        simp [mean]
      · show some [("ogd".toList, (⟨[2], [(0 + 4) / (1 : Nat)], [(0 + 1 / 2) / (1 : Nat)]⟩ : Curve))] = _
        norm_num

/-- There is such an experiment, whatever the data. -/
theorem C93_instance_violated [FFun F32] {V : Type} [PyVal V] (pw : Int → F32) (powf : F32 → F32 → F32) (d : Train.Disp) (st : Style V)
    (writes : List Char → Bool) (load : List Char → Loaded) (x : Setup) (o : Opt V) (fs : Files) :
    ExpOl pw powf d st writes load x [("OGD".toList, o)] 1 none none fs .dies := by
  have hl : lower "OGD".toList = "ogd".toList := by decide
  have hp : (plan 1 [("OGD".toList, o)] (asked [("OGD".toList, o)] none) ((none : Option Kept).getD ⟨[], []⟩)).1 = ["ogd".toList] := by
    show (plan 1 [("OGD".toList, o)] [] ⟨[], []⟩).1 = _
    unfold plan
    rw [hl, if_neg (by simp)]
    rfl
  refine .dies ?_
  rw [hp]
  by_cases h : ∃ path fs', x.train.randPath pw writes none true id fs = .ok (.gives path fs')
  · obtain ⟨path, fs', h⟩ := h
    exact .stops h (.missing rfl)
  · exact .unshuffled (choice := id) fun path fs' h' => h ⟨path, fs', h'⟩

/-! ### Instances -/

/-- The settings and the models of two algorithms. -/
def twoOptions : Table (Opt (List Char)) :=
  [("ogd".toList, ⟨none, none⟩), ("fobos-l1".toList, ⟨some [("eta", "2".toList)], some lambdas⟩)]
def twoSettings (a : List Char) : Cv.Dict (List Char) := if a = "ogd".toList then [] else [("eta", "2".toList), ("lambda", "0".toList)]
def twoModels (a : List Char) : M := if a = "ogd".toList then fresh .ogd 2 else { lasso 0 with eta := .fin 2 }
/-- A data set, with the results of an earlier cross validation beside it. -/
def smallSetup : Setup :=
  let ds : DataSet := { DataSet.unread ['x'] "d/x.bin".toList "bin".toList with classNum := 2 }
  ⟨ds, 1, ds, 2, 1⟩

/-- The hypotheses of C93 are met, whatever results are kept. -/
theorem C93_hypotheses : letI : FFun F32 := unusedFun
    ∃ (fs : Files) (tf : DataFile.File), ∀ before, Feasible bestPow pyStyle (fun _ => true) .bin smallSetup (.fin 1) twoPoints twoPoints twoSettings twoModels tf
      twoOptions (some ["FOBOS-L1".toList]) before fs := by
  letI : FFun F32 := unusedFun
  have hpw : Powf bestPow := fun k => ⟨10 ^ k, by rw [sub_self, abs_zero]; positivity, rfl⟩
  obtain ⟨file, _, hr⟩ := C73_binary bestPow none twoPoints (twoPoints_suits .bin)
  obtain ⟨_, _, -, haside, -⟩ := C84_hypotheses
  have hgood : ∀ p ∈ twoPoints, Good (exOf p).x := by
    unfold Good Sparse.Ascending
    decide
  have hcv : ∀ s, "./cache/x/cv-fobos-l1.txt".toList ≠ DataSet.join (DataSet.unread ['x'] "d/x.bin".toList "bin".toList).workDir
      ((DataSet.unread ['x'] "d/x.bin".toList "bin".toList).dataName ++ s) := by
    intro s e
    rw [← DataSet.join_append (by decide)] at e
    have e := congrArg (List.take 11) e
    rw [List.take_append_of_le_length (by decide)] at e
    exact absurd e (by decide)
  let fs : Files := fun p => if p = "d/x.bin".toList then some file else if p = "./cache/x/cv-fobos-l1.txt".toList then
    some (DataFile.ofChars "Best Result: {'lambda': '0'}:\t1.0000\t1.0000\n".toList) else none
  have hload : SolTrain.loadResults pyStyle (DataFile.chars (DataFile.ofChars "Best Result: {'lambda': '0'}:\t1.0000\t1.0000\n".toList)) =
      some [("lambda", "0".toList)] := by decide +kernel
  have htr : ∀ c, c = "ogd".toList ∨ c = "fobos-l1".toList → ∀ es, InSomeOrder .bin twoPoints es → Trainable (twoModels c) es := by
    rintro c hc es ⟨l, qs, h1, h2, rfl⟩
    have hmem : ∀ e ∈ qs.map exOf, Good e.x := by
      intro e he
      obtain ⟨q, hq, rfl⟩ := List.mem_map.1 he
      have : qs = l := by
        refine (List.forall₂_eq_eq_eq ▸ h2.imp (fun p q h => (h : q = p).symm) : l = qs).symm
      exact hgood q (h1.mem_iff.1 (this ▸ hq))
    have hcls : ∀ S : List Cls, Cls.ogd ∉ S → Cls.fobosL1 ∉ S → (twoModels c).cls ∉ S := by
      intro S h1 h2
      rcases hc with rfl | rfl
      · exact h1
      · exact h2
    refine ⟨fun e he => ⟨hmem e he, fun h => absurd h (hcls _ (by decide) (by decide)), .inl ?_⟩, fun h => absurd h (hcls _ (by decide) (by decide)),
      fun h => absurd (List.mem_singleton.2 h) (hcls [.fofs] (by decide) (by decide)), fun h => absurd h (hcls _ (by decide) (by decide)),
      fun _ => .inl ?_, fun h => ?_⟩
    · rcases hc with rfl | rfl <;> rfl
    · rcases hc with rfl | rfl <;> rfl
    · rcases hc with rfl | rfl <;> exact absurd h (by decide)
  refine ⟨fs, file, fun before => ⟨hpw, ?_, ?_, rfl, twoPoints_suits .bin, rfl, hr, by decide, fun e he => ?_, by decide, by decide, ?_, ?_⟩⟩
  · exact ⟨haside.name, fun _ => rfl, haside.data⟩
  · refine coherent_same (ds := DataSet.unread ['x'] "d/x.bin".toList "bin".toList) _ _ _ 2 (coherent_new (file := file) rfl hr fun s => ?_)
    show (if _ then _ else _) = none
    rw [if_neg (fun e => haside.data s e.symm), if_neg (fun e => hcv s e.symm)]
  · obtain ⟨p, hp, rfl⟩ := List.mem_map.1 he
    exact (hgood p hp).1
  · intro l hl w hw
    cases hl
    obtain rfl := List.mem_singleton.1 hw
    exact .inr ⟨_, List.mem_cons_of_mem _ List.mem_cons_self, by unfold SameWord; decide⟩
  · intro p hp _
    simp only [twoOptions, List.mem_cons, List.not_mem_nil, or_false] at hp
    rcases hp with rfl | rfl
    · exact ⟨.inl ⟨rfl, rfl⟩, ⟨⟨.ogd, by decide, by unfold Apart; decide, fun files => by with_unfolding_all rfl⟩, fun p hp => absurd hp (by simp [twoSettings]),
        htr _ (.inl rfl)⟩, by decide⟩
    · refine ⟨.inr ⟨_, _, _, rfl, rfl, hload, by decide, by decide⟩, ⟨⟨.fobosL1, by decide, by unfold Apart; decide, fun files => by with_unfolding_all rfl⟩, ?_, htr _ (.inr rfl)⟩, by decide⟩
      intro p hp hn
      have hp : p = ("eta", "2".toList) ∨ p = ("lambda", "0".toList) := by simpa [twoSettings] using hp
      rcases hp with rfl | rfl
      · exact absurd (show "eta" ∈ ["batch_size", "buf_size"] from hn) (by decide)
      · exact absurd (show "lambda" ∈ ["batch_size", "buf_size"] from hn) (by decide)

/-- What is asked for, what is run, and a curve. -/
theorem C93_instance :
    asked twoOptions (some ["All".toList]) = ["ogd".toList, "fobos-l1".toList] ∧
    (plan 2 twoOptions [] ⟨[("ogd".toList, [rowOf 1, rowOf 0])], [("ogd".toList, [some (logOf 4), some (logOf 8)])]⟩).1 = ["fobos-l1".toList] ∧
    curve 2 [some (logOf 4), some (logOf 8)] = some ⟨[2], [6], [1 / 2]⟩ := by
  refine ⟨by decide, by decide, ?_⟩
  show some (⟨[2], [(0 + 4 + 8) / (2 : Nat)], [(0 + 1 / 2 + 1 / 2) / (2 : Nat)]⟩ : Curve) = _
  norm_num

end Sol.Props
