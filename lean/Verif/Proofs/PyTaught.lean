import Verif.Proofs.PySol
import Verif.Proofs.KitEnd
import Verif.Proofs.Ascii
import Verif.Spec.Observe
/-! Sessions of a Python object: several trainings are one, and what the other calls tell. -/

set_option linter.unusedSectionVars false

namespace Sol.PySol
open Sol.Params Sol.Online Sol.Loss Sol.Whole Sol.Spec Sol.Olm Sol.DataIter Sol.Observe

variable [FFun F32]

theorem testBatch_same {A B : Type} {c c' : Cfg F32} {s : St F32 A} {s' : St F32 B} (hc : c.clf = c'.clf) (hw : s.w = s'.w) (p : Train.Pre)
    (es : List (Ex F32)) (r : Nat × Nat × List (Train.Row F32)) : Train.testBatch c p s r es = Train.testBatch c' p s' r es := by
  induction es generalizing r with
  | nil => rfl
  | cons e es ih => simp only [Train.testBatch, Train.testPoint, predict, hc, hw, ih]

/-! ### Reading the files -/

theorem fileData_gives {pw : Int → F32} {W : World} {p f : List Char} {n : Int} {l : List (Ex F32)} (h : FileGives pw W p f n l) :
    fileData pw W p f n = .ok (some l) := by
  obtain ⟨g, h1, h⟩ := h
  unfold fileData
  rw [h1]
  rcases h with ⟨hn, rfl, o, ho⟩ | ⟨hn, pts, st, ⟨o, ho, hc⟩, rfl⟩
  · rw [ho]
    simp only [Res.bind, if_pos hn]
  · rw [ho]
    simp only [Res.bind, if_neg (show ¬ n ≤ 0 by omega), hc]

/-! ### The model of an object during a session -/

/-- What is fixed by the model that the session starts with. -/
structure Frame (powf : F32 → F32 → F32) (m : M) where
  k : Kind
  K : AnyKit
  s0 : St F32 K.1
  loss : m.loss = some k
  go : beginTrain m = .ok true
  kit : kitOf powf m = .ok K
  first : K.2.begin (cfgOf m k) (startSt m K.2.first) = .ok s0

variable {powf : F32 → F32 → F32} {m : M}

/-- The loop of a single training on these examples. -/
def Frame.loop (F : Frame powf m) (ρ : Nat → F32) (d : Train.Disp) (es : List (Ex F32)) : Res (Train.Loop F32 F.K.1) :=
  Train.batch F.K.2.G (cfgOf m F.k) ⟨m.sel, m.norm⟩ ρ ⟨F.s0, d, [], 0⟩ es

/-- The object with this loop. -/
def Frame.obj (F : Frame powf m) (s : St F32 F.K.1) (lp : Train.Loop F32 F.K.1) (reps : List (Train.Report F32)) : Obj :=
  .live ⟨m, F.k, F.K, ⟨s, lp.disp, reps, lp.used⟩⟩

/-- The object after training calls with these examples: `true`, and something evaluated it since. -/
inductive After (F : Frame powf m) (ρ : Nat → F32) (d : Train.Disp) : List (List (Ex F32)) → Bool → Obj → Prop
  | new {b : Bool} : After F ρ d [] b (.new m)
  | opened {ls : List (List (Ex F32))} {lp : Train.Loop F32 F.K.1} {reps : List (Train.Report F32)} (hn : ls ≠ [])
      (hl : F.loop ρ d ls.flatten = .ok lp) : After F ρ d ls false (F.obj { lp.s with fresh := true } lp reps)
  | closed {ls : List (List (Ex F32))} {lp : Train.Loop F32 F.K.1} {reps : List (Train.Report F32)} {s : St F32 F.K.1} (hn : ls ≠ [])
      (hl : F.loop ρ d ls.flatten = .ok lp) (he : F.K.2.G.endTrain (cfgOf m F.k) { lp.s with fresh := true } = .ok s) :
      After F ρ d ls true (F.obj s lp reps)

variable (F : Frame powf m) {ρ : Nat → F32} {d : Train.Disp}

theorem Frame.trainModel (es : List (Ex F32)) :
    trainModel powf ρ d m [es] = (F.loop ρ d es).bind fun lp =>
      (F.K.2.G.endTrain (cfgOf m F.k) { lp.s with fresh := true }).bind fun s =>
        .ok (F.K.2.last s.alg { m with dim := s.dim, w := s.w, t := s.t, reinit := false }) := by
  have hm := F.loss
  unfold Whole.trainModel
  split
  · rename_i h
    rw [hm] at h
    cases h
  rename_i k h
  rw [hm] at h
  cases h
  rw [F.go, F.kit]
  simp only [Res.bind, if_true, trainKit]
  rw [F.first]
  simp only [Res.bind_ok, Train.train, Props.batches_flat, List.flatten_cons, List.flatten_nil, List.append_nil, bind_bind, Frame.loop]
  cases Train.batch F.K.2.G (cfgOf m F.k) ⟨m.sel, m.norm⟩ ρ ⟨F.s0, d, [], 0⟩ es with
  | ub k => rfl
  | ok lp =>
    simp only [Res.bind_ok]
    cases F.K.2.G.endTrain (cfgOf m F.k) { lp.s with fresh := true } <;> rfl

theorem Frame.loop_append (a b : List (Ex F32)) :
    F.loop ρ d (a ++ b) = F.loop ρ d a >>= fun lp => Train.batch F.K.2.G (cfgOf m F.k) ⟨m.sel, m.norm⟩ ρ lp b :=
  Props.batch_append _ _ _ _ _ _ _

/-- Going on with another `model_updated_` and other reports. -/
theorem Frame.go_on {lp : Train.Loop F32 F.K.1} (b : Bool) (reps : List (Train.Report F32)) (es : List (Ex F32))
    (lp' : Train.Loop F32 F.K.1) (h : Train.batch F.K.2.G (cfgOf m F.k) ⟨m.sel, m.norm⟩ ρ lp es = .ok lp') :
    ∃ more, lp'.reports = lp.reports ++ more ∧
      Train.batch F.K.2.G (cfgOf m F.k) ⟨m.sel, m.norm⟩ ρ ⟨{ lp.s with fresh := b }, lp.disp, reps, lp.used⟩ es =
        .ok ⟨{ lp'.s with fresh := b }, lp'.disp, reps ++ more, lp'.used⟩ := by
  have hb := kit_blind F.kit
  have e0 : (fun i => ρ (0 + i)) = ρ := by funext i; rw [Nat.zero_add]
  have h1 := Props.batch_later hb (cfgOf m F.k) ⟨m.sel, m.norm⟩ ρ 0 lp.s.fresh lp.reports es ⟨lp.s, lp.disp, [], lp.used⟩
  have h2 := Props.batch_later hb (cfgOf m F.k) ⟨m.sel, m.norm⟩ ρ 0 b reps es ⟨lp.s, lp.disp, [], lp.used⟩
  rw [e0] at h1 h2
  simp only [List.append_nil, Nat.zero_add] at h1 h2
  have h3 : Train.batch F.K.2.G (cfgOf m F.k) ⟨m.sel, m.norm⟩ ρ lp es = _ := h1
  rw [h] at h3
  cases hq : Train.batch F.K.2.G (cfgOf m F.k) ⟨m.sel, m.norm⟩ ρ ⟨lp.s, lp.disp, [], lp.used⟩ es with
  | ub k => rw [hq] at h3; cases h3
  | ok q =>
    rw [hq] at h2 h3
    simp only [Res.bind_ok] at h2 h3
    obtain rfl := Res.ok.inj h3
    exact ⟨_, rfl, h2⟩

/-- A training call: the model has learnt from all examples so far, and the rate is that of all of them. -/
theorem Frame.fit {W : World} {pw : Int → F32} {ls : List (List (Ex F32))} {b : Bool} {o : Obj} (ho : After F ρ d ls b o)
    (hb : b = false ∨ m.cls ∈ settled ∨ ls = []) {p f : List Char} {n : Int} {l : List (Ex F32)} (hf : FileGives pw W p f n l)
    {lp : Train.Loop F32 F.K.1} (hl : F.loop ρ d (ls ++ [l]).flatten = .ok lp) :
    ∃ o', act pw powf ρ d W (.fit p f n) o [] = .ok ((o', []), .rate (Train.report lp.s).rate) ∧ After F ρ d (ls ++ [l]) false o' ∧
      ∃ lp0 more, F.loop ρ d ls.flatten = .ok lp0 ∧ lp.reports = lp0.reports ++ more ∧
        reportsOf o' = reportsOf o ++ (more ++ [Train.report lp.s]) := by
  have hne : ls ++ [l] ≠ [] := by simp
  have hfl : (ls ++ [l]).flatten = ls.flatten ++ l := by simp
  -- the loop that the call starts with
  suffices h : ∃ reps0 more b' lp0, F.loop ρ d ls.flatten = .ok lp0 ∧ lp.reports = lp0.reports ++ more ∧ reportsOf o = reps0 ∧
      ready powf d (.fit p f n) o = .ok (some (F.obj { lp0.s with fresh := b' } lp0 reps0)) ∧
      Train.batch F.K.2.G (cfgOf m F.k) ⟨m.sel, m.norm⟩ ρ ⟨{ lp0.s with fresh := b' }, lp0.disp, reps0, lp0.used⟩ l =
        .ok ⟨{ lp.s with fresh := b' }, lp.disp, reps0 ++ more, lp.used⟩ by
    obtain ⟨reps0, more, b', lp0, g1, g2, g3, h1, h2⟩ := h
    unfold act
    simp only [Op.source, fileData_gives hf, Res.bind, h1, treat, Frame.obj, study, Props.batches_flat, Live.cfg, Live.pre,
      List.flatten_cons, List.flatten_nil, List.append_nil, List.nil_append, h2]
    refine ⟨_, rfl, .opened hne hl, lp0, more, g1, g2, ?_⟩
    rw [g3]
    exact List.append_assoc _ _ _
  rw [hfl, F.loop_append] at hl
  obtain ⟨lp0, h0, h1⟩ := Res.bind_eq_ok.1 hl
  cases ho with
  | new =>
    obtain ⟨more, g, h2⟩ := F.go_on F.s0.fresh [] l lp h1
    have e0 : lp0 = ⟨F.s0, d, [], 0⟩ := (Res.ok.inj h0).symm
    refine ⟨[], more, F.s0.fresh, lp0, h0, g, rfl, ?_, ?_⟩
    · simp only [ready, begin, F.go, Res.bind, F.loss, F.kit, F.first, Option.map, Frame.obj, e0]
    · rw [e0] at h2 ⊢
      exact h2
  | @opened _ lp1 reps hn hl1 =>
    rw [hl1] at h0
    obtain rfl := Res.ok.inj h0
    obtain ⟨more, g, h2⟩ := F.go_on true reps l lp h1
    exact ⟨reps, more, true, lp1, hl1, g, rfl, rfl, h2⟩
  | @closed _ lp1 reps s hn hl1 he =>
    rw [hl1] at h0
    obtain rfl := Res.ok.inj h0
    obtain ⟨more, g, h2⟩ := F.go_on false reps l lp h1
    have hs : m.cls ∈ settled := by
      rcases hb with h | h | h
      · cases h
      · exact h
      · exact absurd h hn
    rw [kit_settled F.kit hs] at he
    obtain rfl := Res.ok.inj he
    exact ⟨reps, more, false, lp1, hl1, g, rfl, rfl, h2⟩

/-- Before something is evaluated, the training is brought to an end. -/
theorem Frame.settle {ls : List (List (Ex F32))} {b : Bool} {o : Obj} (ho : After F ρ d ls b o) {m' : M}
    (hm : TaughtAll powf ρ d m ls m') :
    ∃ o', settle o = .ok o' ∧ After F ρ d ls true o' ∧ modelOf o' = m' ∧ reportsOf o' = reportsOf o := by
  cases ho with
  | new =>
    rcases hm with ⟨-, rfl⟩ | ⟨h, -⟩
    · exact ⟨_, rfl, .new, rfl, rfl⟩
    · exact absurd rfl h
  | @opened _ lp reps hn hl =>
    rcases hm with ⟨h, -⟩ | ⟨-, h⟩
    · exact absurd h hn
    · rw [F.trainModel, hl] at h
      simp only [Res.bind] at h
      cases he : F.K.2.G.endTrain (cfgOf m F.k) { lp.s with fresh := true } with
      | ub k => rw [he] at h; cases h
      | ok s =>
        rw [he] at h
        refine ⟨F.obj s lp reps, ?_, .closed hn hl he, Res.ok.inj h, rfl⟩
        simp only [PySol.settle, Frame.obj, if_true, Live.cfg, he, Res.bind]
  | @closed _ lp reps s hn hl he =>
    rcases hm with ⟨h, -⟩ | ⟨-, h⟩
    · exact absurd h hn
    · rw [F.trainModel, hl] at h
      simp only [Res.bind, he] at h
      have hf := kit_ends F.kit _ _ _ he
      refine ⟨F.obj s lp reps, ?_, .closed hn hl he, Res.ok.inj h, rfl⟩
      simp only [PySol.settle, Frame.obj, hf]
      rfl

/-- What `Test` does with an object whose training has ended is what it does with its model. -/
theorem Frame.testAll {ls : List (List (Ex F32))} {o : Obj} (ho : After F ρ d ls true o) (l : List (Ex F32)) :
    (∃ r, testAll o [l] = .ok r ∧ predictAll o [l] = .ok (r.2.2, l.length) ∧
      testModel (modelOf o) [l] = .ok (r.2.2, ((r.1 : Int) : F32) / ((r.2.1 : Int) : F32))) ∨ ∃ k, testModel (modelOf o) [l] = .ub k := by
  have key : ∀ {A : Type} (c : Cfg F32) (s : St F32 A) (n : M), c.clf = vectors n.classNum → s.w = n.w →
      (∃ r, Train.testBatches c ⟨n.sel, n.norm⟩ s (0, 0, []) [l] = .ok r ∧
        CApi.predictBatches c ⟨n.sel, n.norm⟩ s ([], 0) [l] = .ok (r.2.2, l.length) ∧
        testModel n [l] = .ok (r.2.2, ((r.1 : Int) : F32) / ((r.2.1 : Int) : F32))) ∨ ∃ k, testModel n [l] = .ub k := by
    intro A c s n hc hw
    simp only [testModel, Props.testBatches_flat, Props.predictBatches_flat, Props.predictBatch_test c _ s 0 0, List.flatten_cons,
      List.flatten_nil, List.append_nil, bind_bind]
    rw [testBatch_same (c' := cfgOf n .hinge) (s' := startSt n ()) hc hw]
    cases Train.testBatch (cfgOf n .hinge) ⟨n.sel, n.norm⟩ (startSt n ()) (0, 0, []) l with
    | ub k => exact .inr ⟨k, rfl⟩
    | ok r => exact .inl ⟨r, rfl, by simp only [Res.bind_ok, Nat.zero_add], rfl⟩
  cases ho with
  | new => exact key (cfgOf m .hinge) (startSt m ()) m rfl rfl
  | @closed _ lp reps s hn hl he =>
    obtain ⟨h1, h2, h3, h4, h5⟩ := kit_last F.kit s.alg { m with dim := s.dim, w := s.w, t := s.t, reinit := false }
    have := key (cfgOf m F.k) s (modelOf (F.obj s lp reps)) (by simp only [modelOf, Frame.obj, h3]; rfl) (by simp only [modelOf, Frame.obj, h1])
    simp only [modelOf, Frame.obj, h4, h5] at this
    exact this

theorem count_tail (ws : List (List F32)) :
    (ws.map fun w => ((w.drop 1).filter fun v => !(v =? 0)).length).sum = (ws.map fun w => w.tail).flatten.countP fun v => !(v =? 0) := by
  induction ws with
  | nil => rfl
  | cons w ws ih =>
    rw [List.map_cons, List.sum_cons, ih, List.map_cons, List.flatten_cons, List.countP_append, List.drop_one,
      List.countP_eq_length_filter, List.countP_eq_length_filter]

/-- Whether the training has ended after the call. -/
def rests : Op → Bool → Bool
  | .save _, b => b
  | .fit _ _ _, _ => false
  | _, _ => true

/-- The calls that do not train: the object is at rest afterwards and the answer is about its model. -/
theorem Frame.tell {W : World} {pw : Int → F32} {ls : List (List (Ex F32))} {b : Bool} {o : Obj} (ho : After F ρ d ls b o) {m' : M}
    (hm : TaughtAll powf ρ d m ls m') {op : Op} {l : List (Ex F32)} (hf : OpGives pw W op l) (hn : isFit op = false)
    (ht : ∃ x, testModel m' [l] = .ok x)
    (hs : (∃ p, op = .save p) → b = true ∨ m.cls ∈ settled ∨ ls = []) :
    ∃ o' r, act pw powf ρ d W op o [] = .ok ((o', []), r) ∧ Tells W m' op l r ∧
      After F ρ d ls (rests op b) o' ∧ reportsOf o' = reportsOf o := by
  obtain ⟨o1, h1, h2, h3, h4⟩ := F.settle ho hm
  obtain ⟨x, ht⟩ := ht
  have htest : ∃ r, PySol.testAll o1 [l] = .ok r ∧ predictAll o1 [l] = .ok (r.2.2, l.length) ∧
      testModel m' [l] = .ok (r.2.2, ((r.1 : Int) : F32) / ((r.2.1 : Int) : F32)) := by
    rcases F.testAll h2 l with h | ⟨k, h⟩
    · rw [h3] at h
      exact h
    · rw [h3, ht] at h
      cases h
  obtain ⟨r, t1, t2, t3⟩ := htest
  cases op with
  | fit p f n => cases hn
  | score p f =>
    refine ⟨o1, .rate (((r.1 : Int) : F32) / ((r.2.1 : Int) : F32)), ?_, ⟨_, _, t3, rfl⟩, h2, h4⟩
    unfold act
    simp only [Op.source, fileData_gives hf, Res.bind, ready, h1, treat, List.nil_append, t1]
  | predict p f =>
    refine ⟨o1, .rows r.2.2, ?_, ⟨_, _, t3, rfl⟩, h2, h4⟩
    unfold act
    simp only [Op.source, fileData_gives hf, Res.bind, ready, h1, treat, List.nil_append, t2]
  | sparsity =>
    refine ⟨o1, .weights (countWeights (modelOf o1)).1 (countWeights (modelOf o1)).2, ?_, ?_, h2, h4⟩
    · unfold act
      simp only [Op.source, h1, Res.bind]
    · rw [h3]
      simp only [Tells, countWeights, count_tail]
  | save p =>
    have hmo : modelOf o = m' := by
      cases ho with
      | new =>
        rcases hm with ⟨-, rfl⟩ | ⟨h, -⟩
        · rfl
        · exact absurd rfl h
      | @opened _ lp reps hn hl =>
        rcases hs ⟨p, rfl⟩ with h | h | h
        · cases h
        · simp only [PySol.settle, Frame.obj, if_true, Live.cfg, kit_settled F.kit h, Res.bind] at h1
          obtain rfl := Res.ok.inj h1
          exact h3
        · exact absurd h hn
      | @closed _ lp reps s hn hl he =>
        have hf := kit_ends F.kit _ _ _ he
        simp only [PySol.settle, Frame.obj, hf] at h1
        obtain rfl := Res.ok.inj h1
        exact h3
    refine ⟨o, _, rfl, ?_, ho, rfl⟩
    rw [hmo]
    by_cases hw : W.writes p
    · rw [if_pos hw]
      exact .inl ⟨hw, _, rfl, DataFile.chars_ofChars (plain7_saveText m')⟩
    · rw [if_neg hw]
      exact .inr ⟨by simpa using hw, rfl⟩

omit F in
/-- The same for an object that was not trained. -/
theorem tell_new {W : World} {pw : Int → F32} {op : Op} {l : List (Ex F32)} (hf : OpGives pw W op l) (hn : isFit op = false)
    (ht : ∃ x, testModel m [l] = .ok x) :
    ∃ r, act pw powf ρ d W op (.new m) [] = .ok ((.new m, []), r) ∧ Tells W m op l r := by
  obtain ⟨x, ht⟩ := ht
  simp only [testModel, Res.bind_eq_ok] at ht
  obtain ⟨r, t1, t2⟩ := ht
  have t3 : testModel m [l] = .ok (r.2.2, ((r.1 : Int) : F32) / ((r.2.1 : Int) : F32)) := by simp only [testModel, t1, Res.bind_ok]
  cases op with
  | fit p f n => cases hn
  | score p f =>
    refine ⟨.rate (((r.1 : Int) : F32) / ((r.2.1 : Int) : F32)), ?_, _, _, t3, rfl⟩
    unfold act
    simp only [Op.source, fileData_gives hf, Res.bind, ready, settle, treat, List.nil_append, testAll, t1]
  | predict p f =>
    refine ⟨.rows r.2.2, ?_, _, _, t3, rfl⟩
    simp only [Props.testBatches_flat] at t1
    unfold act
    simp only [Op.source, fileData_gives hf, Res.bind, ready, settle, treat, List.nil_append, predictAll, Props.predictBatches_flat,
      Props.predictBatch_test _ _ (startSt m ()) 0 0, t1, Res.bind_ok]
  | sparsity => exact ⟨_, rfl, by simp only [Tells, countWeights, count_tail, modelOf]⟩
  | save p =>
    refine ⟨_, rfl, ?_⟩
    by_cases hw : W.writes p
    · rw [if_pos hw]
      exact .inl ⟨hw, _, rfl, DataFile.chars_ofChars (plain7_saveText m)⟩
    · rw [if_neg hw]
      exact .inr ⟨by simpa using hw, rfl⟩

/-! ### Sessions -/

/-- Evaluation comes before or after all training calls, and saving not right after them; `st`: there was a training call; `b`: it has
    ended. -/
def oneGo : Bool → Bool → List Op → Prop
  | _, _, [] => True
  | st, b, op :: ops =>
    (isFit op = true → st = false ∨ b = false) ∧ ((∃ p, op = .save p) → st = false ∨ b = true) ∧ oneGo (st || isFit op) (rests op b) ops

theorem oneGo_after (ops : List Op) (h : ∀ o ∈ ops, isFit o = false) (st : Bool) : oneGo st true ops := by
  induction ops with
  | nil => trivial
  | cons op ops ih =>
    have h1 := h op List.mem_cons_self
    refine ⟨fun h2 => ?_, fun _ => .inr rfl, ?_⟩
    · rw [h1] at h2; cases h2
    · have : rests op true = true := by cases op <;> first | rfl | cases h1
      rw [this, h1, Bool.or_false]
      exact ih fun o ho => h o (List.mem_cons_of_mem _ ho)

theorem oneGo_of {ops : List Op} (h : InOneGo ops) : oneGo false false ops := by
  obtain ⟨a, b, e, rfl, ha, hb, he, hs⟩ := h
  have h1 : ∀ st, oneGo st false e := by
    intro st
    cases e with
    | nil => trivial
    | cons op e =>
      have hf := he op List.mem_cons_self
      have hr : rests op false = true := by
        cases op with
        | fit p f n => cases hf
        | save p => exact absurd rfl (hs p)
        | _ => rfl
      refine ⟨fun _ => .inr rfl, ?_, ?_⟩
      · rintro ⟨p, rfl⟩
        exact absurd rfl (hs p)
      · rw [hr]
        exact oneGo_after e (fun o ho => he o (List.mem_cons_of_mem _ ho)) _
  have h2 : ∀ st, oneGo st false (b ++ e) := by
    induction b with
    | nil => exact h1
    | cons op b ih =>
      intro st
      have hf := hb op List.mem_cons_self
      refine ⟨fun _ => .inr rfl, ?_, ?_⟩
      · rintro ⟨p, rfl⟩
        cases hf
      · have : rests op false = false := by cases op <;> first | rfl | cases hf
        rw [this]
        exact ih (fun o ho => hb o (List.mem_cons_of_mem _ ho)) _
  have h3 : ∀ c, oneGo false c (b ++ e) := by
    intro c
    cases hbe : b ++ e with
    | nil => trivial
    | cons op r =>
      have h4 := h2 false
      rw [hbe] at h4
      refine ⟨fun _ => .inl rfl, fun _ => .inl rfl, ?_⟩
      cases op with
      | save p =>
        cases b with
        | nil => exact absurd (by rw [List.nil_append] at hbe; rw [hbe]; rfl) (hs p)
        | cons op' b => injection hbe with h5 _; rw [h5] at hb; cases hb _ List.mem_cons_self
      | _ => exact h4.2.2
  rw [List.append_assoc]
  suffices h : ∀ c, oneGo false c (a ++ (b ++ e)) from h false
  induction a with
  | nil => exact h3
  | cons op a ih =>
    intro c
    refine ⟨fun _ => .inl rfl, fun _ => .inl rfl, ?_⟩
    rw [ha op List.mem_cons_self, Bool.or_false]
    exact ih (fun o ho => ha o (List.mem_cons_of_mem _ ho)) _

theorem taught_append (a b : List (Op × List (Ex F32))) : taught (a ++ b) = taught a ++ taught b := by
  simp only [taught, List.filter_append, List.map_append]

theorem taught_fit {op : Op} (h : isFit op = true) (l : List (Ex F32)) : taught [(op, l)] = [l] := by simp [taught, h]

theorem taught_other {op : Op} (h : isFit op = false) (l : List (Ex F32)) : taught [(op, l)] = [] := by simp [taught, h]

theorem taught_none {ops : List (Op × List (Ex F32))} (h : ∀ o ∈ ops.map (·.1), isFit o = false) : taught ops = [] := by
  simp only [taught, List.map_eq_nil_iff, List.filter_eq_nil_iff, Bool.not_eq_true]
  exact fun p hp => h _ (List.mem_map_of_mem hp)

/-- In one go, every call that does not train sees all examples or none. -/
theorem all_or_none {pre suf : List (Op × List (Ex F32))} {op : Op} {l : List (Ex F32)}
    (h : InOneGo ((pre ++ (op, l) :: suf).map (·.1))) (hf : isFit op = false) :
    taught pre = [] ∨ taught pre = taught (pre ++ (op, l) :: suf) := by
  obtain ⟨a, b, e, h1, ha, hb, he, -⟩ := h
  rw [List.map_append, List.map_cons, List.append_assoc] at h1
  rcases List.append_eq_append_iff.1 h1 with ⟨c, h2, -⟩ | ⟨c, h2, h3⟩
  · exact .inl (taught_none fun o ho => ha o (by rw [h2]; exact List.mem_append_left _ ho))
  · have hsuf : (∀ o ∈ suf.map (·.1), o ∈ e) → taught pre = taught (pre ++ (op, l) :: suf) := by
      intro h
      have := taught_none (ops := suf) fun o ho => he o (h o ho)
      rw [← List.singleton_append, ← List.append_assoc, taught_append, taught_append, taught_other hf, this, List.append_nil, List.append_nil]
    rcases List.append_eq_append_iff.1 h3 with ⟨y, h4, h5⟩ | ⟨x, h4, h5⟩
    · exact .inr (hsuf fun o ho => by rw [h5]; exact List.mem_append_right _ (List.mem_cons_of_mem _ ho))
    · cases x with
      | nil => exact .inr (hsuf fun o ho => by rw [List.nil_append] at h5; rw [← h5]; exact List.mem_cons_of_mem _ ho)
      | cons o x =>
        injection h5 with h6 h7
        have := hb op (by rw [h4]; dsimp only at h6; rw [h6]; exact List.mem_append_right _ List.mem_cons_self)
        rw [hf] at this
        cases this

theorem Frame.rate (es : List (Ex F32)) {lp : Train.Loop F32 F.K.1} (h : F.loop ρ d es = .ok lp) (ls : List (List (Ex F32)))
    (hl : ls.flatten = es) : RateOfAll powf ρ d m ls (Train.report lp.s).rate := by
  refine ⟨F.k, F.K, F.s0, ({ lp.s with fresh := true }, lp.disp, lp.reports ++ [Train.report lp.s], (Train.report lp.s).rate), F.loss, F.kit,
    F.first, ?_, rfl⟩
  unfold Frame.loop at h
  simp only [Train.train, Props.batches_flat, List.flatten_cons, List.flatten_nil, List.append_nil, hl, h, Res.bind_ok]

/-- The log of a single training. -/
theorem Frame.log (es : List (Ex F32)) {lp : Train.Loop F32 F.K.1} (h : F.loop ρ d es = .ok lp) :
    LogOf powf ρ d m es (lp.reports ++ [Train.report lp.s]) := by
  refine ⟨F.k, F.K, F.s0, ({ lp.s with fresh := true }, lp.disp, lp.reports ++ [Train.report lp.s], (Train.report lp.s).rate), F.loss, F.kit,
    F.first, ?_, rfl⟩
  unfold Frame.loop at h
  simp only [Train.train, Props.batches_flat, List.flatten_cons, List.flatten_nil, List.append_nil, h, Res.bind_ok]

/-- A call in a session. -/
theorem Frame.call {W : World} {pw : Int → F32} {before : List (Op × List (Ex F32))} {b : Bool} {o : Obj}
    (ho : After F ρ d (taught before) b o) {op : Op} {l : List (Ex F32)} {todo : List (Op × List (Ex F32))}
    (hc : m.cls ∈ settled ∨ oneGo (decide (taught before ≠ [])) b (op :: todo.map (·.1)))
    (hg1 : OpGives pw W op l) (hl : ∃ lp, F.loop ρ d (taught (before ++ (op, l) :: todo)).flatten = .ok lp)
    (hev : isFit op = false → ∃ m', TaughtAll powf ρ d m (taught before) m' ∧ ∃ x, testModel m' [l] = .ok x) :
    ∃ o' r b', act pw powf ρ d W op o [] = .ok ((o', []), r) ∧ Answers powf ρ d W m before op l r ∧
        After F ρ d (taught (before ++ [(op, l)])) b' o' ∧
        (m.cls ∈ settled ∨ oneGo (decide (taught (before ++ [(op, l)]) ≠ [])) b' (todo.map (·.1))) ∧
        Logged powf ρ d m before op l (newReports o o') r := by
  have happ : before ++ (op, l) :: todo = (before ++ [(op, l)]) ++ todo := by simp
  cases hf : isFit op with
  | true =>
    have hls : taught (before ++ [(op, l)]) = taught before ++ [l] := by rw [taught_append, taught_fit hf]
    obtain ⟨lp, hlp⟩ := hl
    rw [happ, taught_append, hls, List.flatten_append, F.loop_append] at hlp
    obtain ⟨lp1, hlp1, -⟩ := Res.bind_eq_ok.1 hlp
    cases op with
    | fit p f n =>
      have hb : b = false ∨ m.cls ∈ settled ∨ taught before = [] := by
        rcases hc with h | h
        · exact .inr (.inl h)
        · rcases h.1 hf with h | h
          · exact .inr (.inr (by simpa using h))
          · exact .inl h
      obtain ⟨o', h1, h2, lp0, more, g1, g2, g3⟩ := F.fit ho hb hg1 hlp1
      refine ⟨o', _, false, h1, ?_, by rw [hls]; exact h2, ?_, ?_⟩
      · unfold Answers
        rw [hf, if_pos rfl]
        exact ⟨_, rfl, F.rate _ hlp1 _ rfl⟩
      · rcases hc with h | h
        · exact .inl h
        · right
          have h3 := h.2.2
          rw [hf, Bool.or_true] at h3
          rw [hls, decide_eq_true (by simp)]
          exact h3
      · unfold Logged
        rw [hf, if_pos rfl]
        have hn : newReports o o' = more ++ [Train.report lp1.s] := by rw [newReports, g3, List.drop_left]
        rw [hn]
        rw [List.flatten_append, List.flatten_cons, List.flatten_nil, List.append_nil] at hlp1
        refine ⟨_, _, F.log _ g1, F.log _ hlp1, ?_, _, List.getLast?_concat, rfl⟩
        rw [List.dropLast_concat, g2, List.append_assoc]
    | _ => cases hf
  | false =>
    have hls : taught (before ++ [(op, l)]) = taught before := by rw [taught_append, taught_other hf, List.append_nil]
    obtain ⟨m', hm', ht⟩ := hev hf
    have hs : (∃ p, op = .save p) → b = true ∨ m.cls ∈ settled ∨ taught before = [] := by
      intro hp
      rcases hc with h | h
      · exact .inr (.inl h)
      · rcases h.2.1 hp with h | h
        · exact .inr (.inr (by simpa using h))
        · exact .inl h
    obtain ⟨o', r, h1, h2, h3, h4⟩ := F.tell ho hm' hg1 hf ht hs
    refine ⟨o', r, _, h1, ?_, by rw [hls]; exact h3, ?_, ?_⟩
    · unfold Answers
      rw [hf, if_neg (by simp)]
      exact ⟨m', hm', h2⟩
    · rcases hc with h | h
      · exact .inl h
      · right
        have h3 := h.2.2
        rw [hf, Bool.or_false] at h3
        rw [hls]
        exact h3
    · unfold Logged
      rw [hf, if_neg (by simp), newReports, h4, List.drop_length]

/-- A session, from any point on. -/
theorem Frame.session {W : World} {pw : Int → F32} (todo : List (Op × List (Ex F32))) :
    ∀ (before : List (Op × List (Ex F32))) (b : Bool) (o : Obj), After F ρ d (taught before) b o →
      (m.cls ∈ settled ∨ oneGo (decide (taught before ≠ [])) b (todo.map (·.1))) →
      (∀ p ∈ todo, OpGives pw W p.1 p.2) → (∃ lp, F.loop ρ d (taught (before ++ todo)).flatten = .ok lp) →
      (∀ pre op l suf, before ++ todo = pre ++ (op, l) :: suf → isFit op = false →
        ∃ m', TaughtAll powf ρ d m (taught pre) m' ∧ ∃ x, testModel m' [l] = .ok x) →
      ∃ o' rs, acts pw powf ρ d W (todo.map (·.1)) o [] = .ok ((o', []), rs) ∧ rs.length = todo.length ∧
        ∀ i op l r, todo[i]? = some (op, l) → rs[i]? = some r → Answers powf ρ d W m (before ++ todo.take i) op l r := by
  induction todo with
  | nil => exact fun _ _ o _ _ _ _ _ => ⟨o, [], rfl, rfl, fun i op l r h => by simp at h⟩
  | cons q todo ih =>
    intro before b o ho hc hg hl hev
    obtain ⟨op, l⟩ := q
    have hg1 : OpGives pw W op l := hg _ List.mem_cons_self
    have happ : before ++ (op, l) :: todo = (before ++ [(op, l)]) ++ todo := by simp
    have hfirst := F.call ho hc hg1 hl (hev before op l todo rfl)
    obtain ⟨o', r, b', h1, h2, h3, h4, -⟩ := hfirst
    obtain ⟨o2, rs, h5, h6, h7⟩ := ih (before ++ [(op, l)]) b' o' h3 h4 (fun p hp => hg p (List.mem_cons_of_mem _ hp))
      (by rw [← happ]; exact hl) (by rw [← happ]; exact hev)
    refine ⟨o2, r :: rs, ?_, by simp [h6], ?_⟩
    · simp only [List.map_cons, acts, h1, Res.bind, h5]
    · intro i op' l' r' hi hr
      cases i with
      | zero =>
        simp only [List.getElem?_cons_zero, Option.some.injEq, Prod.mk.injEq] at hi hr
        obtain ⟨rfl, rfl⟩ := hi
        subst hr
        simpa using h2
      | succ i =>
        simp only [List.getElem?_cons_succ] at hi hr
        have := h7 i op' l' r' hi hr
        rw [List.append_assoc] at this
        exact this

omit F in
/-- A session without training calls. -/
theorem untrained_session {W : World} {pw : Int → F32} (todo : List (Op × List (Ex F32))) (hn : ∀ p ∈ todo, isFit p.1 = false)
    (hg : ∀ p ∈ todo, OpGives pw W p.1 p.2) (ht : ∀ p ∈ todo, ∃ x, testModel m [p.2] = .ok x) :
    ∃ o' rs, acts pw powf ρ d W (todo.map (·.1)) (.new m) [] = .ok ((o', []), rs) ∧ rs.length = todo.length ∧
      ∀ i op l r, todo[i]? = some (op, l) → rs[i]? = some r → Answers powf ρ d W m (todo.take i) op l r := by
  suffices h : ∃ rs, acts pw powf ρ d W (todo.map (·.1)) (.new m) [] = .ok ((.new m, []), rs) ∧
      List.Forall₂ (fun p r => Tells W m p.1 p.2 r) todo rs by
    obtain ⟨rs, h1, h2⟩ := h
    refine ⟨_, rs, h1, h2.length_eq.symm, fun i op l r hi hr => ?_⟩
    have hf := hn _ (List.mem_of_getElem? hi)
    dsimp only at hf
    unfold Answers
    rw [hf, if_neg (by simp)]
    refine ⟨m, .inl ⟨taught_none ?_, rfl⟩, ?_⟩
    · intro o ho
      obtain ⟨p, hp, rfl⟩ := List.mem_map.1 ho
      exact hn p (List.mem_of_mem_take hp)
    · obtain ⟨hi1, hi2⟩ := List.getElem?_eq_some_iff.1 hi
      obtain ⟨hr1, hr2⟩ := List.getElem?_eq_some_iff.1 hr
      have := (List.forall₂_iff_get.1 h2).2 i hi1 hr1
      simp only [List.get_eq_getElem, hi2, hr2] at this
      exact this
  induction todo with
  | nil => exact ⟨[], rfl, .nil⟩
  | cons q todo ih =>
    obtain ⟨r, h1, h2⟩ := tell_new (powf := powf) (ρ := ρ) (d := d) (hg _ List.mem_cons_self) (hn _ List.mem_cons_self) (ht _ List.mem_cons_self)
    obtain ⟨rs, h3, h4⟩ := ih (fun p hp => hn p (List.mem_cons_of_mem _ hp)) (fun p hp => hg p (List.mem_cons_of_mem _ hp))
      fun p hp => ht p (List.mem_cons_of_mem _ hp)
    exact ⟨r :: rs, by simp only [List.map_cons, acts, h1, Res.bind, h3], .cons h2 h4⟩

omit F in
/-- A model that can be trained. -/
theorem frame_of {files : List Char → Option (List Char)} (hm : Reached files m) (powf : F32 → F32 → F32) (ρ : Nat → F32) (d : Train.Disp)
    {es : List (Ex F32)} (ht : Trainable m es) : ∃ F : Frame powf m, ∃ lp, F.loop ρ d es = .ok lp := by
  have hc := reached_checked hm
  obtain ⟨k, hk, hk2⟩ := hc.loss
  have hgo : beginTrain m = .ok true := by
    simp only [beginTrain, hk]
    cases hcs : m.costSensitive with
    | false => rfl
    | true =>
      have h1 := ht.cost hcs
      rw [hk] at h1
      have h1 : isHinge k = true := h1
      have h2 := (hc.cost hcs).1
      have h3 := hk2.1
      rw [if_pos h2] at h3
      simp [h1, h3]
  obtain ⟨m', h1, -⟩ := trainModel_trained hm powf ρ d [es] (by simpa using ht)
  have h2 := h1
  simp only [Whole.trainModel, hk, hgo, Res.bind, if_true] at h2
  cases hK : kitOf powf m with
  | ub k => rw [hK] at h2; cases h2
  | ok K =>
    rw [hK] at h2
    simp only [trainKit] at h2
    obtain ⟨s0, h3, -⟩ := Res.bind_eq_ok.1 h2
    let F : Frame powf m := ⟨k, K, s0, hk, hgo, hK, h3⟩
    refine ⟨F, ?_⟩
    have h4 := F.trainModel (ρ := ρ) (d := d) es
    rw [h1] at h4
    cases hl : F.loop ρ d es with
    | ub k => rw [hl] at h4; cases h4
    | ok lp => exact ⟨lp, rfl⟩

end Sol.PySol
