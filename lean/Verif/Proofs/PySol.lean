import Verif.Proofs.Blind
import Verif.Proofs.Predictions
import Verif.Props.Predict
import Verif.Spec.PySol
/-! Sessions of a Python object: the iterator hands out what was added, and training in several calls is one training. -/

set_option linter.unusedSectionVars false

namespace Sol.DataIter
open Sol.Spec

variable {P : Type}

theorem step_delivered {s s' : State P} (h : Step s s') : s.delivered <+: s'.delivered := by
  rcases h with ⟨i, h⟩ | h
  · cases h <;> exact List.prefix_rfl
  · cases h <;> first
      | exact List.prefix_rfl
      | exact List.prefix_append _ _

theorem steps_delivered {s s' : State P} (h : Relation.ReflTransGen Step s s') : s.delivered <+: s'.delivered := by
  induction h with
  | refl => exact List.prefix_rfl
  | tail _ h ih => exact ih.trans (step_delivered h)

theorem iterReach_steps {size num : Nat} {fs : List (List P × Bool × Nat)} {s s' : State P} (h : IterReach size num fs s)
    (hs : Relation.ReflTransGen Step s s') : IterReach size num fs s' := by
  induction hs with
  | refl => exact h
  | tail _ hst ih => exact ih.step hst

/-- From every state some schedule leads to a null pointer. -/
theorem null_comes {size num : Nat} (hs : 1 ≤ size) (hn : 1 ≤ num) {fs : List (List P × Bool × Nat)} {s : State P}
    (h : IterReach size num fs s) : ∃ s', Relation.ReflTransGen Step s s' ∧ s'.ended = true ∧ s'.cpc = .idle := by
  induction s using (going_wf (allPoints fs)).induction with
  | _ s ih =>
    obtain ⟨s', hst⟩ := Props.C24_never_blocked size num hs hn fs s h
    by_cases hp : s.cpc = .putNull ∧ s'.cpc = .idle
    · refine ⟨s', .single hst, ?_, hp.2⟩
      obtain ⟨h1, h2⟩ := hp
      rcases hst with ⟨i, hst⟩ | hst
      · cases hst <;> simp_all
      · cases hst <;> first
          | rfl
          | simp_all
    · obtain ⟨t, h1, h2⟩ := ih s' ⟨Props.iterReach_inv hs hn h, hp, hst⟩ (h.step hst)
      exact ⟨t, h1.head hst, h2⟩

end Sol.DataIter

namespace Sol.PySol
open Sol.Params Sol.Online Sol.Loss Sol.Whole Sol.Spec Sol.Olm Sol.DataIter

variable [FFun F32]

/-! ### The iterator of an object -/

/-- The iterator is not inside `Next`, and these examples were added but not handed out. -/
def Waits (size num : Nat) (i : State DataFile.Point) (pend : List (Ex F32)) : Prop :=
  ∃ fs ps, IterReach size num fs i ∧ i.cpc = .idle ∧ allPoints fs = i.delivered.flatten ++ ps ∧ ps.map exOf = pend

theorem waits_start (size num : Nat) : Waits size num (DataIter.start size num []) [] :=
  ⟨[], [], .init [], rfl, rfl, rfl⟩

/-- The examples of a file. -/
def fileData (pw : Int → F32) (W : World) (path fmt : List Char) (passes : Int) : Res (Option (List (Ex F32))) :=
  (DataFile.addReader fmt (W.reads path)).bind fun
    | none => .ok none
    | some o =>
      if passes ≤ 0 then .ok (some []) else (DataFile.contents pw o).bind fun r => .ok (some (lessons r.1 r.2 passes))

theorem waits_add {size num : Nat} {i : State DataFile.Point} {pend : List (Ex F32)} (h : Waits size num i pend)
    (f : List DataFile.Point × Bool × Nat) :
    Waits size num { i with rd := i.rd ++ [newReader f], ended := false } (pend ++ (filePoints f.1 f.2.1 f.2.2).map exOf) := by
  obtain ⟨fs, ps, h1, h2, h3, h4⟩ := h
  refine ⟨fs ++ [f], ps ++ filePoints f.1 f.2.1 f.2.2, .add f h1 h2, h2, ?_, by rw [List.map_append, h4]⟩
  simp only [allPoints, List.flatMap_append, List.flatMap_cons, List.flatMap_nil, List.append_nil] at h3 ⊢
  rw [h3, List.append_assoc]

/-- What `__load_data` does. -/
theorem load_data (pw : Int → F32) (W : World) (path fmt : List Char) (passes : Int) {size num : Nat} {i : State DataFile.Point}
    {pend : List (Ex F32)} (h : Waits size num i pend) :
    match fileData pw W path fmt passes with
    | .ub k => load pw W path fmt passes i = .ub k
    | .ok none => load pw W path fmt passes i = .ok none
    | .ok (some l) => ∃ i', load pw W path fmt passes i = .ok (some i') ∧ Waits size num i' (pend ++ l) := by
  unfold fileData load
  cases DataFile.addReader fmt (W.reads path) with
  | ub k => rfl
  | ok r =>
    cases r with
    | none => rfl
    | some o =>
      simp only [Res.bind]
      by_cases hp : passes ≤ 0
      · simp only [if_pos hp]
        have := waits_add h ([], false, 0)
        simp only [filePoints, if_true, List.map_nil] at this
        exact ⟨_, rfl, this⟩
      · simp only [if_neg hp]
        cases DataFile.contents pw o with
        | ub k => rfl
        | ok r =>
          have := waits_add h (r.1, decide (r.2 ≠ .endOfFile), passes.toNat)
          exact ⟨_, rfl, this⟩

theorem drains_data {size num : Nat} (hs : 1 ≤ size) (hn : 1 ≤ num) {i i' : State DataFile.Point} {pend : List (Ex F32)}
    (h : Waits size num i pend) (hd : Drains i i') : (batchesFrom i i').flatten = pend ∧ Waits size num i' [] := by
  obtain ⟨fs, ps, h1, h2, h3, h4⟩ := h
  obtain ⟨d1, d2, d3⟩ := hd
  have h5 := iterReach_steps h1 d1
  have h6 := Props.C23_null_after_everything size num hs hn fs i' h5 d2
  obtain ⟨t, ht⟩ := steps_delivered d1
  constructor
  · unfold batchesFrom
    rw [← List.map_flatten, ← h4, ← ht, List.drop_left]
    congr 1
    rw [← ht, h3, List.flatten_append] at h6
    exact List.append_cancel_left h6
  · exact ⟨fs, [], h5, d3, by rw [h6, List.append_nil], rfl⟩

theorem drains_some {size num : Nat} (hs : 1 ≤ size) (hn : 1 ≤ num) {i : State DataFile.Point} {pend : List (Ex F32)}
    (h : Waits size num i pend) : ∃ i', Drains i i' := by
  obtain ⟨fs, ps, h1, -⟩ := h
  exact null_comes hs hn h1

/-! ### Calls without the iterator -/

theorem study_flat (ρ : Nat → F32) (l : Live) (bs : List (List (Ex F32))) : study ρ l bs = study ρ l [bs.flatten] := by
  simp only [study, Props.batches_flat, List.flatten_cons, List.flatten_nil, List.append_nil]

theorem treat_flat (ρ : Nat → F32) (op : Op) (o : Obj) (bs : List (List (Ex F32))) : treat ρ op o bs = treat ρ op o [bs.flatten] := by
  cases op with
  | fit p f n =>
    cases o with
    | new m => rfl
    | live l => simp only [treat, study_flat ρ l bs]
  | score p f =>
    cases o <;> simp only [treat, testAll, Props.testBatches_flat, List.flatten_cons, List.flatten_nil, List.append_nil]
  | predict p f =>
    cases o <;> simp only [treat, predictAll, Props.predictBatches_flat, List.flatten_cons, List.flatten_nil, List.append_nil]
  | sparsity => rfl
  | save p => rfl

variable (pw : Int → F32) (powf : F32 → F32 → F32) (ρ : Nat → F32) (d : Train.Disp) (W : World)

/-- A call with the examples that wait in the iterator, instead of the iterator. -/
def act (op : Op) (o : Obj) (pend : List (Ex F32)) : Res ((Obj × List (Ex F32)) × Ret) :=
  match op.source with
  | some (p, f, n) =>
    (fileData pw W p f n).bind fun
      | none => .ok ((o, pend), .raises)
      | some l =>
        (ready powf d op o).bind fun
          | none => .ok ((o, pend ++ l), .rate 0)
          | some o => (treat ρ op o [pend ++ l]).bind fun r => .ok ((r.1, []), r.2)
  | none =>
    match op with
    | .sparsity => (settle o).bind fun o => .ok ((o, pend), .weights (countWeights (modelOf o)).1 (countWeights (modelOf o)).2)
    | .save p => .ok ((o, pend), if W.writes p then .saved (DataFile.ofChars (saveText (modelOf o))) else .unsaved)
    | _ => .ok ((o, pend), .raises)

/-- The two outcomes belong to each other. -/
def Matched (size num : Nat) : Res (Py × Ret) → Res ((Obj × List (Ex F32)) × Ret) → Prop
  | .ub k, .ub k' => k = k'
  | .ok (s, r), .ok ((o, pend), r') => s.obj = o ∧ Waits size num s.iter pend ∧ r = r'
  | _, _ => False

theorem call_act {size num : Nat} (hs : 1 ≤ size) (hn : 1 ≤ num) {s : Py} {pend : List (Ex F32)} (hw : Waits size num s.iter pend)
    (op : Op) :
    (∃ e, Call pw powf ρ d W s op e) ∧ ∀ e, Call pw powf ρ d W s op e → Matched size num e (act pw powf ρ d W op s.obj pend) := by
  cases ho : op.source with
  | none =>
    cases op with
    | fit p f n => cases ho
    | score p f => cases ho
    | predict p f => cases ho
    | sparsity =>
      refine ⟨⟨_, .sparsity⟩, fun e he => ?_⟩
      cases he with
      | sparsity =>
        unfold act
        dsimp only [Op.source]
        cases settle s.obj with
        | ub k => rfl
        | ok o => exact ⟨rfl, hw, rfl⟩
      | bad h => cases h
      | closed h => cases h
      | unready h => cases h
      | refused h => cases h
      | fails h => cases h
      | done h => cases h
    | save p =>
      refine ⟨⟨_, .save⟩, fun e he => ?_⟩
      cases he with
      | save => exact ⟨rfl, hw, rfl⟩
      | bad h => cases h
      | closed h => cases h
      | unready h => cases h
      | refused h => cases h
      | fails h => cases h
      | done h => cases h
  | some src =>
    obtain ⟨p, f, n⟩ := src
    have hl := load_data pw W p f n hw
    have hne : op ≠ .sparsity ∧ ∀ q, op ≠ .save q := by
      constructor
      · rintro rfl; cases ho
      · rintro q rfl; cases ho
    unfold act
    rw [ho]
    dsimp only
    cases hfd : fileData pw W p f n with
    | ub k =>
      rw [hfd] at hl
      dsimp only at hl
      refine ⟨⟨_, .bad ho hl⟩, fun e he => ?_⟩
      cases he with
      | sparsity => exact absurd rfl hne.1
      | save => exact absurd rfl (hne.2 _)
      | bad h1 h2 => rw [ho] at h1; cases h1; rw [hl] at h2; cases h2; rfl
      | closed h1 h2 => rw [ho] at h1; cases h1; rw [hl] at h2; cases h2
      | unready h1 h2 => rw [ho] at h1; cases h1; rw [hl] at h2; cases h2
      | refused h1 h2 => rw [ho] at h1; cases h1; rw [hl] at h2; cases h2
      | fails h1 h2 => rw [ho] at h1; cases h1; rw [hl] at h2; cases h2
      | done h1 h2 => rw [ho] at h1; cases h1; rw [hl] at h2; cases h2
    | ok r =>
      cases r with
      | none =>
        rw [hfd] at hl
        dsimp only at hl
        refine ⟨⟨_, .closed ho hl⟩, fun e he => ?_⟩
        cases he with
        | sparsity => exact absurd rfl hne.1
        | save => exact absurd rfl (hne.2 _)
        | bad h1 h2 => rw [ho] at h1; cases h1; rw [hl] at h2; cases h2
        | closed h1 h2 => exact ⟨rfl, hw, rfl⟩
        | unready h1 h2 => rw [ho] at h1; cases h1; rw [hl] at h2; cases h2
        | refused h1 h2 => rw [ho] at h1; cases h1; rw [hl] at h2; cases h2
        | fails h1 h2 => rw [ho] at h1; cases h1; rw [hl] at h2; cases h2
        | done h1 h2 => rw [ho] at h1; cases h1; rw [hl] at h2; cases h2
      | some l =>
        rw [hfd] at hl
        obtain ⟨i, hl, hi⟩ := hl
        simp only [Res.bind]
        cases hr : ready powf d op s.obj with
        | ub k =>
          refine ⟨⟨_, .unready ho hl hr⟩, fun e he => ?_⟩
          cases he with
          | sparsity => exact absurd rfl hne.1
          | save => exact absurd rfl (hne.2 _)
          | bad h1 h2 => rw [ho] at h1; cases h1; rw [hl] at h2; cases h2
          | closed h1 h2 => rw [ho] at h1; cases h1; rw [hl] at h2; cases h2
          | unready h1 h2 h3 => rw [hr] at h3; cases h3; rfl
          | refused h1 h2 h3 => rw [hr] at h3; cases h3
          | fails h1 h2 h3 => rw [hr] at h3; cases h3
          | done h1 h2 h3 => rw [hr] at h3; cases h3
        | ok r =>
          cases r with
          | none =>
            refine ⟨⟨_, .refused ho hl hr⟩, fun e he => ?_⟩
            cases he with
            | sparsity => exact absurd rfl hne.1
            | save => exact absurd rfl (hne.2 _)
            | bad h1 h2 => rw [ho] at h1; cases h1; rw [hl] at h2; cases h2
            | closed h1 h2 => rw [ho] at h1; cases h1; rw [hl] at h2; cases h2
            | unready h1 h2 h3 => rw [hr] at h3; cases h3
            | refused h1 h2 h3 =>
              rw [ho] at h1; cases h1; rw [hl] at h2; cases h2
              exact ⟨rfl, hi, rfl⟩
            | fails h1 h2 h3 => rw [hr] at h3; cases h3
            | done h1 h2 h3 => rw [hr] at h3; cases h3
          | some o =>
            constructor
            · obtain ⟨i', hd⟩ := drains_some hs hn hi
              cases ht : treat ρ op o (batchesFrom i i') with
              | ub k => exact ⟨_, .fails ho hl hr hd ht⟩
              | ok r => exact ⟨_, .done ho hl hr hd ht⟩
            · intro e he
              cases he with
              | sparsity => exact absurd rfl hne.1
              | save => exact absurd rfl (hne.2 _)
              | bad h1 h2 => rw [ho] at h1; cases h1; rw [hl] at h2; cases h2
              | closed h1 h2 => rw [ho] at h1; cases h1; rw [hl] at h2; cases h2
              | unready h1 h2 h3 => rw [hr] at h3; cases h3
              | refused h1 h2 h3 => rw [hr] at h3; cases h3
              | fails h1 h2 h3 hd ht =>
                rw [ho] at h1; cases h1; rw [hl] at h2; cases h2; rw [hr] at h3; cases h3
                obtain ⟨e1, -⟩ := drains_data hs hn hi hd
                rw [treat_flat, e1] at ht
                dsimp only
                rw [ht]
                rfl
              | done h1 h2 h3 hd ht =>
                rw [ho] at h1; cases h1; rw [hl] at h2; cases h2; rw [hr] at h3; cases h3
                obtain ⟨e1, e2⟩ := drains_data hs hn hi hd
                rw [treat_flat, e1] at ht
                dsimp only
                rw [ht]
                exact ⟨rfl, e2, rfl⟩

/-- Calls one after the other, without the iterator. -/
def acts : List Op → Obj → List (Ex F32) → Res ((Obj × List (Ex F32)) × List Ret)
  | [], o, pend => .ok ((o, pend), [])
  | op :: ops, o, pend =>
    (act pw powf ρ d W op o pend).bind fun r =>
      (acts ops r.1.1 r.1.2).bind fun q => .ok (q.1, r.2 :: q.2)

/-- The two outcomes of a session belong to each other. -/
def MatchedAll (size num : Nat) : Res (Py × List Ret) → Res ((Obj × List (Ex F32)) × List Ret) → Prop
  | .ub k, .ub k' => k = k'
  | .ok (s, r), .ok ((o, pend), r') => s.obj = o ∧ Waits size num s.iter pend ∧ r = r'
  | _, _ => False

theorem session_acts {size num : Nat} (hs : 1 ≤ size) (hn : 1 ≤ num) (ops : List Op) {s : Py} {pend : List (Ex F32)}
    (hw : Waits size num s.iter pend) :
    (∃ e, Session pw powf ρ d W s ops e) ∧
      ∀ e, Session pw powf ρ d W s ops e → MatchedAll size num e (acts pw powf ρ d W ops s.obj pend) := by
  induction ops generalizing s pend with
  | nil =>
    refine ⟨⟨_, .nil⟩, fun e he => ?_⟩
    cases he
    exact ⟨rfl, hw, rfl⟩
  | cons op ops ih =>
    obtain ⟨⟨e, he⟩, hall⟩ := call_act pw powf ρ d W hs hn hw op
    constructor
    · have hm := hall e he
      cases e with
      | ub k => exact ⟨_, .stop he⟩
      | ok p =>
        obtain ⟨s', r⟩ := p
        cases ha : act pw powf ρ d W op s.obj pend with
        | ub k => rw [ha] at hm; exact hm.elim
        | ok q =>
          rw [ha] at hm
          obtain ⟨⟨o, pend'⟩, r'⟩ := q
          obtain ⟨e', he'⟩ := (ih hm.2.1).1
          exact ⟨_, .cons he he'⟩
    · intro e' he'
      cases he' with
      | stop h =>
        have hm := hall _ h
        unfold acts
        cases ha : act pw powf ρ d W op s.obj pend with
        | ub k => rw [ha] at hm; exact hm
        | ok q => rw [ha] at hm; exact hm.elim
      | @cons _ s' _ _ r e1 h ht =>
        have hm := hall _ h
        unfold acts
        cases ha : act pw powf ρ d W op s.obj pend with
        | ub k => rw [ha] at hm; exact hm.elim
        | ok q =>
          rw [ha] at hm
          obtain ⟨⟨o, pend'⟩, r'⟩ := q
          obtain ⟨rfl, h2, rfl⟩ := hm
          have hr := (ih h2).2 _ ht
          simp only [Res.bind]
          cases hb : acts pw powf ρ d W ops s'.obj pend' with
          | ub k =>
            rw [hb] at hr
            cases e1 with
            | ub k' => exact hr
            | ok p => exact hr.elim
          | ok q =>
            rw [hb] at hr
            cases e1 with
            | ub k' => exact hr.elim
            | ok p =>
              obtain ⟨s2, rs⟩ := p
              obtain ⟨⟨o2, p2⟩, rs'⟩ := q
              obtain ⟨h5, h6, rfl⟩ := hr
              exact ⟨h5, h6, rfl⟩

end Sol.PySol
