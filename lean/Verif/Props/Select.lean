import Verif.Proofs.Select
import Verif.Props.Online
/-! C37, C55: the budget of the feature-selection algorithms. -/

set_option linter.unusedSectionVars false

namespace Sol.Props

open Sol.Online Sol.Olm Sol.Select Sol.Sparse Sol.Loss Sol.Spec

section
variable {α A : Type} [Zero α] [One α] [Add α] [Sub α] [Mul α] [Div α] [Neg α] [FCmp α] [IntCast α] [FFun α] [FSqrt α]

theorem budget_of_inside {B d : Nat} {h : Heap.State} {ws : List (List α)} (hh : HeapFit B d h)
    (hi : Inside ws (· ∈ h.pos2id)) : WithinBudget B ws := by
  intro l hl ha
  have hsub : ∀ i ∈ l.map (· - 1), i ∈ h.pos2id := by
    intro i hi'
    obtain ⟨j, hj, rfl⟩ := List.mem_map.1 hi'
    obtain ⟨h1, w, hw, a, h2, h3⟩ := ha j hj
    exact hi w hw (j - 1) a (by rw [Nat.sub_add_cancel h1]; exact h2) h3
  have hnd : (l.map (· - 1)).Nodup := by
    refine hl.map_on fun i hi' j hj e => ?_
    have := (ha i hi').1
    have := (ha j hj).1
    omega
  have := (hnd.subperm hsub).length_le
  rw [List.length_map, hh.wf.1.lenK, hh.K] at this
  exact this

/-- A model whose features all have weight zero. -/
def Bare (ws : List (List α)) : Prop := ∀ i, ¬ Active ws i

theorem inside_of_bare {ws : List (List α)} (h : Bare ws) : Inside ws (fun _ => False) :=
  fun w hw i a hi ha => h (i + 1) ⟨by omega, w, hw, a, hi, ha⟩

theorem clf_pos {c : Cfg α} (hk : Matches c.kind c.clf) : 1 ≤ c.clf := by
  unfold Matches at hk
  split at hk <;> omega

/-- What holds after `BeginTrain` holds for the whole session. -/
theorem session_keeps {c : Cfg α} {G : Alg α A} {inv : Nat → List (List α) → A → Prop} {M : SVec α → St α A → Prop}
    (hG : Able c G Proper (FitW c inv) M) (hk : Matches c.kind c.clf)
    (hend : ∀ s, FitW c inv s → Gives (G.endTrain c s) (FitW c inv)) {s s' : St α A} (hs : FitW c inv s)
    (h : Session G c s s') : FitW c inv s' := by
  induction h with
  | start => exact hs
  | learn e r _ hx hl ht ih =>
    obtain ⟨ev, s', h1, h2, -⟩ := hG.happens hk _ ih e r hx hl
    obtain ⟨_, _, _, _, _, _, _, _, h3⟩ := h1
    rw [ht] at h3
    obtain rfl := Res.ok.inj h3
    exact h2
  | mark b _ ih => exact ⟨ih.dim, ih.dimMax, ih.w, ih.g, ih.alg⟩
  | close _ he ih =>
    obtain ⟨s2, h1, h2⟩ := hend _ ih
    rw [he] at h1
    obtain rfl := Res.ok.inj h1
    exact h2

/-- Whatever may follow on a state succeeds: an example, or an evaluation. -/
def Continues (G : Alg α A) (c : Cfg α) (s : St α A) : Prop :=
  (∀ e r, Proper e.x → LabelOk c.clf e.label → ∃ s', trainOne G c s e r = .ok s') ∧ ∃ s', G.endTrain c s = .ok s'

theorem continues_of {c : Cfg α} {G : Alg α A} {inv : Nat → List (List α) → A → Prop} {M : SVec α → St α A → Prop}
    (hG : Able c G Proper (FitW c inv) M) (hk : Matches c.kind c.clf)
    (hend : ∀ s, FitW c inv s → Gives (G.endTrain c s) (FitW c inv)) {s : St α A} (hs : FitW c inv s) :
    Continues G c s := by
  refine ⟨fun e r hx hl => ?_, ?_⟩
  · obtain ⟨_, s', h1, -⟩ := hG.happens hk s hs e r hx hl
    obtain ⟨_, _, _, _, _, _, _, _, h3⟩ := h1
    exact ⟨s', h3⟩
  · obtain ⟨s', h1, -⟩ := hend s hs
    exact ⟨s', h1⟩

theorem finish_keeps {c : Cfg α} {inv : Nat → List (List α) → A → Prop} (s : St α A) (h : FitW c inv s) :
    Gives (finish c s) (FitW c inv) :=
  .ok ⟨h.dim, h.dimMax, h.w, h.g, h.alg⟩

/-- C37 for PET: `BeginTrain` on a blank model succeeds, and during the whole session at most `B` features have a weight
    and no example or evaluation fails. -/
theorem C37_pet (c : Cfg α) (hk : Matches c.kind c.clf) (eta0 : α) (pow : Int → α) (B : Nat) (s : St α (PetSt α))
    (hs : Ready c B s) (h0 : Bare s.w) :
    ∃ s0, petBegin (pet eta0 pow B) B s = .ok s0 ∧
      ∀ s', Session (pet eta0 pow B) c s0 s' → WithinBudget B s'.w ∧ Continues (pet eta0 pow B) c s' := by
  have hc := clf_pos hk
  obtain ⟨s0, h1, h2, h3, h4, -⟩ := gives_petBegin (G := pet eta0 pow B) rfl hs (inside_of_bare h0)
  refine ⟨s0, h1, fun s' h => ?_⟩
  have hA := able_pet c hc eta0 pow hs.budget.1
  have := session_keeps hA hk finish_keeps ⟨h2.dim, h2.dimMax, h2.w, h2.g, h3, h4.mono fun _ h => h.elim⟩ h
  exact ⟨budget_of_inside this.alg.1.2 this.alg.2, continues_of hA hk finish_keeps this⟩

/-- C37 for FOFS. -/
theorem C37_fofs (c : Cfg α) (hk : Matches c.kind c.clf) (normCoeff momentum : α) (B : Nat) (s : St α (PetSt α))
    (hs : Ready c B s) (h0 : Bare s.w) :
    ∃ s0, petBegin (fofs normCoeff momentum B) B s = .ok s0 ∧
      ∀ s', Session (fofs normCoeff momentum B) c s0 s' →
        WithinBudget B s'.w ∧ Continues (fofs normCoeff momentum B) c s' := by
  have hc := clf_pos hk
  obtain ⟨s0, h1, h2, h3, h4, -⟩ := gives_petBegin (G := fofs normCoeff momentum B) rfl hs (inside_of_bare h0)
  refine ⟨s0, h1, fun s' h => ?_⟩
  have hA := able_fofs c hc normCoeff momentum hs.budget.1
  have := session_keeps hA hk finish_keeps ⟨h2.dim, h2.dimMax, h2.w, h2.g, h3, h4.mono fun _ h => h.elim⟩ h
  exact ⟨budget_of_inside this.alg.1.2 this.alg.2, continues_of hA hk finish_keeps this⟩

/-- C37 for SOFS. -/
theorem C37_sofs (c : Cfg α) (hk : Matches c.kind c.clf) (r : α) (B : Nat) (s : St α (OfsSt α))
    (hs : Ready c B s) (hv : Vecs c.clf s.dim s.alg.sig) (h0 : Bare s.w) :
    ∃ s0, ofsBegin more (sofs r B c.clf) c B s = .ok s0 ∧
      ∀ s', Session (sofs r B c.clf) c s0 s' → WithinBudget B s'.w ∧ Continues (sofs r B c.clf) c s' := by
  have hc := clf_pos hk
  obtain ⟨s0, h1, h2, h3, h4, -⟩ := gives_ofsBegin more hc (G := sofs r B c.clf) rfl hs hv (inside_of_bare h0)
  refine ⟨s0, h1, fun s' h => ?_⟩
  have hA := able_sofs c hc r hs.budget.1
  have := session_keeps hA hk finish_keeps ⟨h2.dim, h2.dimMax, h2.w, h2.g, h3, h4.mono fun _ h => h.elim⟩ h
  exact ⟨budget_of_inside this.alg.1.heap this.alg.2, continues_of hA hk finish_keeps this⟩

/-- C37 for AdaFOBOS-OFS. -/
theorem C37_adaFobosOfs (c : Cfg α) (hk : Matches c.kind c.clf) (delta : α) (B : Nat) (s : St α (OfsSt α))
    (hs : Ready c B s) (hv : Vecs c.clf s.dim s.alg.sig) (h0 : Bare s.w) :
    ∃ s0, ofsBegin less (adaFobosOfs delta B c.clf) c B s = .ok s0 ∧
      ∀ s', Session (adaFobosOfs delta B c.clf) c s0 s' →
        WithinBudget B s'.w ∧ Continues (adaFobosOfs delta B c.clf) c s' := by
  have hc := clf_pos hk
  obtain ⟨s0, h1, h2, h3, h4, -⟩ := gives_ofsBegin less hc (G := adaFobosOfs delta B c.clf) rfl hs hv (inside_of_bare h0)
  refine ⟨s0, h1, fun s' h => ?_⟩
  have hA := able_adaFobosOfs c hc delta hs.budget.1
  have := session_keeps hA hk finish_keeps ⟨h2.dim, h2.dimMax, h2.w, h2.g, h3, h4.mono fun _ h => h.elim⟩ h
  exact ⟨budget_of_inside this.alg.1.heap this.alg.2, continues_of hA hk finish_keeps this⟩

/-- C37 for AdaRDA-OFS, whose `EndTrain` computes all weights anew. -/
theorem C37_adaRdaOfs (c : Cfg α) (hk : Matches c.kind c.clf) (delta : α) (B : Nat) (s : St α (RdaOfsSt α))
    (hs : Ready c B s) (hv : Vecs c.clf s.dim s.alg.ofs.sig) (hu : Vecs c.clf s.dim s.alg.ut) (h0 : Bare s.w) :
    ∃ s0, adaRdaOfsBegin (adaRdaOfs delta B c.clf) c B s = .ok s0 ∧
      ∀ s', Session (adaRdaOfs delta B c.clf) c s0 s' →
        WithinBudget B s'.w ∧ Continues (adaRdaOfs delta B c.clf) c s' := by
  have hc := clf_pos hk
  obtain ⟨s0, h1, h2, h3, h5, h4, -⟩ := gives_adaRdaOfsBegin hc (delta := delta) hs hv hu (inside_of_bare h0)
  refine ⟨s0, h1, fun s' h => ?_⟩
  have hA := able_adaRdaOfs c hc delta hs.budget.1
  have hE := fun s h => gives_adaRdaOfsEnd (c := c) hc hs.budget.1 (s := s) h
  have := session_keeps hA hk hE ⟨h2.dim, h2.dimMax, h2.w, h2.g, ⟨h3, h4.mono fun _ h => h.elim⟩, h5⟩ h
  exact ⟨budget_of_inside this.alg.1.1.heap this.alg.1.2, continues_of hA hk hE this⟩

/-! ### C55: a loaded model -/

/-- The state in which the update of an example takes place and its result. -/
theorem fired_update {c : Cfg α} {G : Alg α A} {X : SVec α → Prop} {F : St α A → Prop} {M : SVec α → St α A → Prop}
    (hG : Able c G X F M) (hk : Matches c.kind c.clf) (he : ∀ s x, G.endIter s x = .ok s) {s s' : St α A} (hs : F s)
    {e : Ex α} {r : α} {ev : Event} (hx : X e.x) (hl : LabelOk c.clf e.label) (hh : Happens G c s e r ev s')
    (hf : ev.fired = true) :
    ∃ s1 l s2, M e.x s1 ∧ Sparse.dim e.x ≤ s1.dim ∧ G.update c s1 e.x l = .ok s2 ∧
      (s' = s2 ∨ s' = { s2 with err := s2.err + 1 }) := by
  have hc := clf_pos hk
  obtain ⟨s0, s1, p, h0, h1, h2, h3, h4, h5⟩ := hh
  obtain ⟨s0', h0', hf0, hs0⟩ := hG.start s e.x hs hx
  rw [h0] at h0'
  obtain rfl := Res.ok.inj h0'
  have hd0 : Sparse.dim e.x ≤ s0.dim := by rw [hs0.dim, enter_dim]; omega
  obtain ⟨s1', h1', hf1, hs1⟩ := hG.prep s0 e.x hf0 hx hd0
  rw [h1] at h1'
  obtain rfl := Res.ok.inj h1'
  have hd1 : Sparse.dim e.x ≤ s1.dim := by rw [hs1.dim]; exact hd0
  obtain ⟨hsk, l, g, m, v, h6, h7⟩ := h4.1 hf
  obtain ⟨⟨p', pr'⟩, hp1, hp2, hp3⟩ := gives_predict (s := s1) hc (hG.asc _ hx) (hG.shape _ _ hf1).1 (hG.shape _ _ hf1).2.1
  rw [h2] at hp1
  obtain ⟨rfl, rfl⟩ := Prod.mk.inj (Res.ok.inj hp1)
  obtain ⟨⟨l', g', m', v'⟩, h6', hg⟩ := gives_gradient (k := c.kind) (label := e.label) (pl := ev.pred) (p := p) (g := s1.g)
      (costMargin c e.label s1.margin) (G.handler c s1 e.x) s1.vi hk hl hp2 hp3 (hG.shape _ _ hf1).2.2
      (fun f hf g hg => hG.handler s1 e.x hf1 hx hd1 f hf g hg)
  rw [h6] at h6'
  obtain ⟨rfl, rfl, rfl, rfl⟩ : l = l' ∧ g = g' ∧ m = m' ∧ v = v' := by simpa using h6'
  have hfire : fires c ev.pred e.label l = true := by
    unfold fires
    split
    · rename_i hz; simpa [hz] using h7
    · rename_i hz; simpa [hz] using h7
  simp only [trainOne, iterate, h0, h1, h2, h3, hsk, Res.bind_ok, Bool.false_eq_true, if_false, learn, h6, maybeUpdate, hfire,
    if_true] at h5
  have hM := hG.scored _ _ g m v (s1.upd + 1) hf1 hg
  obtain ⟨s2, hu, -⟩ := hG.update _ e.x l hM hx hd1
  simp only [hu, Res.bind_ok, he, Res.ok.injEq] at h5
  refine ⟨_, l, s2, hM, hd1, hu, ?_⟩
  rw [← h5]
  split
  · exact .inr rfl
  · exact .inl rfl

/-- One update is enough, and the budget then stays. -/
theorem trace_budget {c : Cfg α} {G : Alg α (PetSt α)} {B : Nat} (hk : Matches c.kind c.clf)
    (hl : Able c G Proper (FitW c (petLoose B)) (fun _ => FitW c (petLoose B)))
    (ht : Able c G Proper (FitW c (petKept B)) (fun _ => FitW c (petKept B)))
    (he : ∀ s x, G.endIter s x = .ok s)
    (hu : ∀ s x l, FitW c (petLoose B) s → Proper x → Gives (G.update c s x l) (fun s' => FitW c (petKept B) s' ∧ Same s s'))
    {s s' : St α (PetSt α)} {l : List (Ex α × α)} {evs : List Event} (h : Trace G c s l evs s')
    (hx : ∀ p ∈ l, Proper p.1.x ∧ LabelOk c.clf p.1.label) (hs : FitW c (petLoose B) s)
    (hev : (∃ ev ∈ evs, ev.fired = true) ∨ FitW c (petKept B) s) : FitW c (petKept B) s' := by
  induction h with
  | nil s =>
    rcases hev with ⟨_, h, _⟩ | h
    · simp at h
    · exact h
  | cons h1 _ ih =>
    rename_i e r ev _ _ _
    obtain ⟨a, b⟩ := hx _ List.mem_cons_self
    simp only at a b
    have one : ∀ {F : St α (PetSt α) → Prop}, Able c G Proper F (fun _ => F) → F _ → F _ := fun hG hF => by
      obtain ⟨_, s1', q1, q2, -⟩ := hG.happens hk _ hF e r a b
      obtain ⟨_, _, _, _, _, _, _, _, q3⟩ := q1
      obtain ⟨_, _, _, _, _, _, _, _, q4⟩ := h1
      rw [q4] at q3
      obtain rfl := Res.ok.inj q3
      exact q2
    refine ih (fun p hp => hx p (List.mem_cons_of_mem _ hp)) (one hl hs) ?_
    rcases hev with ⟨ev', hm, hf⟩ | h
    · rcases List.mem_cons.1 hm with rfl | hm
      · right
        obtain ⟨s1, l, s2, q1, -, q3, q4⟩ := fired_update hl hk he hs a b h1 hf
        obtain ⟨s2', q5, q6, -⟩ := hu s1 e.x l q1 a
        rw [q3] at q5
        obtain rfl := Res.ok.inj q5
        rcases q4 with rfl | rfl
        · exact q6
        · exact ⟨q6.dim, q6.dimMax, q6.w, q6.g, q6.alg⟩
      · exact .inl ⟨ev', hm, hf⟩
    · exact .inr (one ht h)

/-- C55 for PET: from any model (loaded, with any weights) the budget holds as soon as one example led to an update. -/
theorem C55_pet_partial (c : Cfg α) (hk : Matches c.kind c.clf) (eta0 : α) (pow : Int → α) (B : Nat) (s : St α (PetSt α))
    (hs : Ready c B s) (l : List (Ex α × α)) (hl : ∀ p ∈ l, Proper p.1.x ∧ LabelOk c.clf p.1.label) :
    ∃ s0 evs s', petBegin (pet eta0 pow B) B s = .ok s0 ∧ Trace (pet eta0 pow B) c s0 l evs s' ∧
      ((∃ ev ∈ evs, ev.fired = true) → WithinBudget B s'.w) := by
  have hc := clf_pos hk
  obtain ⟨s0, h1, h2, h3, -⟩ := gives_petBegin (G := pet eta0 pow B) rfl hs (S := fun _ => True) (fun _ _ _ _ _ _ => trivial)
  have hl1 := able_pet_loose c hc eta0 pow hs.budget.1
  have h0 : FitW c (petLoose B) s0 := ⟨h2.dim, h2.dimMax, h2.w, h2.g, h3⟩
  obtain ⟨evs, s', ht, -⟩ := hl1.trace hk l hl s0 h0
  refine ⟨s0, evs, s', h1, ht, fun hev => ?_⟩
  have := trace_budget hk hl1 (able_pet c hc eta0 pow hs.budget.1) (fun _ _ => rfl)
    (fun s x l h hx => gives_pet_update hc eta0 pow hs.budget.1 l h hx) ht hl h0 (.inl hev)
  exact budget_of_inside this.alg.1.2 this.alg.2

/-- C55 for FOFS. -/
theorem C55_fofs_partial (c : Cfg α) (hk : Matches c.kind c.clf) (normCoeff momentum : α) (B : Nat) (s : St α (PetSt α))
    (hs : Ready c B s) (l : List (Ex α × α)) (hl : ∀ p ∈ l, Proper p.1.x ∧ LabelOk c.clf p.1.label) :
    ∃ s0 evs s', petBegin (fofs normCoeff momentum B) B s = .ok s0 ∧ Trace (fofs normCoeff momentum B) c s0 l evs s' ∧
      ((∃ ev ∈ evs, ev.fired = true) → WithinBudget B s'.w) := by
  have hc := clf_pos hk
  obtain ⟨s0, h1, h2, h3, -⟩ := gives_petBegin (G := fofs normCoeff momentum B) rfl hs (S := fun _ => True)
    (fun _ _ _ _ _ _ => trivial)
  have hl1 := able_fofs_loose c hc normCoeff momentum hs.budget.1
  have h0 : FitW c (petLoose B) s0 := ⟨h2.dim, h2.dimMax, h2.w, h2.g, h3⟩
  obtain ⟨evs, s', ht, -⟩ := hl1.trace hk l hl s0 h0
  refine ⟨s0, evs, s', h1, ht, fun hev => ?_⟩
  have := trace_budget hk hl1 (able_fofs c hc normCoeff momentum hs.budget.1) (fun _ _ => rfl)
    (fun s x l h hx => gives_fofs_update hc normCoeff momentum hs.budget.1 l h hx) ht hl h0 (.inl hev)
  exact budget_of_inside this.alg.1.2 this.alg.2

end

/-! ### Instances -/

/-- The own state of a new model. -/
def noPet : PetSt Rat := ⟨[0], ⟨0, 0, [], []⟩⟩
/-- The own state of a new model with one class, all second-order entries `a`. -/
def noOfs (a : Rat) : OfsSt Rat := ⟨[[a]], [], ⟨0, 0, [], []⟩⟩
def noOfs3 (a : Rat) : OfsSt Rat := ⟨[[a], [a], [a]], [], ⟨0, 0, [], []⟩⟩

/-- `BeginTrain`, then the examples, then `EndTrain`. -/
def whole {A : Type} (begin : St Rat A → Res (St Rat A)) (G : Alg Rat A) [FFun Rat] [FSqrt Rat] (c : Cfg Rat) (s : St Rat A)
    (l : List (Ex Rat × Rat)) : Res (List (List Rat) × List (List Rat)) := do
  let s ← begin s
  let s ← trainLoop G c s l
  let s' ← G.endTrain c s
  .ok (s.w, s'.w)

/-- Features 1, 2 and 4. -/
def stream4 : List (Ex Rat × Rat) := [(⟨1, [(1, 1 / 2), (2, 1)]⟩, 0), (⟨-1, [(4, 2)]⟩, 0), (⟨1, [(1, 1), (4, 1)]⟩, 0)]

/-- The same for three classes. -/
def stream5 : List (Ex Rat × Rat) :=
  [(⟨2, [(1, 1 / 2), (2, 1)]⟩, 0), (⟨1, [(4, 2)]⟩, 0), (⟨0, [(1, 1), (4, 1)]⟩, 0), (⟨1, [(2, 3), (4, 1)]⟩, 0)]

theorem C37_hypotheses :
    letI : FFun Rat := unusedFun
    letI : FSqrt Rat := ⟨fun a => a⟩
    Matches (cfg1 : Cfg Rat).kind 1 ∧ Matches (cfg3 : Cfg Rat).kind 3 ∧
    Ready (cfg1 : Cfg Rat) 1 (model1 noPet) ∧ Bare (model1 noPet : St Rat _).w ∧
    Ready (cfg3 : Cfg Rat) 2 (model3 (noOfs3 1)) ∧ Bare (model3 (noOfs3 1) : St Rat _).w ∧ Vecs 3 1 (noOfs3 1).sig ∧
    (∀ p ∈ stream4, Proper p.1.x ∧ LabelOk 1 p.1.label) ∧ ∀ p ∈ stream5, Proper p.1.x ∧ LabelOk 3 p.1.label := by
  have hb : ∀ n i, ¬ Active (List.replicate n [(0 : Rat)]) i := by
    rintro n i ⟨h1, w, hw, a, h2, h3⟩
    obtain rfl := List.eq_of_mem_replicate hw
    have := (List.getElem?_eq_some_iff.1 h2).1
    simp at this
    omega
  refine ⟨rfl, by simp [Matches, cfg3], ⟨by decide, by decide, ⟨rfl, by simp [model1]⟩, rfl, by decide⟩, hb 1,
    ⟨by decide, by decide, ⟨rfl, by simp [model3]⟩, rfl, by decide⟩, hb 3, ⟨rfl, by simp [noOfs3]⟩, ?_, ?_⟩
  · intro p hp
    simp only [stream4, List.mem_cons, List.not_mem_nil, or_false] at hp
    rcases hp with rfl | rfl | rfl <;> simp [Proper, Good, Ascending, LabelOk]
  · intro p hp
    simp only [stream5, List.mem_cons, List.not_mem_nil, or_false] at hp
    rcases hp with rfl | rfl | rfl | rfl <;> simp [Proper, Good, Ascending, LabelOk]

/-- PET and FOFS: with budget 3 all three features keep their weight, with smaller budgets only some. -/
theorem C37_instance :
    letI : FFun Rat := unusedFun
    letI : FSqrt Rat := ⟨fun a => a⟩
    (Yields (whole (petBegin (pet 1 (fun _ => 1) 3) 3) (pet 1 (fun _ => 1) 3) cfg1 (model1 noPet) stream4) fun r =>
      r.1 = [[0, 3 / 2, 1, 0, -1]]) ∧
    (Yields (whole (petBegin (pet 1 (fun _ => 1) 1) 1) (pet 1 (fun _ => 1) 1) cfg1 (model1 noPet) stream4) fun r =>
      r.1 = [[0, 0, 0, 0, -1]]) ∧
    (Yields (whole (petBegin (pet 1 (fun _ => 1) 1) 1) (pet 1 (fun _ => 1) 1) cfg3 (model3 noPet) stream5) fun r =>
      r.1 = [[0, 0, 0, 0, -1], [0, 0, 0, 0, 1], [0, 0, 0, 0, 0]]) ∧
    (Yields (whole (petBegin (fofs 9 1 2) 2) (fofs 9 1 2) cfg1 (model1 noPet) stream4) fun r =>
      r.1 = [[0, 0, 1, 0, -1]]) := by
  decide +kernel

/-- The algorithms with a second vector per class: three features are seen, two keep their weight. -/
theorem C37_instance_second_order :
    letI : FFun Rat := unusedFun
    letI : FSqrt Rat := ⟨fun a => a⟩
    (Yields (whole (ofsBegin more (sofs 1 2 1) cfg1 2) (sofs 1 2 1) cfg1 (model1 (noOfs 1)) stream4) fun r =>
      r.1 = [[0, 14 / 25, 0, 0, -13 / 50]]) ∧
    (Yields (whole (ofsBegin less (adaFobosOfs 1 2 1) cfg1 2) (adaFobosOfs 1 2 1) cfg1 (model1 (noOfs 1)) stream4) fun r =>
      r.1 = [[0, 16 / 33, 0, 0, -31 / 90]]) ∧
    (Yields (whole (adaRdaOfsBegin (adaRdaOfs 1 2 1) cfg1 2) (adaRdaOfs 1 2 1) cfg1 (model1 ⟨noOfs 1, [[0]]⟩) stream4) fun r =>
      r = ([[0, 8 / 11, 0, 0, -1 / 18]], [[0, 8 / 11, 0, 0, -1 / 18]])) ∧
    (Yields (whole (ofsBegin more (sofs 1 2 3) cfg3 2) (sofs 1 2 3) cfg3 (model3 (noOfs3 1)) stream5) fun r =>
      r.1 = [[0, 13 / 36, 0, 0, -19 / 144], [0, -65 / 144, 0, 0, 19 / 144], [0, 0, 0, 0, 0]]) ∧
    (Yields (whole (ofsBegin less (adaFobosOfs 1 2 3) cfg3 2) (adaFobosOfs 1 2 3) cfg3 (model3 (noOfs3 1)) stream5) fun r =>
      r.1 = [[0, 16 / 33, 0, 0, -31 / 90], [0, -1 / 2, 0, 0, 31 / 90], [0, 0, 0, 0, 0]]) ∧
    (Yields (whole (adaRdaOfsBegin (adaRdaOfs 1 2 3) cfg3 2) (adaRdaOfs 1 2 3) cfg3
        (model3 ⟨noOfs3 1, [[0], [0], [0]]⟩) stream5) fun r =>
      r = ([[0, 8 / 33, 0, 0, -1 / 18], [0, -1 / 2, 0, 0, 1 / 18], [0, 0, 0, 0, 0]],
        [[0, 8 / 33, 0, 0, -1 / 18], [0, -1 / 2, 0, 0, 1 / 18], [0, 2 / 5, 0, 0, 0]])) := by
  decide +kernel

/-- C55, an instance: a loaded PET model with three features and budget 1; one update brings it within the budget. -/
theorem C55_instance :
    letI : FFun Rat := unusedFun
    letI : FSqrt Rat := ⟨fun a => a⟩
    let s : St Rat (PetSt Rat) := { model1 noPet with dim := 4, w := [[0, 1, 2, 3]] }
    Ready (cfg1 : Cfg Rat) 1 s ∧
    Yields (whole (petBegin (pet 1 (fun _ => 1) 1) 1) (pet 1 (fun _ => 1) 1) cfg1 s [(⟨-1, [(1, 1)]⟩, 0)]) fun r =>
      r.1 = [[0, 0, 0, 3]] := by
  refine ⟨⟨by decide, by decide, ⟨rfl, by simp⟩, rfl, by decide⟩, ?_⟩
  decide +kernel

/-- C55 fails for SOFS and AdaFOBOS-OFS: a loaded model with one weighted feature and budget 1 learns from an example with
    another feature; two features have a weight, and the heap of `BeginTrain` never looks at the loaded one. -/
theorem C55_is_violated :
    letI : FFun Rat := unusedFun
    letI : FSqrt Rat := ⟨fun a => a⟩
    let s : Rat → St Rat (OfsSt Rat) := fun a =>
      { model1 ⟨[[1, 1, a]], [], ⟨0, 0, [], []⟩⟩ with dim := 3, w := [[0, 0, 1]] }
    (Yields (whole (ofsBegin more (sofs 1 1 1) cfg1 1) (sofs 1 1 1) cfg1 (s (1 / 2)) [(⟨-1, [(1, 1)]⟩, 0)]) fun r =>
      r.1 = [[0, -1 / 2, 1]]) ∧
    (Yields (whole (ofsBegin less (adaFobosOfs 1 1 1) cfg1 1) (adaFobosOfs 1 1 1) cfg1 (s 2) [(⟨-1, [(1, 1)]⟩, 0)]) fun r =>
      r.1 = [[0, -1 / 2, 1]]) ∧ ¬ WithinBudget 1 [[(0 : Rat), -1 / 2, 1]] := by
  refine ⟨by decide +kernel, by decide +kernel, fun h => ?_⟩
  have := h [1, 2] (by decide) (by
    intro i hi
    simp only [List.mem_cons, List.not_mem_nil, or_false] at hi
    rcases hi with rfl | rfl
    · exact ⟨by omega, _, List.mem_cons_self, _, rfl, by norm_num⟩
    · exact ⟨by omega, _, List.mem_cons_self, _, rfl, by norm_num⟩)
  simp at this

end Sol.Props
