import Verif.Props.Select
/-! C29, C54 and C55 for the feature-selection algorithms, from any model (also a loaded one). -/

set_option linter.unusedSectionVars false

namespace Sol.Props

open Sol.Online Sol.Olm Sol.Select Sol.Sparse Sol.Loss Sol.Spec

section
variable {α A : Type} [Zero α] [One α] [Add α] [Sub α] [Mul α] [Div α] [Neg α] [FCmp α] [IntCast α] [FFun α] [FSqrt α]

/-- In every state of a session all weight vectors have the model dimension, training on any further examples and evaluation on any data succeed, leave the session going, and
    training keeps exact books. -/
def SafeSession (G : Alg α A) (c : Cfg α) (s0 : St α A) : Prop :=
  ∀ s, Session G c s0 s → 0 < s.dim ∧ Vecs c.clf s.dim s.w ∧
    (∀ l : List (Ex α × α), (∀ p ∈ l, Proper p.1.x ∧ LabelOk c.clf p.1.label) →
      ∃ evs s', Trace G c s l evs s' ∧
        train G c s l = .ok ({ s' with fresh := true }, ((s'.err : Int) : α) / ((s'.data : Int) : α)) ∧
        Session G c s0 { s' with fresh := true } ∧ evs.length = l.length ∧ s'.data = s.data + l.length ∧
        s'.t = s.t + (evs.countP fun ev => !ev.skip) ∧ s'.upd = s.upd + (evs.countP fun ev => ev.fired) ∧
        s'.err = s.err + wrong l evs) ∧
    ∀ m : List (Ex α), (∀ e ∈ m, Ascending e.x) → ∃ s' r, test G c s m = .ok (s', r) ∧ Session G c s0 s'

/-- Training on a list of examples continues the session. -/
theorem session_trainLoop {G : Alg α A} {c : Cfg α} {s0 : St α A} (l : List (Ex α × α))
    (hl : ∀ p ∈ l, Proper p.1.x ∧ LabelOk c.clf p.1.label) (s s' : St α A) (h : Session G c s0 s)
    (ht : trainLoop G c s l = .ok s') : Session G c s0 s' := by
  induction l generalizing s with
  | nil => rw [← Res.ok.inj ht]; exact h
  | cons q l ih =>
    obtain ⟨e, r⟩ := q
    simp only [trainLoop, Res.bind_eq_ok] at ht
    obtain ⟨s1, h1, h2⟩ := ht
    have := hl (e, r) List.mem_cons_self
    exact ih (fun p hp => hl p (List.mem_cons_of_mem _ hp)) s1 (.learn e r h this.1 this.2 h1) h2

theorem safeSession_of {c : Cfg α} {G : Alg α A} {inv : Nat → List (List α) → A → Prop} {M : SVec α → St α A → Prop}
    (hG : Able c G Proper (FitW c inv) M) (hk : Matches c.kind c.clf)
    (hend : ∀ s, FitW c inv s → Gives (G.endTrain c s) (FitW c inv)) {s0 : St α A} (h0 : FitW c inv s0) :
    SafeSession G c s0 := by
  intro s hs
  have hf := session_keeps hG hk hend h0 hs
  refine ⟨hf.dim, hf.w, fun l hl => ?_, fun m hm => ?_⟩
  · obtain ⟨evs, s', h1, h2, -, h3, -, h4, h5, h6, h7⟩ := hG.trace hk l hl s hf
    exact ⟨evs, s', h1, by simp [train, h2], .mark true (session_trainLoop l hl s s' hs h2), h3, h5, h4, h6, h7⟩
  · by_cases hfr : s.fresh = true
    · obtain ⟨s2, h2, hf2⟩ := hend s hf
      obtain ⟨n, h3, -⟩ := gives_testLoop (clf_pos hk) hf2.dim hf2.w m hm 0
      exact ⟨s2, _, by simp only [test, if_pos hfr, h2, h3, Res.bind_ok]; rfl, .close hs h2⟩
    · obtain ⟨n, h3, -⟩ := gives_testLoop (clf_pos hk) hf.dim hf.w m hm 0
      exact ⟨s, _, by simp only [test, if_neg hfr, h3, Res.bind_ok]; rfl, hs⟩

/-- C54 (and C29) for PET, from any model with a budget. -/
theorem C54_pet_partial (c : Cfg α) (hk : Matches c.kind c.clf) (eta0 : α) (pow : Int → α) (B : Nat) (s : St α (PetSt α))
    (hs : Ready c B s) : ∃ s0, petBegin (pet eta0 pow B) B s = .ok s0 ∧ SafeSession (pet eta0 pow B) c s0 := by
  obtain ⟨s0, h1, h2, h3, -⟩ := gives_petBegin (G := pet eta0 pow B) rfl hs (S := fun _ => True) (fun _ _ _ _ _ _ => trivial)
  exact ⟨s0, h1, safeSession_of (able_pet_loose c (clf_pos hk) eta0 pow hs.budget.1) hk finish_keeps
    ⟨h2.dim, h2.dimMax, h2.w, h2.g, h3⟩⟩

/-- C54 (and C29) for FOFS. -/
theorem C54_fofs_partial (c : Cfg α) (hk : Matches c.kind c.clf) (normCoeff momentum : α) (B : Nat) (s : St α (PetSt α))
    (hs : Ready c B s) :
    ∃ s0, petBegin (fofs normCoeff momentum B) B s = .ok s0 ∧ SafeSession (fofs normCoeff momentum B) c s0 := by
  obtain ⟨s0, h1, h2, h3, -⟩ := gives_petBegin (G := fofs normCoeff momentum B) rfl hs (S := fun _ => True)
    (fun _ _ _ _ _ _ => trivial)
  exact ⟨s0, h1, safeSession_of (able_fofs_loose c (clf_pos hk) normCoeff momentum hs.budget.1) hk finish_keeps
    ⟨h2.dim, h2.dimMax, h2.w, h2.g, h3⟩⟩

/-- Among the features that had no weight in `ws`, at most `B` have one now. -/
def WithinBudgetBeyond (B : Nat) (ws ws' : List (List α)) : Prop :=
  ∀ l : List Nat, l.Nodup → (∀ i ∈ l, Active ws' i ∧ ¬ Active ws i) → l.length ≤ B

/-- The features with a weight, numbered as in the heap. -/
def loaded (ws : List (List α)) (j : Nat) : Prop := Active ws (j + 1)

theorem inside_loaded (ws : List (List α)) : Inside ws (loaded ws) :=
  fun w hw i a hi ha => ⟨by omega, w, hw, a, hi, ha⟩

theorem beyond_of_inside {B d : Nat} {h : Heap.State} {ws ws' : List (List α)} (hh : HeapFit B d h)
    (hi : Inside ws' (fun j => loaded ws j ∨ j ∈ h.pos2id)) : WithinBudgetBeyond B ws ws' := by
  intro l hl ha
  have hsub : ∀ i ∈ l.map (· - 1), i ∈ h.pos2id := by
    intro i hi'
    obtain ⟨j, hj, rfl⟩ := List.mem_map.1 hi'
    obtain ⟨⟨h1, w, hw, a, h2, h3⟩, h4⟩ := ha j hj
    refine (hi w hw (j - 1) a (by rw [Nat.sub_add_cancel h1]; exact h2) h3).resolve_left fun h => h4 ?_
    have : Active ws (j - 1 + 1) := h
    rwa [Nat.sub_add_cancel h1] at this
  have hnd : (l.map (· - 1)).Nodup := by
    refine hl.map_on fun i hi' j hj e => ?_
    have := (ha i hi').1.1
    have := (ha j hj).1.1
    omega
  have := (hnd.subperm hsub).length_le
  rw [List.length_map, hh.wf.1.lenK, hh.K] at this
  exact this

/-- C54 and C29 for SOFS, from any model; C55: at most `B` of the features without a weight in that model get one. -/
theorem C54_sofs_partial (c : Cfg α) (hk : Matches c.kind c.clf) (r : α) (B : Nat) (s : St α (OfsSt α))
    (hs : Ready c B s) (hv : Vecs c.clf s.dim s.alg.sig) :
    ∃ s0, ofsBegin more (sofs r B c.clf) c B s = .ok s0 ∧ SafeSession (sofs r B c.clf) c s0 ∧
      ∀ s', Session (sofs r B c.clf) c s0 s' → WithinBudgetBeyond B s.w s'.w := by
  have hc := clf_pos hk
  obtain ⟨s0, h1, h2, h3, h4, -⟩ := gives_ofsBegin more hc (G := sofs r B c.clf) rfl hs hv (inside_loaded s.w)
  have hA := able_sofs_held (loaded s.w) c hc r hs.budget.1
  have h0 : FitW c (ofsHeld (loaded s.w) c.clf B) s0 := ⟨h2.dim, h2.dimMax, h2.w, h2.g, h3, h4.mono fun _ h => .inl h⟩
  refine ⟨s0, h1, safeSession_of hA hk finish_keeps h0, fun s' h => ?_⟩
  have := session_keeps hA hk finish_keeps h0 h
  exact beyond_of_inside this.alg.1.heap this.alg.2

/-- The same for AdaFOBOS-OFS. -/
theorem C54_adaFobosOfs_partial (c : Cfg α) (hk : Matches c.kind c.clf) (delta : α) (B : Nat) (s : St α (OfsSt α))
    (hs : Ready c B s) (hv : Vecs c.clf s.dim s.alg.sig) :
    ∃ s0, ofsBegin less (adaFobosOfs delta B c.clf) c B s = .ok s0 ∧ SafeSession (adaFobosOfs delta B c.clf) c s0 ∧
      ∀ s', Session (adaFobosOfs delta B c.clf) c s0 s' → WithinBudgetBeyond B s.w s'.w := by
  have hc := clf_pos hk
  obtain ⟨s0, h1, h2, h3, h4, -⟩ := gives_ofsBegin less hc (G := adaFobosOfs delta B c.clf) rfl hs hv (inside_loaded s.w)
  have hA := able_adaFobosOfs_held (loaded s.w) c hc delta hs.budget.1
  have h0 : FitW c (ofsHeld (loaded s.w) c.clf B) s0 := ⟨h2.dim, h2.dimMax, h2.w, h2.g, h3, h4.mono fun _ h => .inl h⟩
  refine ⟨s0, h1, safeSession_of hA hk finish_keeps h0, fun s' h => ?_⟩
  have := session_keeps hA hk finish_keeps h0 h
  exact beyond_of_inside this.alg.1.heap this.alg.2

/-- The same for AdaRDA-OFS. -/
theorem C54_adaRdaOfs_partial (c : Cfg α) (hk : Matches c.kind c.clf) (delta : α) (B : Nat) (s : St α (RdaOfsSt α))
    (hs : Ready c B s) (hv : Vecs c.clf s.dim s.alg.ofs.sig) (hu : Vecs c.clf s.dim s.alg.ut) :
    ∃ s0, adaRdaOfsBegin (adaRdaOfs delta B c.clf) c B s = .ok s0 ∧ SafeSession (adaRdaOfs delta B c.clf) c s0 ∧
      ∀ s', Session (adaRdaOfs delta B c.clf) c s0 s' → WithinBudgetBeyond B s.w s'.w := by
  have hc := clf_pos hk
  obtain ⟨s0, h1, h2, h3, h5, h4, -⟩ := gives_adaRdaOfsBegin hc (delta := delta) hs hv hu (inside_loaded s.w)
  have hA := able_adaRdaOfs_held (loaded s.w) c hc delta hs.budget.1
  have hE := fun t h => gives_adaRdaOfsEnd_held (E := loaded s.w) (c := c) hc hs.budget.1 (s := t) h
  have h0 : FitW c (rdaHeld (loaded s.w) c.clf B) s0 :=
    ⟨h2.dim, h2.dimMax, h2.w, h2.g, ⟨h3, h4.mono fun _ h => .inl h⟩, h5⟩
  refine ⟨s0, h1, safeSession_of hA hk hE h0, fun s' h => ?_⟩
  have := session_keeps hA hk hE h0 h
  exact beyond_of_inside this.alg.1.1.heap this.alg.1.2

end

/-! ### Instances -/

/-- Loaded models with three weighted features and budget 1 or 2: one more feature gets a weight, the loaded ones may keep theirs. -/
theorem C54_selection_instance :
    letI : FFun Rat := unusedFun
    letI : FSqrt Rat := ⟨fun a => a⟩
    let s : St Rat (OfsSt Rat) := { model1 ⟨[[1, 1, 1, 1]], [], ⟨0, 0, [], []⟩⟩ with dim := 4, w := [[0, 1, 2, 3]] }
    let l : List (Ex Rat × Rat) := [(⟨-1, [(1, 1)]⟩, 0), (⟨-1, [(3, 1), (5, 2)]⟩, 0), (⟨-1, [(2, 1), (6, 1)]⟩, 0)]
    Matches (cfg1 : Cfg Rat).kind 1 ∧ Ready (cfg1 : Cfg Rat) 1 s ∧ Vecs 1 s.dim s.alg.sig ∧
    (∀ p ∈ l, Proper p.1.x ∧ LabelOk 1 p.1.label) ∧
    (Yields (whole (ofsBegin more (sofs 1 1 1) cfg1 1) (sofs 1 1 1) cfg1 s l) fun r =>
      r.1 = [[0, 0, 0, 0, 0, -4 / 3, 0]]) ∧
    (Yields (whole (ofsBegin less (adaFobosOfs 1 2 1) cfg1 2) (adaFobosOfs 1 2 1) cfg1 s l) fun r =>
      r.1 = [[0, 1 / 2, 0, 0, 0, -2 / 5, 0]]) := by
  refine ⟨rfl, ⟨by decide, by decide, ⟨rfl, by simp⟩, rfl, by decide⟩, ⟨rfl, by simp [model1]⟩, ?_, by decide +kernel, by decide +kernel⟩
  intro p hp
  simp only [List.mem_cons, List.not_mem_nil, or_false] at hp
  rcases hp with rfl | rfl | rfl <;> simp [Proper, Good, Ascending, LabelOk]

/-- C54 fails for SOFS, AdaFOBOS-OFS and AdaRDA-OFS on an example with feature 0: the feature before it is looked up. -/
theorem C54_zero_violated :
    letI : FFun Rat := unusedFun
    letI : FSqrt Rat := ⟨fun a => a⟩
    let l : List (Ex Rat × Rat) := [(⟨1, [(0, 1)]⟩, 0)]
    (∀ p ∈ l, Ascending p.1.x ∧ LabelOk 1 p.1.label) ∧
    (Fails (whole (ofsBegin more (sofs 1 1 1) cfg1 1) (sofs 1 1 1) cfg1 (model1 (noOfs 1)) l) .outOfBounds) ∧
    (Fails (whole (ofsBegin less (adaFobosOfs 1 1 1) cfg1 1) (adaFobosOfs 1 1 1) cfg1 (model1 (noOfs 1)) l) .outOfBounds) ∧
    (Fails (whole (adaRdaOfsBegin (adaRdaOfs 1 1 1) cfg1 1) (adaRdaOfs 1 1 1) cfg1 (model1 ⟨noOfs 1, [[0]]⟩) l) .outOfBounds) := by
  refine ⟨?_, by decide +kernel, by decide +kernel, by decide +kernel⟩
  intro p hp
  simp only [List.mem_cons, List.not_mem_nil, or_false] at hp
  subst hp
  simp [Ascending, LabelOk]

end Sol.Props
