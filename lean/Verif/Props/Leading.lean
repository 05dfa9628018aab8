import Verif.Proofs.LeadingPet
import Verif.Base.F32Sqrt
/-! C81: feature selection keeps the best features. -/

set_option linter.unusedSectionVars false

namespace Sol.Props

open Sol.Online Sol.Olm Sol.Select Sol.Sparse Sol.Loss Sol.Spec

/-! ### C81 -/

/-- The session of a feature-selection algorithm `G` from `s0`, beside the plain algorithm `H`: on every example `G` does what `H` does from
    the same state, and then deletes the weights of all features but the `B` best by `worth`. -/
def SelectsFrom {α A A' : Type} [Field α] [LinearOrder α] [FFun α] [FSqrt α] (G : Alg α A) (H : Alg α A') (c : Cfg α) (B : Nat) (own : A → A')
    (worth : St α A' → Nat → α) (s0 : St α A) : Prop :=
  ∀ s s' e rnd, Session G c s0 s → Proper e.x → LabelOk c.clf e.label → trainOne G c s e rnd = .ok s' →
    ∃ v kept, trainOne H c (withOwn s (own s.alg)) e rnd = .ok v ∧
      withOwn s' (own s'.alg) = { v with w := v.w.map (only kept) } ∧ Leading s'.dim B (worth v) kept

section
variable {α : Type} [Field α] [LinearOrder α] [IsStrictOrderedRing α] [FFun α] [FSqrt α]

theorem own_of_cut {A A' : Type} {own : A → A'} {heldOf : A → List Nat} {s : St α A} {v : St α A'} (h : Cut own heldOf s v) :
    own s.alg = v.alg := by
  unfold Cut withOwn at h
  cases v
  simp only [St.mk.injEq] at h
  exact h.2.2.2.2.2.2.2.2.2.2.2

/-- C81 for SOFS: AROW, keeping the features with the smallest variances. -/
theorem C81_sofs_partial (c : Cfg α) (hk : Matches c.kind c.clf) (r : α) (hr : 0 < r) (B : Nat) (s : St α (OfsSt α))
    (hs : Ready c B s) (hv : Vecs c.clf s.dim s.alg.sig) (h1 : ∀ v ∈ s.alg.sig, ∀ a ∈ v, a = 1) (h0 : Bare s.w) :
    ∃ s0, ofsBegin more (sofs r B c.clf) c B s = .ok s0 ∧
      SelectsFrom (sofs r B c.clf) (arow r) c B OfsSt.sig (fun v i => - total v.alg i) s0 := by
  have hc := clf_pos hk
  obtain ⟨s0, e0, hf⟩ := ofsBegin_top sense_more hc (G := sofs r B c.clf) rfl hs hv h1 (inside_of_bare h0)
  refine ⟨s0, e0, fun s1 s2 e rnd h hx hl ht => ?_⟩
  have hA := able_sofs_top c hc hr hs.budget.1
  have hf1 := session_keeps hA hk finish_keeps hf h
  have hf2 := session_keeps hA hk finish_keeps hf (.learn e rnd h hx hl ht)
  obtain ⟨v, q1, q2⟩ := sofs_beside hk hr hs.budget.1 hf1 hx hl ht
  refine ⟨v, _, q1, q2, ?_⟩
  dsimp only
  rw [← own_of_cut q2]
  exact leading_of weak_larger hf2.alg.1.1 hf2.alg.2 fun i j h => neg_le_neg (more_false.1 h)

/-- C81 for PET: OGD, keeping the features with the largest weights. -/
theorem C81_pet_partial (c : Cfg α) (hk : Matches c.kind c.clf) (eta0 : α) (pow : Int → α) (B : Nat) (s : St α (PetSt α))
    (hs : Ready c B s) (h0 : Bare s.w) :
    ∃ s0, petBegin (pet eta0 pow B) B s = .ok s0 ∧
      SelectsFrom (pet eta0 pow B) (ogd eta0 pow) c B (fun _ => ()) (fun v i => absTotal v.w i) s0 := by
  have hc := clf_pos hk
  obtain ⟨s0, e0, hf⟩ := petBegin_top (G := pet eta0 pow B) rfl hs (inside_of_bare h0)
  refine ⟨s0, e0, fun s1 s2 e rnd h hx hl ht => ?_⟩
  have hf1 := session_keeps (able_pet_top c hc eta0 pow hs.budget.1) hk finish_keeps hf h
  obtain ⟨v, q1, q2⟩ := pet_beside hk hs.budget.1 hf1 hx hl ht
  exact ⟨v, _, q1, q2.1, q2.2⟩

end

section
variable [FFun ℝ]

/-- C81 for AdaFOBOS-OFS: AdaFOBOS, keeping the features with the largest scales. -/
theorem C81_adaFobosOfs_partial (c : Cfg ℝ) (hk : Matches c.kind c.clf) (delta : ℝ) (B : Nat) (s : St ℝ (OfsSt ℝ))
    (hs : Ready c B s) (hv : Vecs c.clf s.dim s.alg.sig) (h1 : ∀ v ∈ s.alg.sig, ∀ a ∈ v, a = delta) (h0 : Bare s.w) :
    ∃ s0, ofsBegin less (adaFobosOfs delta B c.clf) c B s = .ok s0 ∧
      SelectsFrom (adaFobosOfs delta B c.clf) (adaFobos delta) c B OfsSt.sig (fun v i => total v.alg i) s0 := by
  have hc := clf_pos hk
  obtain ⟨s0, e0, hf⟩ := ofsBegin_top (sense_less delta) hc (G := adaFobosOfs delta B c.clf) rfl hs hv h1 (inside_of_bare h0)
  refine ⟨s0, e0, fun s1 s2 e rnd h hx hl ht => ?_⟩
  have hA := able_adaFobosOfs_top c hc delta hs.budget.1
  have hf1 := session_keeps hA hk finish_keeps hf h
  have hf2 := session_keeps hA hk finish_keeps hf (.learn e rnd h hx hl ht)
  obtain ⟨v, q1, q2⟩ := adaFobosOfs_beside hk delta hs.budget.1 hf1 hx hl ht
  refine ⟨v, _, q1, q2, ?_⟩
  dsimp only
  rw [← own_of_cut q2]
  exact leading_of weak_smaller hf2.alg.1.1 hf2.alg.2 fun i j h => less_false.1 h

/-- C81 for AdaRDA-OFS: AdaRDA, keeping the features with the largest scales; and its `EndTrain` is that of AdaRDA, keeping the same. -/
theorem C81_adaRdaOfs_partial (c : Cfg ℝ) (hk : Matches c.kind c.clf) (delta : ℝ) (B : Nat) (s : St ℝ (RdaOfsSt ℝ))
    (hs : Ready c B s) (hv : Vecs c.clf s.dim s.alg.ofs.sig) (h1 : ∀ v ∈ s.alg.ofs.sig, ∀ a ∈ v, a = delta)
    (hu : Vecs c.clf s.dim s.alg.ut) (h0 : Bare s.w) :
    ∃ s0, adaRdaOfsBegin (adaRdaOfs delta B c.clf) c B s = .ok s0 ∧
      SelectsFrom (adaRdaOfs delta B c.clf) (adaRda delta) c B (fun a => ⟨a.ofs.sig, a.ut⟩) (fun v i => total v.alg.H i) s0 ∧
      ∀ s1 s2, Session (adaRdaOfs delta B c.clf) c s0 s1 → (adaRdaOfs delta B c.clf).endTrain c s1 = .ok s2 →
        ∃ v kept, (adaRda delta).endTrain c (withOwn s1 ⟨s1.alg.ofs.sig, s1.alg.ut⟩) = .ok v ∧
          withOwn s2 ⟨s2.alg.ofs.sig, s2.alg.ut⟩ = { v with w := v.w.map (only kept) } ∧ Leading s2.dim B (fun i => total v.alg.H i) kept := by
  have hc := clf_pos hk
  obtain ⟨s0, e0, hf⟩ := adaRdaOfsBegin_top hc hs hv h1 hu (inside_of_bare h0)
  have hA := able_adaRdaOfs_top c hc delta hs.budget.1
  have hend : ∀ s1, FitW c (rdaTop delta c.clf B) s1 → Gives ((adaRdaOfs delta B c.clf).endTrain c s1) (FitW c (rdaTop delta c.clf B)) := by
    intro s1 hf1
    obtain ⟨s2, e2, -⟩ := gives_adaRdaOfsEnd hc hs.budget.1 (s := s1) ⟨hf1.dim, hf1.dimMax, hf1.w, hf1.g, hf1.alg.1.1, hf1.alg.2⟩
    exact ⟨s2, e2, (adaRdaOfs_close hc delta hs.budget.1 hf1 e2).1⟩
  refine ⟨s0, e0, fun s1 s2 e rnd h hx hl ht => ?_, fun s1 s2 h ht => ?_⟩
  · have hf1 := session_keeps hA hk hend hf h
    have hf2 := session_keeps hA hk hend hf (.learn e rnd h hx hl ht)
    obtain ⟨v, q1, q2⟩ := adaRdaOfs_beside hk delta hs.budget.1 hf1 hx hl ht
    refine ⟨v, _, q1, q2, ?_⟩
    dsimp only
    rw [← own_of_cut q2]
    exact leading_of weak_smaller hf2.alg.1.1.1 hf2.alg.1.2 fun i j h => less_false.1 h
  · have hf1 := session_keeps hA hk hend hf h
    have hf2 := session_keeps hA hk hend hf (.close h ht)
    obtain ⟨-, v, q1, q2⟩ := adaRdaOfs_close hc delta hs.budget.1 hf1 ht
    refine ⟨v, _, q1, q2, ?_⟩
    dsimp only
    rw [← own_of_cut q2]
    exact leading_of weak_smaller hf2.alg.1.1.1 hf2.alg.1.2 fun i j h => less_false.1 h

end

/-! ### Instances -/

/-- `BeginTrain` and the examples `l`, then one example in both algorithms: weights of both, kept features, own state of the plain one. -/
def bothWays {A A' : Type} [FFun Rat] [FSqrt Rat] (begin : St Rat A → Res (St Rat A)) (G : Alg Rat A) (H : Alg Rat A') (own : A → A')
    (heap : A → Heap.State) (c : Cfg Rat) (s : St Rat A) (l : List (Ex Rat × Rat)) (e : Ex Rat) :
    Res (List (List Rat) × List (List Rat) × List Nat × A') := do
  let s ← begin s
  let s ← trainLoop G c s l
  let s' ← trainOne G c s e 0
  let v ← trainOne H c (withOwn s (own s.alg)) e 0
  .ok (s'.w, v.w, (heap s'.alg).pos2id.map (· + 1), v.alg)

/-- After an example with features 1 and 2 and one with feature 4, an example with features 1 and 4. SOFS (two classes and three) and the Ada
    variants then delete feature 2, whose total is the worst; PET deletes feature 1. -/
theorem C81_instance :
    letI : FFun Rat := unusedFun
    letI : FSqrt Rat := ⟨fun a => a⟩
    bothWays (ofsBegin more (sofs 1 2 1) cfg1 2) (sofs 1 2 1) (arow 1) OfsSt.sig OfsSt.heap cfg1 (model1 (noOfs 1))
        (stream4.take 2) ⟨1, [(1, 1), (4, 1)]⟩ =
      .ok ([[0, 14 / 25, 0, 0, -13 / 50]], [[0, 14 / 25, 4 / 9, 0, -13 / 50]], [1, 4], [[1 / 4, 4 / 9, 1 / 2, 1, 1 / 6]]) ∧
    bothWays (ofsBegin more (sofs 1 2 3) cfg3 2) (sofs 1 2 3) (arow 1) OfsSt.sig OfsSt.heap cfg3 (model3 (noOfs3 1))
        (stream5.take 2) ⟨0, [(1, 1), (4, 1)]⟩ =
      .ok ([[0, 13 / 36, 0, 0, -19 / 144], [0, -65 / 144, 0, 0, 19 / 144], [0, 0, 0, 0, 0]],
        [[0, 13 / 36, -2 / 7, 0, -19 / 144], [0, -65 / 144, 0, 0, 19 / 144], [0, 0, 2 / 7, 0, 0]], [1, 4],
        [[1 / 4, 4 / 9, 1 / 2, 1, 1 / 6], [1 / 3, 1 / 2, 1, 1, 1 / 6], [1 / 2, 4 / 5, 1 / 2, 1, 1]]) ∧
    bothWays (petBegin (pet 1 (fun _ => 1) 2) 2) (pet 1 (fun _ => 1) 2) (ogd 1 fun _ => 1) (fun _ => ()) PetSt.heap cfg1 (model1 noPet)
        (stream4.take 2) ⟨1, [(1, 1), (4, 1)]⟩ = .ok ([[0, 0, 1, 0, -1]], [[0, 1, 1, 0, -1]], [2, 4], ()) ∧
    bothWays (ofsBegin less (adaFobosOfs 1 2 1) cfg1 2) (adaFobosOfs 1 2 1) (adaFobos 1) OfsSt.sig OfsSt.heap cfg1 (model1 (noOfs 1))
        (stream4.take 2) ⟨1, [(1, 1), (4, 1)]⟩ =
      .ok ([[0, 16 / 33, 0, 0, -31 / 90]], [[0, 16 / 33, 1 / 2, 0, -31 / 90]], [1, 4], [[6, 33 / 16, 2, 1, 18]]) ∧
    Yields (bothWays (adaRdaOfsBegin (adaRdaOfs 1 2 1) cfg1 2) (adaRdaOfs 1 2 1) (adaRda 1) (fun a => ⟨a.ofs.sig, a.ut⟩)
        (fun a => a.ofs.heap) cfg1 (model1 ⟨noOfs 1, [[0]]⟩) (stream4.take 2) ⟨1, [(1, 1), (4, 1)]⟩) (fun r =>
      (r.1, r.2.1, r.2.2.1) = ([[0, 8 / 11, 0, 0, -1 / 18]], [[0, 8 / 11, 1 / 2, 0, -1 / 18]], [1, 4]) ∧
        r.2.2.2.H = [[6, 33 / 16, 2, 1, 18]] ∧ r.2.2.2.ut = [[-1, -3 / 2, -1, 0, 1]]) ∧
    Leading 5 2 (fun i => - total [[1 / 4, 4 / 9, 1 / 2, 1, (1 / 6 : Rat)]] i) [1, 4] ∧
    Leading 5 2 (fun i => total [[6, 33 / 16, 2, 1, (18 : Rat)]] i) [1, 4] ∧
    Leading 5 2 (fun i => absTotal [[0, 1, 1, 0, (-1 : Rat)]] i) [2, 4] := by
  refine ⟨by decide +kernel, by decide +kernel, by decide +kernel, by decide +kernel, by decide +kernel, ?_, ?_, ?_⟩ <;>
  · refine ⟨rfl, by decide, by decide, ?_⟩
    intro i hi j h1 h2 hj
    simp only [List.mem_cons, List.not_mem_nil, or_false] at hi hj
    have : j = 1 ∨ j = 2 ∨ j = 3 ∨ j = 4 := by omega
    rcases this with rfl | rfl | rfl | rfl <;> rcases hi with rfl | rfl <;> first | (exfalso; omega) | decide +kernel

/-- New models of SOFS and of the Ada variants meet the hypotheses (those of PET: `C37_hypotheses`). -/
theorem C81_hypotheses :
    letI : FFun Rat := unusedFun
    (∀ v ∈ (noOfs 1).sig, ∀ a ∈ v, a = 1) ∧ Vecs 1 1 (noOfs 1).sig ∧ (∀ v ∈ (noOfs3 1).sig, ∀ a ∈ v, a = 1) ∧ Vecs 3 1 (noOfs3 1).sig ∧
    ∀ (delta : ℝ) (F : FFun ℝ), let s : St ℝ (RdaOfsSt ℝ) := model1 ⟨⟨[[delta]], [], ⟨0, 0, [], []⟩⟩, [[0]]⟩
      Ready (cfg1 : Cfg ℝ) 2 s ∧ Bare s.w ∧ Vecs 1 s.dim s.alg.ofs.sig ∧ (∀ v ∈ s.alg.ofs.sig, ∀ a ∈ v, a = delta) ∧
        Vecs 1 s.dim s.alg.ut := by
  refine ⟨by decide, ⟨rfl, by simp [noOfs]⟩, by decide, ⟨rfl, by simp [noOfs3]⟩, fun delta F => ⟨⟨Nat.le_refl 1, show 1 ≤ 4294967295 by decide, ⟨rfl, by simp [model1]⟩, rfl,
    by decide⟩, ?_, ⟨rfl, by simp [model1]⟩, by simp [model1], ⟨rfl, by simp [model1]⟩⟩⟩
  rintro i ⟨h1, w, hw, a, h2, h3⟩
  obtain rfl := List.mem_singleton.1 hw
  have := (List.getElem?_eq_some_iff.1 h2).1
  simp at this
  omega

/-- The own state of a new FOFS model. -/
def newFofs : PetSt F32 := ⟨[0], ⟨0, 0, [], []⟩⟩

/-- C81 fails for FOFS (`eta` 1, `lambda` 1/2), which compares weights it has shrunk with sums it has not: after an example with feature 1
    (value 1) and one with feature 2 (value 3/4) a model with room for both has weights 1/2 and 3/4; a model with budget 1 keeps the
    smaller and deletes the larger. -/
theorem C81_is_violated :
    letI : FFun F32 := unusedFun
    let half : F32 := .fin (1 / 2)
    let run (B : Nat) : Res (List (List F32)) := do
      let G := fofs (1 / FSqrt.sqrt half) (1 - half * 1) B
      let s ← petBegin G B (model1 newFofs)
      let s ← trainLoop G cfg1 s [(⟨1, [(1, 1)]⟩, 0), (⟨1, [(2, .fin (3 / 4))]⟩, 0)]
      .ok s.w
    run 2 = .ok [[0, .fin (1 / 2), .fin (3 / 4)]] ∧ run 1 = .ok [[0, .fin (1 / 2), 0]] := by
  decide +kernel

end Sol.Props
