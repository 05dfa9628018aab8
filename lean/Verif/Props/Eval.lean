import Verif.Proofs.Renew
import Verif.Spec.Session
import Verif.Props.Online
/-! # C41, C42: dual averaging and evaluation between training calls -/

set_option linter.unusedSectionVars false
set_option linter.unusedVariables false

namespace Sol.Props

open Sol.Online Sol.Olm Sol.Sparse Sol.Loss Sol.Spec Sol.Select

section
variable {α A : Type} [Zero α] [One α] [Add α] [Sub α] [Mul α] [Div α] [Neg α] [FCmp α] [IntCast α] [FFun α] [FSqrt α]

theorem idle_blind {G : Alg α A} (h : Idle G) : Blind G ∧ ∀ c s, G.endTrain c s = Online.finish c s := by
  cases h
  · exact ⟨blind_perceptron, fun _ _ => rfl⟩
  · exact ⟨blind_ogd _ _, fun _ _ => rfl⟩
  · exact ⟨blind_pa _, fun _ _ => rfl⟩
  · exact ⟨blind_pa1 _ _, fun _ _ => rfl⟩
  · exact ⟨blind_pa2 _ _, fun _ _ => rfl⟩
  · exact ⟨blind_alma2 _ _ _, fun _ _ => rfl⟩
  · exact ⟨blind_arow _, fun _ _ => rfl⟩
  · exact ⟨blind_cw _ _ _, fun _ _ => rfl⟩
  · exact ⟨blind_eccw _ _ _, fun _ _ => rfl⟩
  · exact ⟨blind_adaFobos _, fun _ _ => rfl⟩
  · exact ⟨blind_pet _ _ _, fun _ _ => rfl⟩
  · exact ⟨blind_fofs _ _ _, fun _ _ => rfl⟩
  · exact ⟨blind_sofs _ _ _, fun _ _ => rfl⟩
  · exact ⟨blind_adaFobosOfs _ _ _, fun _ _ => rfl⟩

theorem test_idle {G : Alg α A} (hf : ∀ c s, G.endTrain c s = Online.finish c s) {c : Cfg α} {s s' : St α A}
    {e : List (Ex α)} {r : α} (ht : Online.test G c s e = .ok (s', r)) : ∃ b, s' = { s with fresh := b } := by
  simp only [Online.test, Res.bind_eq_ok] at ht
  obtain ⟨s1, h1, n, h2, h3⟩ := ht
  obtain ⟨rfl, -⟩ := Prod.mk.inj (Res.ok.inj h3)
  split at h1
  · rw [hf] at h1
    exact ⟨false, (Res.ok.inj h1).symm⟩
  · exact ⟨s.fresh, (Res.ok.inj h1).symm⟩

/-- Fourteen algorithms, any numbers: leaving out the evaluations changes neither the model nor what `Train` returned. -/
theorem C42_idle_partial {G : Alg α A} (hG : Idle G) (c : Cfg α) (s : St α A) (acts : List (Act α)) (s' : St α A) (rs : List α)
    (h : course G c s acts = .ok (s', rs)) : ∃ b, course G c s (studies acts) = .ok ({ s' with fresh := b }, rs) := by
  obtain ⟨hb, hf⟩ := idle_blind hG
  suffices ∀ (b0 : Bool) (s : St α A), course G c s acts = .ok (s', rs) →
      ∃ b, course G c { s with fresh := b0 } (studies acts) = .ok ({ s' with fresh := b }, rs) from this s.fresh s h
  clear h s
  induction acts generalizing rs with
  | nil =>
    intro b0 s h
    obtain ⟨rfl, rfl⟩ := Prod.mk.inj (Res.ok.inj h)
    exact ⟨b0, rfl⟩
  | cons a acts ih =>
    intro b0 s h
    cases a with
    | learn l =>
      simp only [course, Res.bind_eq_ok] at h
      obtain ⟨⟨s1, r⟩, h1, ⟨s2, rs2⟩, h2, h3⟩ := h
      obtain ⟨rfl, rfl⟩ := Prod.mk.inj (Res.ok.inj h3)
      obtain ⟨b, h4⟩ := ih rs2 s1.fresh s1 h2
      refine ⟨b, ?_⟩
      simp only [studies, course, hb.train b0 c s l, h1, Res.bind_ok]
      rw [h4, Res.bind_ok]
    | eval e =>
      simp only [course, Res.bind_eq_ok] at h
      obtain ⟨⟨s1, r⟩, h1, h2⟩ := h
      obtain ⟨b1, rfl⟩ := test_idle hf h1
      exact ih rs b0 { s with fresh := b1 } h2

/-- What the averaging algorithms have in common. -/
theorem averaging {c : Cfg α} {G : Alg α A} {inv : Nat → A → Prop} (h : Averaging c G inv) :
    Safe c G inv (fun _ => inv) ∧ ∃ free, Renews c G inv free ∧
      ∀ s s', Fit c inv s → G.endTrain c s = .ok s' → Apart c free s s' ∧ s'.fresh = false := by
  cases h
  · refine ⟨safe_rda _ _ _, true, renews_rda _ _ _, fun s s' hs h => ?_⟩
    obtain ⟨s2, h1, h2, h3, -⟩ := closes_rda c _ _ s hs
    rw [h] at h1
    obtain rfl := Res.ok.inj h1
    have h2 := h2.w
    rw [h3.dim] at h2
    simp only [rda, Res.bind_eq_ok] at h
    obtain ⟨w, -, h4⟩ := h
    obtain rfl := Res.ok.inj h4
    exact ⟨⟨_, _, _, rfl, h2, by simp⟩, rfl⟩
  · refine ⟨safe_rdaL1 _ _ _ _ _, true, renews_rdaL1 _ _ _ _ _, fun s s' hs h => ?_⟩
    obtain ⟨s2, h1, h2, h3, -⟩ := closes_rdaL1 c _ _ _ _ s hs
    rw [h] at h1
    obtain rfl := Res.ok.inj h1
    have h2 := h2.w
    rw [h3.dim] at h2
    simp only [rdaL1, Res.bind_eq_ok] at h
    obtain ⟨w, -, h4⟩ := h
    obtain rfl := Res.ok.inj h4
    exact ⟨⟨_, _, _, rfl, h2, by simp⟩, rfl⟩
  · refine ⟨safe_erdaL1 _ _ _ _ _ _, true, renews_erdaL1 _ _ _ _ _ _, fun s s' hs h => ?_⟩
    obtain ⟨s2, h1, h2, h3, -⟩ := closes_erdaL1 c _ _ _ _ _ s hs
    rw [h] at h1
    obtain rfl := Res.ok.inj h1
    have h2 := h2.w
    rw [h3.dim] at h2
    simp only [erdaL1, Res.bind_eq_ok] at h
    obtain ⟨w, -, h4⟩ := h
    obtain rfl := Res.ok.inj h4
    exact ⟨⟨_, _, _, rfl, h2, by simp⟩, rfl⟩
  · refine ⟨safe_adaRdaL1 _ _ _ _, false, renews_adaRdaL1 _ _ _ _, fun s s' hs h => ?_⟩
    obtain ⟨s2, h1, h2, h3, -⟩ := closes_adaRdaL1 c _ _ _ s hs
    rw [h] at h1
    obtain rfl := Res.ok.inj h1
    have h2 := h2.w
    rw [h3.dim] at h2
    simp only [adaRdaL1, Res.bind_eq_ok] at h
    obtain ⟨w, -, h4⟩ := h
    obtain rfl := Res.ok.inj h4
    exact ⟨⟨_, _, _, rfl, h2, fun _ => rfl⟩, rfl⟩

/-- Weights and gradient sums are zero (a new model). -/
def Fresh {α : Type} [Zero α] (s : St α (AdaRdaSt α)) : Prop := (∀ w ∈ s.w, ∀ a ∈ w, a = 0) ∧ ∀ u ∈ s.alg.ut, ∀ a ∈ u, a = 0

theorem fresh_settled {α : Type} [Field α] [LinearOrder α] [IsStrictOrderedRing α] [FFun α] [FSqrt α] {c : Cfg α}
    {s : St α (AdaRdaSt α)} (hs : Fit c (adaRdaInv c.clf) s) (h : Fresh s) : AllDerived s := by
  rintro ⟨w, H, u⟩ hm
  have hm1 := List.of_mem_zip hm
  have hm2 := List.of_mem_zip hm1.2
  have h1 := hs.w.2 w hm1.1
  have h2 := hs.alg.1.2 H hm2.1
  have h3 := hs.alg.2.2 u hm2.2
  unfold Derived
  simp only
  apply List.ext_getElem (by simp; omega)
  intro i h4 h5
  have e1 := h.1 w hm1.1 _ (List.getElem_mem h4)
  have e2 := h.2 u hm2.2 u[i] (List.getElem_mem (by omega))
  simp [e1, e2, atZero]

/-- The averaging algorithms, any numbers: leaving out the evaluations changes neither what `Train` returned nor the model that
    `EndTrain` (called by the next `Test`) makes. -/
theorem C42_averaging_partial {c : Cfg α} {G : Alg α A} {inv : Nat → A → Prop} (hG : Averaging c G inv)
    (hk : Matches c.kind c.clf) (s : St α A) (hs : Fit c inv s) (acts : List (Act α)) (ha : Sound c acts) (s' : St α A)
    (rs : List α) (h : course G c s acts = .ok (s', rs)) :
    ∃ s2, course G c s (studies acts) = .ok (s2, rs) ∧ G.endTrain c s2 = G.endTrain c s' ∧
      ∀ e, s'.fresh = true → test G c s2 e = test G c s' e := by
  obtain ⟨hsafe, free, hr, hend⟩ := averaging hG
  have main : ∀ (acts : List (Act α)), Sound c acts → ∀ (s h : St α A) (s' : St α A) (rs : List α), Fit c inv s → Apart c free s h →
      (s.fresh = true → h.fresh = true) → course G c s acts = .ok (s', rs) → ∃ s2, course G c h (studies acts) = .ok (s2, rs) ∧
        Apart c free s' s2 ∧ Fit c inv s' ∧ (s'.fresh = true → s2.fresh = true) := by
    intro acts
    induction acts with
    | nil =>
      intro _ s h s' rs hs hap hfr hc
      obtain ⟨rfl, rfl⟩ := Prod.mk.inj (Res.ok.inj hc)
      exact ⟨h, rfl, hap, hs, hfr⟩
    | cons a acts ih =>
      intro hsd s h s' rs hs hap hfr hc
      have hsd' : Sound c acts := fun a ha => hsd a (List.mem_cons_of_mem _ ha)
      cases a with
      | learn l =>
        have hl : Usable c l := hsd _ List.mem_cons_self
        simp only [course, Online.train, Res.bind_eq_ok] at hc
        obtain ⟨⟨s1, r⟩, ⟨s0, h1, h4⟩, ⟨s2, rs2⟩, h2, h3⟩ := hc
        obtain ⟨rfl, rfl⟩ := Prod.mk.inj (Res.ok.inj h3)
        obtain ⟨rfl, rfl⟩ := Prod.mk.inj (Res.ok.inj h4)
        obtain ⟨evs, t', ht, -, hft, -⟩ := hsafe.able.trace hk l hl s hs
        rw [ht.loop] at h1
        obtain rfl := Res.ok.inj h1
        obtain ⟨u0, hu, hR, -⟩ := hr.sim.trace hsafe.able hk hs hap hl ht
        obtain ⟨w, e, b, rfl, h5, h6⟩ := hR
        obtain ⟨v, k1, k2, k3, k4⟩ := ih hsd' { t' with fresh := true } { t' with w := w, eta := e, fresh := true } s2 rs2
          ⟨hft.dim, hft.w, hft.g, hft.alg⟩ ⟨w, e, true, rfl, h5, h6⟩ (fun _ => rfl) h2
        refine ⟨v, ?_, k2, k3, k4⟩
        simp only [studies, course, Online.train, hu.loop, Res.bind_ok, k1]
      | eval e =>
        simp only [course, Online.test, Res.bind_eq_ok] at hc
        obtain ⟨⟨s1, r⟩, ⟨s0, h1, n, -, h4⟩, h2⟩ := hc
        obtain ⟨rfl, rfl⟩ := Prod.mk.inj (Res.ok.inj h4)
        obtain ⟨hap0, hn0⟩ : Apart c free s s0 ∧ s0.fresh = false := by
          split at h1
          · exact hend s s0 hs h1
          · rename_i hn
            rw [← Res.ok.inj h1]
            exact ⟨⟨s.w, s.eta, s.fresh, rfl, hs.w, fun _ => rfl⟩, by simpa using hn⟩
        exact ih hsd' s0 h s' rs (hap0.fit hs) ((hap0.symm hs).trans hap) (by simp [hn0]) h2
  obtain ⟨s2, h1, h2, h3, h4⟩ := main acts ha s s s' rs hs ⟨s.w, s.eta, s.fresh, rfl, hs.w, fun _ => rfl⟩ id h
  have hcl := hr.close s' s2 h3 h2
  refine ⟨s2, h1, hcl, fun e he => ?_⟩
  simp only [Online.test, he, h4 he, if_true, hcl]

/-- AdaRDA without bias, exact numbers. -/
theorem C42_adaRda_partial {α : Type} [Field α] [LinearOrder α] [IsStrictOrderedRing α] [FFun α] [FSqrt α] {c : Cfg α}
    (hb : c.biasEta0 = 0) (hk : Matches c.kind c.clf) (delta : α) (s : St α (AdaRdaSt α)) (hs : Fit c (adaRdaInv c.clf) s)
    (hw : Fresh s) (acts : List (Act α)) (ha : Sound c acts) (s' : St α (AdaRdaSt α)) (rs : List α)
    (h : course (adaRda delta) c s acts = .ok (s', rs)) :
    ∃ b, course (adaRda delta) c s (studies acts) = .ok ({ s' with fresh := b }, rs) := by
  suffices ∀ (b0 : Bool) (s : St α (AdaRdaSt α)), Fit c (adaRdaInv c.clf) s → AllDerived s →
      course (adaRda delta) c s acts = .ok (s', rs) →
      ∃ b, course (adaRda delta) c { s with fresh := b0 } (studies acts) = .ok ({ s' with fresh := b }, rs) from
    this s.fresh s hs (fresh_settled hs hw) h
  clear h s hs hw
  induction acts generalizing rs with
  | nil =>
    intro b0 s hs hK h
    obtain ⟨rfl, rfl⟩ := Prod.mk.inj (Res.ok.inj h)
    exact ⟨b0, rfl⟩
  | cons a acts ih =>
    intro b0 s hs hK h
    have ha' : Sound c acts := fun a h => ha a (List.mem_cons_of_mem _ h)
    cases a with
    | learn l =>
      have hl : Usable c l := ha _ List.mem_cons_self
      simp only [course, Res.bind_eq_ok] at h
      obtain ⟨⟨s1, r⟩, h1, ⟨s2, rs2⟩, h2, h3⟩ := h
      obtain ⟨rfl, rfl⟩ := Prod.mk.inj (Res.ok.inj h3)
      obtain ⟨s3, k1, k2, k3⟩ := Keeps.loop (safe_adaRda c delta).able (keeps_adaRda_settled c hb delta) hk l hl s hs hK
      have hs1 : s1 = { s3 with fresh := true } := by
        simp only [Online.train, k1, Res.bind_ok] at h1
        exact (Prod.mk.inj (Res.ok.inj h1)).1.symm
      subst hs1
      obtain ⟨b, h4⟩ := ih ha' rs2 true { s3 with fresh := true } ⟨k2.dim, k2.w, k2.g, k2.alg⟩ k3 h2
      refine ⟨b, ?_⟩
      simp only [studies, course, (blind_adaRda delta).train b0 c s l, h1, Res.bind_ok]
      rw [h4, Res.bind_ok]
    | eval e =>
      simp only [course, Online.test, Res.bind_eq_ok] at h
      obtain ⟨⟨s1, r⟩, ⟨s0, h1, n, -, h4⟩, h2⟩ := h
      obtain ⟨rfl, rfl⟩ := Prod.mk.inj (Res.ok.inj h4)
      split at h1
      · rw [settled_end hb delta hs hK] at h1
        obtain rfl := Res.ok.inj h1
        exact ih ha' rs b0 { s with fresh := false } ⟨hs.dim, hs.w, hs.g, hs.alg⟩ hK h2
      · obtain rfl := Res.ok.inj h1
        exact ih ha' rs b0 s hs hK h2

end

/-! ### Dual averaging -/

section
variable {α : Type} [Field α] [LinearOrder α] [IsStrictOrderedRing α] [FFun α] [FSqrt α]

/-- A model of RDA as one that remembers its updates, of which there are none so far. -/
def untaught (s : St α (List (List α))) : St α (List (List α × SVec α)) :=
  { dim := s.dim, w := s.w, g := s.g, eta := s.eta, margin := s.margin, vi := s.vi, t := s.t, data := s.data, upd := s.upd,
    err := s.err, fresh := s.fresh, alg := [] }

/-- RDA does exactly what dual averaging from the list of updates does: the same predictions and updates for every example, the
    sums of the gradients, and the same weights after `EndTrain`. -/
theorem C41_gradient_sum (c : Cfg α) (hk : Matches c.kind c.clf) (sigma eps : α) (s : St α (List (List α)))
    (hs : Fit c (vecs c.clf) s) (h0 : ∀ u ∈ s.alg, ∀ a ∈ u, a = 0) (l : List (Ex α × α)) (hl : Usable c l) (evs : List Event)
    (s' : St α (List (List α))) (h : Trace (rda sigma eps) c s l evs s') :
    ∃ h', Trace (gradSum sigma eps) c (untaught s) l evs h' ∧ h'.t = s'.t ∧ h'.dim = s'.dim ∧
      (∀ k i : Nat, k < c.clf → coord (s'.alg.getD k []) i = gradTotal h'.alg k i) ∧
      ∃ s2 h2, (rda sigma eps).endTrain c s' = .ok s2 ∧ (gradSum sigma eps).endTrain c h' = .ok h2 ∧ s2.w = h2.w ∧
        s2.eta = h2.eta := by
  have hz : Sums c.clf s.alg [] := by
    intro k i hk'
    have hm := cell_mem hs.alg.1 hk'
    show coord (s.alg.getD k []) i = 0
    by_cases hi : i < (s.alg.getD k []).length
    · rw [coord_lt hi]
      exact h0 _ hm _ (List.getElem_mem hi)
    · exact coord_eq_zero (by omega)
  obtain ⟨h', h1, ⟨w, e, hist, rfl, h2⟩, h3⟩ := (sim_rda c sigma eps).trace (safe_rda c sigma eps).able hk hs
    (h := untaught s) ⟨s.w, s.eta, [], rfl, hz⟩ hl h
  exact ⟨_, h1, rfl, rfl, h2, _, _, rda_end c sigma eps h3 h2, rfl, rfl, rfl⟩

/-- The order of the updates is irrelevant: two runs with the same updates in any order, after the same number of iterations,
    end with the same weights. -/
theorem C41_order (c : Cfg α) (hk : Matches c.kind c.clf) (sigma eps : α) (s : St α (List (List α)))
    (hs : Fit c (vecs c.clf) s) (h0 : ∀ u ∈ s.alg, ∀ a ∈ u, a = 0) (l1 l2 : List (Ex α × α)) (hl1 : Usable c l1)
    (hl2 : Usable c l2) (evs1 evs2 : List Event) (s1 s2 : St α (List (List α))) (h1 h2 : St α (List (List α × SVec α)))
    (ht1 : Trace (rda sigma eps) c s l1 evs1 s1) (ht2 : Trace (rda sigma eps) c s l2 evs2 s2)
    (hu1 : Trace (gradSum sigma eps) c (untaught s) l1 evs1 h1) (hu2 : Trace (gradSum sigma eps) c (untaught s) l2 evs2 h2)
    (hp : h1.alg.Perm h2.alg) (ht : s1.t = s2.t) (hd : s1.dim = s2.dim) :
    ∃ e1 e2, (rda sigma eps).endTrain c s1 = .ok e1 ∧ (rda sigma eps).endTrain c s2 = .ok e2 ∧ e1.w = e2.w ∧ e1.eta = e2.eta := by
  obtain ⟨h1', k1, a1, b1, -, e1, f1, c1, d1, w1, q1⟩ := C41_gradient_sum c hk sigma eps s hs h0 l1 hl1 evs1 s1 ht1
  obtain ⟨h2', k2, a2, b2, -, e2, f2, c2, d2, w2, q2⟩ := C41_gradient_sum c hk sigma eps s hs h0 l2 hl2 evs2 s2 ht2
  have u1 := k1.loop
  rw [hu1.loop] at u1
  obtain rfl := Res.ok.inj u1
  have u2 := k2.loop
  rw [hu2.loop] at u2
  obtain rfl := Res.ok.inj u2
  refine ⟨e1, e2, c1, c2, ?_, ?_⟩
  · rw [w1, w2]
    obtain rfl := Res.ok.inj d1
    obtain rfl := Res.ok.inj d2
    simp only [a1, a2, b1, b2, ht, hd, dualWeights, gradTotal]
    congr 1
    funext k
    congr 1
    funext i
    rw [(hp.map _).sum_eq]
  · rw [q1, q2]
    obtain rfl := Res.ok.inj d1
    obtain rfl := Res.ok.inj d2
    simp only [a1, a2, ht]

/-- Evaluations in between influence neither training nor the final model. -/
theorem C41_evaluation (c : Cfg α) (hk : Matches c.kind c.clf) (sigma eps : α) (s : St α (List (List α)))
    (hs : Fit c (vecs c.clf) s) (acts : List (Act α)) (ha : Sound c acts) (s' : St α (List (List α)))
    (rs : List α) (h : course (rda sigma eps) c s acts = .ok (s', rs)) :
    ∃ s2, course (rda sigma eps) c s (studies acts) = .ok (s2, rs) ∧
      (rda sigma eps).endTrain c s2 = (rda sigma eps).endTrain c s' := by
  obtain ⟨s2, h1, h2, -⟩ := C42_averaging_partial (.rda sigma eps) hk s hs acts ha s' rs h
  exact ⟨s2, h1, h2⟩

end

/-- A new model meets the hypotheses. -/
theorem C41_hypotheses : Matches (cfg1 (α := Rat)).kind 1 ∧ Fit (cfg1 (α := Rat)) (vecs 1) (model1 [[0]]) ∧
    (∀ u ∈ (model1 (α := Rat) [[(0 : Rat)]]).alg, ∀ a ∈ u, a = 0) ∧ Usable (cfg1 (α := Rat)) [(⟨1, [(1, 1)]⟩, 0), (⟨-1, [(2, 1)]⟩, 0)] := by
  refine ⟨rfl, ⟨le_rfl, ⟨rfl, by simp [model1]⟩, rfl, ⟨rfl, by simp [model1]⟩⟩, by simp [model1], ?_⟩
  intro p hp
  simp only [List.mem_cons, List.not_mem_nil, or_false] at hp
  rcases hp with rfl | rfl <;> exact ⟨⟨by simp [Ascending], by simp⟩, .inl rfl⟩

/-- Three examples in two orders, with an evaluation in one of the two: the same sums and weights. -/
theorem C41_instance :
    letI : FFun Rat := unusedFun
    letI : FSqrt Rat := ⟨fun a => a⟩
    let a : Ex Rat × Rat := (⟨1, [(1, 1)]⟩, 0)
    let b : Ex Rat × Rat := (⟨-1, [(2, 1)]⟩, 0)
    let d : Ex Rat × Rat := (⟨1, [(3, 2)]⟩, 0)
    let G := rda (α := Rat) 1 1
    let c : Cfg Rat := { cfg1 with biasEta0 := 1 }
    (Yields (course G c (model1 [[0]]) [.learn [a, b, d], .eval []]) fun r =>
      r.1.alg = [[-1, -1, 1, -2]] ∧ r.1.w = [[1 / 4, 1 / 4, -1 / 4, 1 / 2]]) ∧
    (Yields (course G c (model1 [[0]]) [.learn [d], .eval [a.1], .learn [a, b], .eval []]) fun r =>
      r.1.alg = [[-1, -1, 1, -2]] ∧ r.1.w = [[1 / 4, 1 / 4, -1 / 4, 1 / 2]]) := by
  decide +kernel

/-- A session with evaluations meets the hypotheses. -/
theorem C42_hypotheses : Sound (cfg1 (α := Rat)) [.learn [(⟨1, [(1, 1)]⟩, 0)], .eval [⟨1, [(7, 1)]⟩], .learn [(⟨-1, [(2, 1)]⟩, 0)]] ∧
    Fit (cfg1 (α := Rat)) (adaRdaInv 1) (model1 ⟨[[1]], [[0]]⟩) ∧ Fresh (model1 (α := Rat) ⟨[[1]], [[0]]⟩) := by
  refine ⟨?_, ⟨le_rfl, ⟨rfl, by simp [model1]⟩, rfl, ⟨⟨rfl, by simp [model1]⟩, ⟨rfl, by simp [model1]⟩⟩⟩, by simp [Fresh, model1]⟩
  intro a ha
  simp only [List.mem_cons, List.not_mem_nil, or_false] at ha
  rcases ha with rfl | rfl | rfl
  · intro p hp
    obtain rfl := List.mem_singleton.1 hp
    exact ⟨⟨by simp [Ascending], by simp⟩, .inl rfl⟩
  · intro e he
    obtain rfl := List.mem_singleton.1 he
    exact ⟨by simp [Ascending], by simp⟩
  · intro p hp
    obtain rfl := List.mem_singleton.1 hp
    exact ⟨⟨by simp [Ascending], by simp⟩, .inl rfl⟩

/-- The sessions of the examples below: two calls of `Train`, with or without `Test` in between, and `Test` in the end. -/
def twice {α : Type} (ev : Bool) (l1 l2 : List (Ex α × α)) : List (Act α) :=
  if ev then [.learn l1, .eval [], .learn l2, .eval []] else [.learn l1, .learn l2, .eval []]

/-- One algorithm of each kind: the evaluation changes nothing. -/
theorem C42_instance :
    letI : FFun Rat := unusedFun
    letI : FSqrt Rat := ⟨fun a => a⟩
    let l1 : List (Ex Rat × Rat) := [(⟨1, [(1, 1)]⟩, 0)]
    let l2 : List (Ex Rat × Rat) := [(⟨1, [(1, 1), (2, 1)]⟩, 0), (⟨-1, [(2, 3)]⟩, 0)]
    ∀ ev : Bool,
    (Yields (course (arow (α := Rat) 1) cfg1 (model1 [[1]]) (twice ev l1 l2)) fun r =>
      r.1.w = [[0, 3 / 5, -13 / 55]] ∧ r.2 = [0, 1 / 3]) ∧
    (Yields (course (rdaL1 (α := Rat) 1 1 (1 / 4) 0) cfg1 (model1 [[0]]) (twice ev l1 l2)) fun r =>
      r.1.w = [[0, 1 / 4, -1 / 4]] ∧ r.2 = [0, 1 / 3]) ∧
    (Yields (course (adaRdaL1 (α := Rat) 1 (1 / 8) 0) cfg1 (model1 ⟨[[1]], [[0]]⟩) (twice ev l1 l2)) fun r =>
      r.1.w = [[0, 13 / 24, -13 / 88]] ∧ r.2 = [0, 1 / 3]) ∧
    (Yields (course (adaRda (α := Rat) 1) cfg1 (model1 ⟨[[1]], [[0]]⟩) (twice ev l1 l2)) fun r =>
      r.1.w = [[0, 2 / 3, -2 / 11]] ∧ r.2 = [0, 1 / 3]) := by
  decide +kernel

/-- The property as stated does not hold: `EndTrain` truncates the weights of STG, FOBOS_L1 and AdaFOBOS_L1 without noting it in
    the time stamps, sets the bias of SOP and AdaRDA that training leaves alone, and restores weights of AdaRDA_OFS that the
    selection had removed.  The same two training calls with and without an evaluation in between end with different weights. -/
theorem C42_is_violated :
    letI : FFun Rat := unusedFun
    letI : FSqrt Rat := ⟨fun a => a⟩
    let l1 : List (Ex Rat × Rat) := [(⟨1, [(1, 1)]⟩, 0)]
    let l2 : List (Ex Rat × Rat) := [(⟨1, [(1, 1), (2, 1)]⟩, 0)]
    let bias : Cfg Rat := { cfg1 with biasEta0 := 1 }
    (∀ ev : Bool, Yields (course (fobosL1 (α := Rat) 1 (fun _ => 1) (1 / 4) 0 0) cfg1 (model1 [0]) (twice ev l1 l2)) fun r =>
      r.1.w = if ev then [[0, 5 / 4, 3 / 4]] else [[0, 3 / 2, 3 / 4]]) ∧
    (∀ ev : Bool, Yields (course (stg (α := Rat) 1 (fun _ => 1) 2 (1 / 4) 0 0) cfg1 (model1 [0]) (twice ev l1 l2)) fun r =>
      r.1.w = if ev then [[0, 5 / 4, 1 / 2]] else [[0, 1 / 2, 0]]) ∧
    (∀ ev : Bool, Yields (course (adaFobosL1 (α := Rat) 1 (1 / 4) 0 0) cfg1 (model1 ⟨[[1]], [0]⟩) (twice ev l1 l2)) fun r =>
      r.1.w = if ev then [[0, 1 / 2, 3 / 8]] else [[0, 5 / 8, 3 / 8]]) ∧
    (∀ ev : Bool, Yields (course (adaRda (α := Rat) 1) bias (model1 ⟨[[1]], [[0]]⟩) (twice ev l1 l2)) fun r =>
      r.1.w = if ev then [[1 / 2, 1 / 2, 0]] else [[2 / 3, 2 / 3, 1 / 2]]) ∧
    (∀ ev : Bool, Yields (course (sop (α := Rat) (1 / 10)) bias (model1 ⟨[0], [[0]]⟩)
        (twice ev [(⟨1, [(1, 1)]⟩, 0), (⟨1, [(3, 1)]⟩, 0)] [(⟨1, [(2, 1)]⟩, 0)])) fun r =>
      r.1.w = if ev then [[20, 10 / 11, 0, 10 / 11]] else [[30, 10 / 11, 10 / 11, 10 / 11]]) ∧
    (∀ ev : Bool, Yields (do
        let s ← adaRdaOfsBegin (adaRdaOfs (α := Rat) 1 1 3) cfg3 1 (model3 ⟨⟨[[1], [1], [1]], [0], ⟨0, 0, [], []⟩⟩, [[0], [0], [0]]⟩)
        course (adaRdaOfs 1 1 3) cfg3 s (twice ev [(⟨1, [(1, 1), (2, 1)]⟩, 0), (⟨2, [(2, 1)]⟩, 0)] [(⟨0, [(2, 1)]⟩, 0)])) fun r =>
      r.1.w = if ev then [[0, 0, -1 / 6], [0, 0, 0], [0, 0, 1 / 2]] else [[0, 0, -1 / 6], [0, 0, 1 / 2], [0, 0, 0]]) := by
  decide +kernel

end Sol.Props
