import Verif.Proofs.Closed
/-! Two algorithms, or two states of one, that go through the same events. -/

set_option linter.unusedSectionVars false
set_option linter.unusedVariables false

namespace Sol.Online

open Sol.Sparse Sol.Loss Sol.Spec

section
variable {α A B : Type} [Zero α] [One α] [Add α] [Sub α] [Mul α] [Div α] [Neg α] [FCmp α] [IntCast α] [FFun α]

/-- `R` relates the states between examples, `P` the states from `TrainPredict` on. -/
structure Sim (c : Cfg α) (G : Alg α A) (H : Alg α B) (X : SVec α → Prop) (F : St α A → Prop) (M : SVec α → St α A → Prop)
    (R : St α A → St α B → Prop) (P : SVec α → St α A → St α B → Prop) : Prop where
  start : ∀ s h x s0 s1, F s → R s h → X x → G.beginIter (enter G s x) x = .ok s0 → M x s0 → G.prep c s0 x = .ok s1 → M x s1 →
    ∃ h0 h1, H.beginIter (enter H h x) x = .ok h0 ∧ H.prep c h0 x = .ok h1 ∧ P x s1 h1
  same : ∀ s h x, P x s h → M x s → X x → predict c s x = predict c h x ∧ s.g = h.g ∧ s.margin = h.margin ∧ s.vi = h.vi ∧
    G.handler c s x = H.handler c h x
  skip : ∀ s h x, P x s h → R { s with t := s.t - 1 } { h with t := h.t - 1 }
  scored : ∀ s h x g m v, P x s h → P x { s with g := g, margin := m, vi := v } { h with g := g, margin := m, vi := v }
  update : ∀ s h x l s', P x s h → M x s → X x → Sparse.dim x ≤ s.dim → G.update c { s with upd := s.upd + 1 } x l = .ok s' →
    ∃ h', H.update c { h with upd := h.upd + 1 } x l = .ok h' ∧ P x s' h'
  finish : ∀ s h x s', P x s h → M x s → X x → G.endIter s x = .ok s' → ∃ h', H.endIter h x = .ok h' ∧ R s' h'
  count : ∀ s h, R s h → R { s with err := s.err + 1 } { h with err := h.err + 1 }

theorem Sim.one {c : Cfg α} {G : Alg α A} {H : Alg α B} {X : SVec α → Prop} {F : St α A → Prop} {M : SVec α → St α A → Prop}
    {R : St α A → St α B → Prop} {P : SVec α → St α A → St α B → Prop} (hA : Able c G X F M) (hS : Sim c G H X F M R P)
    (hk : Matches c.kind c.clf) {s s' : St α A} {h : St α B} (hs : F s) (hR : R s h) {e : Ex α} {r : α} (hx : X e.x)
    (hl : LabelOk c.clf e.label) {ev : Event} (hh : Happens G c s e r ev s') : ∃ h', Happens H c h e r ev h' ∧ R s' h' := by
  have hc : 1 ≤ c.clf := by
    unfold Matches at hk
    split at hk <;> omega
  obtain ⟨s0, s1, p, h0, h1, h2, h3, h4, h5⟩ := hh
  obtain ⟨s0', h0', hf0, hs0⟩ := hA.start s e.x hs hx
  rw [h0] at h0'
  obtain rfl := Res.ok.inj h0'
  have hd0 : Sparse.dim e.x ≤ s0.dim := by rw [hs0.dim, enter_dim]; omega
  obtain ⟨s1', h1', hf1, hs1⟩ := hA.prep s0 e.x hf0 hx hd0
  rw [h1] at h1'
  obtain rfl := Res.ok.inj h1'
  have hd1 : Sparse.dim e.x ≤ s1.dim := by rw [hs1.dim]; exact hd0
  obtain ⟨u0, u1, k0, k1, hP⟩ := hS.start s h e.x s0 s1 hs hR hx h0 hf0 h1 hf1
  obtain ⟨hp, hg, hm, hv, hhd⟩ := hS.same s1 u1 e.x hP hf1 hx
  have key : ∃ h', trainOne H c h e r = .ok h' ∧ R s' h' := by
    simp only [trainOne, iterate, h0, h1, h2, h3, Res.bind_ok] at h5
    rw [hp] at h2
    simp only [trainOne, iterate, k0, k1, h2, h3, Res.bind_ok]
    cases hsk : ev.skip with
    | true =>
      simp only [hsk, if_true, Res.bind_ok, Res.ok.injEq] at h5 ⊢
      refine ⟨_, rfl, ?_⟩
      rw [← h5]
      split
      · exact hS.count _ _ (hS.skip _ _ _ hP)
      · exact hS.skip _ _ _ hP
    | false =>
      simp only [hsk, Bool.false_eq_true, if_false, learn, Res.bind_eq_ok] at h5 ⊢
      obtain ⟨⟨s2, pl⟩, ⟨s3, ⟨⟨l, g, m, v⟩, h6, s4, h7, h8⟩, h9⟩, h10⟩ := h5
      simp only [Res.ok.injEq, Prod.mk.injEq] at h9
      obtain ⟨rfl, rfl⟩ := h9
      obtain ⟨⟨p', pl'⟩, hp4, hp5, hp6⟩ := gives_predict (x := e.x) hc (hA.asc _ hx) (hA.shape _ _ hf1).1 (hA.shape _ _ hf1).2.1
      rw [hp, h2] at hp4
      obtain ⟨rfl, rfl⟩ := Prod.mk.inj (Res.ok.inj hp4)
      obtain ⟨⟨l', g', m', v'⟩, h6', hgl⟩ := gives_gradient (k := c.kind) (label := e.label) (pl := ev.pred) (p := p) (g := s1.g)
        (costMargin c e.label s1.margin) (G.handler c s1 e.x) s1.vi hk hl hp5 hp6 (hA.shape _ _ hf1).2.2
        (fun f hf g hg => hA.handler s1 e.x hf1 hx hd1 f hf g hg)
      rw [h6] at h6'
      obtain ⟨rfl, rfl, rfl, rfl⟩ : l = l' ∧ g = g' ∧ m = m' ∧ v = v' := by simpa using h6'
      simp only at hgl
      have hP' := hS.scored _ _ _ g m v hP
      have hM' : M e.x { s1 with g := g, margin := m, vi := v } := hA.scored _ _ g m v s1.upd hf1 hgl
      have h6u := h6
      rw [hg, hm, hv, hhd] at h6u
      simp only [maybeUpdate] at h7 ⊢
      obtain ⟨u4, k4, hP4, hM4⟩ : ∃ u4, (if fires c ev.pred e.label l = true then
          H.update c { u1 with g := g, margin := m, vi := v, upd := u1.upd + 1 } e.x l
          else .ok { u1 with g := g, margin := m, vi := v }) = .ok u4 ∧ P e.x s4 u4 ∧ M e.x s4 := by
        split at h7
        · rename_i hf
          rw [if_pos hf]
          obtain ⟨u4, k4, hP4⟩ := hS.update { s1 with g := g, margin := m, vi := v }
            { u1 with g := g, margin := m, vi := v } e.x l s4 hP' hM' hx hd1 h7
          obtain ⟨s5, h14, m5, hs5⟩ := hA.update { s1 with g := g, margin := m, vi := v, upd := s1.upd + 1 } e.x l
            (hA.scored _ _ g m v _ hf1 hgl) hx hd1
          rw [h7] at h14
          obtain rfl := Res.ok.inj h14
          exact ⟨u4, k4, hP4, m5⟩
        · rename_i hf
          rw [if_neg hf]
          obtain rfl := Res.ok.inj h7
          exact ⟨_, rfl, hP', hM'⟩
      obtain ⟨u5, k5, hR5⟩ := hS.finish _ _ _ _ hP4 hM4 hx h8
      simp only [Res.ok.injEq] at h10
      refine ⟨_, ⟨(u5, ev.pred), ⟨u5, ⟨(l, g, m, v), h6u, u4, k4, k5⟩, rfl⟩, rfl⟩, ?_⟩
      rw [← h10]
      split
      · exact hS.count _ _ hR5
      · exact hR5
  obtain ⟨h', hh', hR'⟩ := key
  exact ⟨h', ⟨u0, u1, p, k0, k1, by rw [← hp]; exact h2, h3, by rw [← hg, ← hm, ← hv, ← hhd]; exact h4, hh'⟩, hR'⟩

theorem Sim.trace {c : Cfg α} {G : Alg α A} {H : Alg α B} {X : SVec α → Prop} {F : St α A → Prop} {M : SVec α → St α A → Prop}
    {R : St α A → St α B → Prop} {P : SVec α → St α A → St α B → Prop} (hA : Able c G X F M) (hS : Sim c G H X F M R P)
    (hk : Matches c.kind c.clf) {s s' : St α A} {h : St α B} (hs : F s) (hR : R s h) {l : List (Ex α × α)} {evs : List Event}
    (hl : ∀ p ∈ l, X p.1.x ∧ LabelOk c.clf p.1.label) (ht : Trace G c s l evs s') :
    ∃ h', Trace H c h l evs h' ∧ R s' h' ∧ F s' := by
  induction ht generalizing h with
  | nil s => exact ⟨h, .nil h, hR, hs⟩
  | cons h1 _ ih =>
    rename_i e r ev l evs _
    obtain ⟨hx, hlab⟩ := hl _ List.mem_cons_self
    simp only at hx hlab
    obtain ⟨h', k1, k2⟩ := hS.one hA hk hs hR hx hlab h1
    obtain ⟨ev', s1', q1, q2, -⟩ := hA.happens hk _ hs e r hx hlab
    obtain ⟨_, _, _, _, _, _, _, _, q3⟩ := q1
    obtain ⟨_, _, _, _, _, _, _, _, q4⟩ := h1
    rw [q4] at q3
    obtain rfl := Res.ok.inj q3
    obtain ⟨h2, k3, k4, k5⟩ := ih q2 k2 fun p hp => hl p (List.mem_cons_of_mem _ hp)
    exact ⟨h2, .cons k1 k3, k4, k5⟩

theorem _root_.Sol.Spec.Trace.loop {G : Alg α A} {c : Cfg α} {s s' : St α A} {l : List (Ex α × α)} {evs : List Event} (h : Trace G c s l evs s') :
    trainLoop G c s l = .ok s' := by
  induction h with
  | nil s => rfl
  | cons h1 _ ih =>
    obtain ⟨_, _, _, _, _, _, _, _, q⟩ := h1
    simp only [trainLoop, q, Res.bind_ok]
    exact ih

end

end Sol.Online
