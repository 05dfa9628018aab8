import Verif.Proofs.LeadingOfs
import Verif.Props.Select
/-! Feature selection is the plain algorithm with the weights of the other features deleted. -/

set_option linter.unusedSectionVars false
set_option linter.unusedVariables false

namespace Sol.Select

open Sol.Online Sol.Sparse Sol.Loss Sol.Olm Sol.Spec Sol.Heap

section
variable {α A A' : Type} [Zero α] [One α] [Add α] [Sub α] [Mul α] [Div α] [Neg α] [FCmp α] [IntCast α] [FFun α] [FSqrt α]

/-- One example in two algorithms without hooks that differ in `Update` only. -/
theorem side_by_side {c : Cfg α} {G : Alg α A} {H : Alg α A'} {X : SVec α → Prop} {F : St α A → Prop}
    (hA : Able c G X F (fun _ => F)) (hk : Matches c.kind c.clf) (own : A → A') (T : St α A → St α A' → Prop)
    (hgb : ∀ s x, G.beginIter s x = .ok s) (hge : ∀ s x, G.endIter s x = .ok s) (hgp : ∀ s x, G.prep c s x = .ok s)
    (hgh : ∀ s x, G.handler c s x = none)
    (hhb : ∀ s x, H.beginIter s x = .ok s) (hhe : ∀ s x, H.endIter s x = .ok s) (hhp : ∀ s x, H.prep c s x = .ok s)
    (hhh : ∀ s x, H.handler c s x = none)
    (hgrow : ∀ d n a, own (G.grow d n a) = H.grow d n (own a))
    (hidle : ∀ s, F s → T s (withOwn s (own s.alg)))
    (hcount : ∀ s v n, T s v → T { s with err := n } { v with err := n })
    (herr : ∀ s v, T s v → s.err = v.err)
    (hupd : ∀ s x l s', F s → X x → Sparse.dim x ≤ s.dim → G.update c s x l = .ok s' →
      ∃ v, H.update c (withOwn s (own s.alg)) x l = .ok v ∧ T s' v)
    {s s' : St α A} (hs : F s) {e : Ex α} {r : α} (hx : X e.x) (hl : LabelOk c.clf e.label) (h : trainOne G c s e r = .ok s') :
    ∃ v, trainOne H c (withOwn s (own s.alg)) e r = .ok v ∧ T s' v := by
  have hc : 1 ≤ c.clf := Props.clf_pos hk
  have hent : enter H (withOwn s (own s.alg)) e.x = withOwn (enter G s e.x) (own (enter G s e.x).alg) := by
    unfold enter updateDim
    split
    · simp only [withOwn] at *
      rw [if_pos (by assumption)]
      simp only [hgrow]
    · simp only [withOwn] at *
      rw [if_neg (by assumption)]
  obtain ⟨s0, h0, hf0, hs0⟩ := hA.start s e.x hs hx
  rw [hgb] at h0
  obtain rfl := Res.ok.inj h0
  have hd0 : Sparse.dim e.x ≤ (enter G s e.x).dim := by rw [enter_dim]; omega
  simp only [trainOne, iterate, hgb, hgp, hhb, hhp, Res.bind_ok, hent] at h ⊢
  generalize enter G s e.x = t at *
  obtain ⟨⟨s2, pred⟩, h2, h3⟩ := Res.bind_eq_ok.1 h
  obtain ⟨⟨p, pl⟩, h4, h5⟩ := Res.bind_eq_ok.1 h2
  have h4' : predict c (withOwn t (own t.alg)) e.x = .ok (p, pl) := h4
  rw [h4', Res.bind_ok]
  obtain ⟨sk, h6, h7⟩ := Res.bind_eq_ok.1 h5
  simp only [h6, Res.bind_ok]
  have done : ∀ (s2 : St α A) (v : St α A'), T s2 v →
      T (if pl ≠ e.label then { s2 with err := s2.err + 1 } else s2) (if pl ≠ e.label then { v with err := v.err + 1 } else v) := by
    intro s2 v hT
    split
    · have := herr _ _ hT
      have := hcount _ _ (s2.err + 1) hT
      rwa [herr _ _ hT] at this ⊢
    · exact hT
  cases sk with
  | true =>
    simp only [if_true, Res.ok.injEq, Prod.mk.injEq] at h7
    obtain ⟨rfl, rfl⟩ := h7
    simp only [if_true, Res.bind_ok, Res.ok.injEq] at h3 ⊢
    rw [← h3]
    exact ⟨_, rfl, done _ _ (hidle { t with t := t.t - 1 } (hA.skip e.x _ _ hf0))⟩
  | false =>
    simp only [Bool.false_eq_true, if_false] at h7 ⊢
    obtain ⟨s3, h8, h9⟩ := Res.bind_eq_ok.1 h7
    simp only [Res.ok.injEq, Prod.mk.injEq] at h9
    obtain ⟨rfl, rfl⟩ := h9
    simp only [learn, hgh, hhh, hge, hhe] at h8 ⊢
    obtain ⟨⟨l, g, m, v⟩, h10, h11⟩ := Res.bind_eq_ok.1 h8
    have h10' : gradient c.kind (costMargin c e.label (withOwn t (own t.alg)).margin) none (withOwn t (own t.alg)).vi e.label p pl
      (withOwn t (own t.alg)).g = .ok (l, g, m, v) := h10
    rw [h10', Res.bind_ok]
    obtain ⟨s4, h12, h13⟩ := Res.bind_eq_ok.1 h11
    obtain rfl := Res.ok.inj h13
    obtain ⟨⟨p', pl'⟩, q1, q2, q3⟩ := gives_predict (s := t) hc (hA.asc _ hx) (hA.shape e.x _ hf0).1 (hA.shape e.x _ hf0).2.1
    rw [h4] at q1
    obtain ⟨rfl, rfl⟩ := Prod.mk.inj (Res.ok.inj q1)
    obtain ⟨⟨l', g', m', v'⟩, q4, hg⟩ := gives_gradient (k := c.kind) (label := e.label) (pl := pl) (p := p) (g := t.g)
      (costMargin c e.label t.margin) none t.vi hk hl q2 q3 (hA.shape e.x _ hf0).2.2 (fun f hf => by simp at hf)
    rw [h10] at q4
    obtain ⟨rfl, rfl, rfl, rfl⟩ : l = l' ∧ g = g' ∧ m = m' ∧ v = v' := by simpa using q4
    simp only [maybeUpdate] at h12 ⊢
    simp only [Res.ok.injEq] at h3
    rw [← h3]
    split
    · rename_i hfire
      rw [if_pos hfire] at h12
      obtain ⟨v1, e1, e2⟩ := hupd { t with g := g, margin := m, vi := v, upd := t.upd + 1 } e.x l _ (hA.scored e.x _ g m v _ hf0 hg) hx hd0 h12
      have e1' : H.update c { ({ withOwn t (own t.alg) with g := g, margin := m, vi := v } : St α A') with
        upd := ({ withOwn t (own t.alg) with g := g, margin := m, vi := v } : St α A').upd + 1 } e.x l = .ok v1 := e1
      rw [e1']
      exact ⟨_, rfl, done _ _ e2⟩
    · rename_i hfire
      rw [if_neg hfire] at h12
      obtain rfl := Res.ok.inj h12
      exact ⟨_, rfl, done _ _ (hidle { t with g := g, margin := m, vi := v } (hA.scored e.x _ g m v t.upd hf0 hg))⟩

/-- Two loops over the classes as one. -/
theorem each1_both {k : α → List α → List α → Res (List α)} {F : α → List α → Res (List α)} (gl : List α) (ws sigs : List (List α))
    (l1 : gl.length = ws.length) (l2 : ws.length = sigs.length) {r1 : List (List α × List α)} {r2 : List (List α)}
    (e1 : each1 (fun g (p : List α × List α) => do let w ← k g p.1 p.2; .ok (w, p.2)) gl (ws.zip sigs) = .ok r1)
    (e2 : each1 F gl sigs = .ok r2) :
    each1 (fun g (p : List α × List α) => do let w ← k g p.1 p.2; let s ← F g p.2; .ok (w, s)) gl (ws.zip sigs) =
      .ok ((r1.map (·.1)).zip r2) := by
  induction gl generalizing ws sigs r1 r2 with
  | nil =>
    obtain rfl := List.length_eq_zero_iff.1 l1.symm
    obtain rfl := List.length_eq_zero_iff.1 l2.symm
    obtain rfl := Res.ok.inj e1
    obtain rfl := Res.ok.inj e2
    rfl
  | cons g gl ih =>
    cases ws with
    | nil => simp at l1
    | cons w ws =>
      cases sigs with
      | nil => simp at l2
      | cons sg sigs =>
        simp only [List.zip_cons_cons, each1, Res.bind_eq_ok] at e1 e2
        obtain ⟨p, a1, rest, a2, a3⟩ := e1
        obtain ⟨q, b1, rest', b2, b3⟩ := e2
        obtain rfl := Res.ok.inj a3
        obtain rfl := Res.ok.inj b3
        simp only [List.zip_cons_cons, each1, ih ws sigs (by simpa using l1) (by simpa using l2) a2 b2]
        split at a1
        · rename_i hz
          rw [if_pos hz] at b1
          obtain rfl := Res.ok.inj a1
          obtain rfl := Res.ok.inj b1
          rw [if_pos hz]
          rfl
        · rename_i hz
          rw [if_neg hz] at b1
          obtain ⟨w', c1, c2⟩ := Res.bind_eq_ok.1 a1
          obtain rfl := Res.ok.inj c2
          rw [if_neg hz, c1, Res.bind_ok, b1]
          rfl

/-- Two loops over the classes, one after the other, as one. -/
theorem each1_after {β γ τ : Type} (pair : β → γ → τ) {F : α → γ → Res γ} {k K : α → τ → Res τ}
    (hK : ∀ g b c c', F g c = .ok c' → K g (pair b c) = k g (pair b c')) (gl : List α) (ws : List β) (sigs : List γ)
    (l1 : gl.length = ws.length) (l2 : ws.length = sigs.length) {r2 : List γ} {r : List τ} (e2 : each1 F gl sigs = .ok r2)
    (e1 : each1 k gl (List.zipWith pair ws r2) = .ok r) : each1 K gl (List.zipWith pair ws sigs) = .ok r := by
  induction gl generalizing ws sigs r r2 with
  | nil =>
    obtain rfl := List.length_eq_zero_iff.1 l1.symm
    obtain rfl := List.length_eq_zero_iff.1 l2.symm
    obtain rfl := Res.ok.inj e2
    exact e1
  | cons g gl ih =>
    cases ws with
    | nil => simp at l1
    | cons w ws =>
      cases sigs with
      | nil => simp at l2
      | cons sg sigs =>
        simp only [each1, Res.bind_eq_ok] at e2
        obtain ⟨q, b1, rest', b2, b3⟩ := e2
        obtain rfl := Res.ok.inj b3
        simp only [List.zipWith_cons_cons, each1, Res.bind_eq_ok] at e1
        obtain ⟨p, a1, rest, a2, a3⟩ := e1
        obtain rfl := Res.ok.inj a3
        simp only [List.zipWith_cons_cons, each1, ih ws sigs (by simpa using l1) (by simpa using l2) b2 a2]
        split at a1
        · rename_i hz
          rw [if_pos hz] at b1
          obtain rfl := Res.ok.inj a1
          obtain rfl := Res.ok.inj b1
          rw [if_pos hz]
          rfl
        · rename_i hz
          rw [if_neg hz] at b1
          rw [if_neg hz, hK _ _ _ _ b1, a1]
          rfl

end

end Sol.Select
