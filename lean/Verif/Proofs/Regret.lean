import Verif.Spec.Regret
import Verif.Proofs.Eta
/-! The distance to a fixed linear function during training with a scalar step size. -/

set_option linter.unusedSectionVars false
set_option linter.unusedVariables false

namespace Sol.Olm

open Sol.Online Sol.Sparse Sol.Loss Sol.Spec

section
variable {α A : Type} [Zero α] [One α] [Add α] [Sub α] [Mul α] [Div α] [Neg α] [FCmp α] [IntCast α] [FFun α] [FSqrt α]

/-- One example without active learning and lazy updates. -/
theorem one_step {c : Cfg α} {G : Alg α A} (hm : Margin G) (hhand : ∀ c s x, G.handler c s x = none) (hlazy : c.lazyUpdate = false)
    (hsm : (0 <? c.smooth) = false) {s s' : St α A} {e : Ex α} {r : α} (h : trainOne G c s e r = .ok s') :
    ∃ p pred l g m v, predict c (enter G s e.x) e.x = .ok (p, pred) ∧
      gradient c.kind (costMargin c e.label (enter G s e.x).margin) none (enter G s e.x).vi e.label p pred (enter G s e.x).g
        = .ok (l, g, m, v) ∧
      ((0 <? l) = true → ∃ s2 n, G.update c { enter G s e.x with g := g, margin := m, vi := v, upd := (enter G s e.x).upd + 1 } e.x l
        = .ok s2 ∧ s' = { s2 with err := n }) ∧
      ((0 <? l) = false → ∃ n, s' = { enter G s e.x with g := g, margin := m, vi := v, err := n }) := by
  obtain ⟨hb, hp, he⟩ := margin_hooks hm
  simp only [trainOne, iterate, hb, hp, Res.bind_ok, Res.bind_eq_ok] at h
  obtain ⟨⟨s1, pred'⟩, ⟨⟨p, pred⟩, h1, sk, h2, h3⟩, h4⟩ := h
  have hsk : sk = false := by
    simp only [skipped, hsm, Bool.false_eq_true, if_false] at h2
    exact (Res.ok.inj h2).symm
  rw [hsk] at h3
  simp only [Bool.false_eq_true, if_false, Res.bind_eq_ok] at h3
  obtain ⟨s3, h5, h6⟩ := h3
  simp only [Res.ok.injEq, Prod.mk.injEq] at h6
  obtain ⟨rfl, rfl⟩ := h6
  simp only [learn, Res.bind_eq_ok] at h5
  obtain ⟨⟨l, g, m, v⟩, h7, s4, h8, h9⟩ := h5
  rw [he] at h9
  obtain rfl := Res.ok.inj h9
  rw [hhand] at h7
  refine ⟨p, pred, l, g, m, v, h1, h7, fun hl => ?_, fun hl => ?_⟩
  · simp only [maybeUpdate, fires, hlazy, Bool.false_eq_true, if_false, hl, if_true] at h8
    rw [← Res.ok.inj h4]
    split
    · exact ⟨s4, _, h8, rfl⟩
    · exact ⟨s4, s4.err, h8, rfl⟩
  · simp only [maybeUpdate, fires, hlazy, Bool.false_eq_true, if_false, hl] at h8
    rw [← Res.ok.inj h4, ← Res.ok.inj h8]
    split
    · exact ⟨_, rfl⟩
    · exact ⟨(enter G s e.x).err, rfl⟩

end

section
variable {α A : Type} [Field α] [LinearOrder α] [IsStrictOrderedRing α] [FFun α] [FSqrt α]

/-- The squared distance between two families of linear functions. -/
def dist2 (n D : Nat) (b : α) (W U : Nat → Nat → α) : α := ip n D b (fun k i => W k i - U k i) (fun k i => W k i - U k i)

theorem dist2_eq (n D : Nat) (b : α) (W U : Nat → Nat → α) :
    dist2 n D b W U = ip n D b W W - 2 * ip n D b W U + ip n D b U U := by
  unfold dist2
  rw [ip_sub, ip_comm n D b W (fun k i => W k i - U k i), ip_sub, ip_comm n D b U (fun k i => W k i - U k i), ip_sub,
    ip_comm n D b U W]
  ring

theorem dist2_nonneg {n D : Nat} {b : α} (hb : 0 ≤ b) (W U : Nat → Nat → α) : 0 ≤ dist2 n D b W U := ip_nonneg hb _

/-- The loss function and the gradient computed for it: the loss is `L`, its gradient has squared norm at most `κ` and is a
    subgradient up to `ε`.  `Low` is a condition on the scores. -/
structure Bent (c : Cfg α) (m : α) (L : Ex α → (Nat → α) → α) (κ ε : α) (Lab : Int → Prop) (Low : (Nat → α) → Prop) : Prop where
  nonneg : ∀ e v, 0 ≤ L e v
  sq : 0 ≤ κ
  err : 0 ≤ ε
  grad : ∀ e p pred g0 vi l g m' v', p.length = c.clf → g0.length = c.clf → labelOf c.clf p = .ok pred → Lab e.label →
    Low (fun k => p.getD k 0) → gradient c.kind m none vi e.label p pred g0 = .ok (l, g, m', v') →
    m' = m ∧ l = L e (fun k => p.getD k 0) ∧ (0 < l → ∑ k ∈ Finset.range c.clf, g.getD k 0 * g.getD k 0 ≤ κ ∧
      ∀ v : Nat → α, l + ∑ k ∈ Finset.range c.clf, g.getD k 0 * (v k - p.getD k 0) ≤ L e v + ε)

/-- The scores of the model. -/
theorem scores_cell {c : Cfg α} {inv : Nat → A → Prop} {G : Alg α A} {s : St α A} (hs : Fit c inv s) {x : SVec α} (hx : Good x)
    {p : List α} {pred : Int} (h : predict c (enter G s x) x = .ok (p, pred)) :
    (fun k => p.getD k 0) = scoresOf (cell s.w) x := by
  have hfe : Fit c (none' A) (enter G s x) := enter_fit hs x
  have hpl : p.length = c.clf := by rw [(predict_eq hfe hx.1 h).1, List.length_map, hfe.w.1]
  funext k
  rcases Nat.lt_or_ge k c.clf with hk | hk
  · rw [predict_get hfe hx.1 h k hk]
    have : ∀ i, cell (enter G s x).w k i = cell s.w k i := fun i => enter_cell hs x k i hk
    rw [funext this]
    rfl
  · have h1 : p.getD k 0 = 0 := by simp [List.getD_eq_getElem?_getD, List.getElem?_eq_none (l := p) (i := k) (by omega)]
    have h2 : ∀ i, cell s.w k i = 0 := by
      intro i
      have : s.w[k]? = none := List.getElem?_eq_none (by rw [hs.w.1]; exact hk)
      simp [cell, coord, List.getD_eq_getElem?_getD, this]
    rw [h1]
    unfold scoresOf linear
    simp [h2]

/-- One example: how the distance to `U` changes. -/
theorem regret_step {c : Cfg α} {G : Alg α A} {inv : Nat → A → Prop} {mid : SVec α → Nat → A → Prop} (hG : Safe c G inv mid)
    (hm : Margin G) (hk : Matches c.kind c.clf) (E : Int → SVec α → α → α)
    (hupd : ∀ c s x l, G.update c s x l = etaStep c { s with eta := E s.t x l } x)
    (hhand : ∀ c s x, G.handler c s x = none) (hlazy : c.lazyUpdate = false) (hsm : c.smooth ≤ 0) (hcost : c.cost = none)
    (hb : 0 ≤ c.biasEta0) (D : Nat) (hD : 1 ≤ D) (U : Nat → Nat → α) (hU0 : c.biasEta0 = 0 → ∀ k < c.clf, U k 0 = 0)
    {L : Ex α → (Nat → α) → α} {m κ ε : α} {Lab : Int → Prop} {Low : (Nat → α) → Prop} (hL : Bent c m L κ ε Lab Low)
    {s s' : St α A} {e : Ex α} {r : α} (hs : Fit c inv s) (hmar : s.margin = m)
    (h0 : c.biasEta0 = 0 → ∀ k < c.clf, cell s.w k 0 = 0) (hx : Good e.x) (hr : ∀ p ∈ e.x, 1 ≤ p.1 ∧ p.1 < D)
    (hl : LabelOk c.clf e.label) (hlab : Lab e.label) (hlow : Low (scoresOf (cell s.w) e.x)) (h : trainOne G c s e r = .ok s') :
    Fit c inv s' ∧ s'.margin = m ∧ s'.t = s.t + 1 ∧ (c.biasEta0 = 0 → ∀ k < c.clf, cell s'.w k 0 = 0) ∧
      ∀ l E', l = L e (scoresOf (cell s.w) e.x) → E' = E (s.t + 1) e.x l → 0 ≤ E' →
        dist2 c.clf D c.biasEta0 (cell s'.w) U ≤ dist2 c.clf D c.biasEta0 (cell s.w) U
          - 2 * E' * (l - L e (scoresOf U e.x) - ε) + E' ^ 2 * (κ * (sqnorm e.x + c.biasEta0)) := by
  have hfit : Fit c inv s' := by
    obtain ⟨ev, s'', hh, hf, -⟩ := happens hG hk s hs e r hx hl
    obtain ⟨_, _, _, _, _, _, _, _, h1⟩ := hh
    rw [h] at h1
    exact Res.ok.inj h1 ▸ hf
  obtain ⟨p, pred, l, g, m', v, h1, h2, h3, h4⟩ := one_step hm hhand hlazy (by simpa using hsm) h
  have hfe : Fit c (none' A) (enter G s e.x) := enter_fit hs e.x
  have hscore := scores_cell (G := G) hs hx h1
  obtain ⟨hp, hpred⟩ := predict_eq hfe hx.1 h1
  have hpl : p.length = c.clf := by rw [hp, List.length_map, hfe.w.1]
  have hc : 1 ≤ c.clf := by
    unfold Matches at hk
    split at hk <;> omega
  have hr' : InRange c.clf pred := by
    obtain ⟨⟨p', pr'⟩, hh1, hh2, hh3⟩ := gives_predict (s := enter G s e.x) hc hx.1 hfe.dim hfe.w
    rw [h1] at hh1
    obtain ⟨rfl, rfl⟩ := Prod.mk.inj (Res.ok.inj hh1)
    exact hh3
  have hgl : g.length = c.clf := gradient_length hk hpl hfe.g hl hr' h2
  have hmar' : (enter G s e.x).margin = s.margin := by simp only [enter, updateDim]; split <;> rfl
  have htt : (enter G s e.x).t = s.t + 1 := by simp only [enter, updateDim]; split <;> rfl
  have hcm : costMargin c e.label (enter G s e.x).margin = m := by simp [costMargin, hcost, hmar', hmar]
  rw [hcm] at h2
  obtain ⟨rfl, hll, hgr⟩ := hL.grad e p pred _ _ l g m' v hpl hfe.g hpred hlab (by rw [hscore]; exact hlow) h2
  rw [hscore] at hll
  have hl0 : 0 ≤ l := by rw [hll]; exact hL.nonneg _ _
  have hsq : 0 ≤ sqnorm e.x + c.biasEta0 := add_nonneg (sqnorm_nonneg _) hb
  by_cases hlp : 0 < l
  · obtain ⟨s2, n, h5, rfl⟩ := h3 (by simpa using hlp)
    rw [hupd] at h5
    generalize hst : ({ enter G s e.x with g := g, margin := m', vi := v, upd := (enter G s e.x).upd + 1 } : St α A) = st at h5
    have hdim : Sparse.dim e.x ≤ st.dim := by
      rw [← hst]
      simp only
      rw [enter_dim]
      omega
    have hfe' : Fit c (none' A) { st with eta := E st.t e.x l } := by
      rw [← hst]
      exact ⟨hfe.dim, hfe.w, hgl, trivial⟩
    obtain ⟨w', h6, -, h7⟩ := etaStep_cell hfe' hx hdim
    rw [h6] at h5
    obtain rfl := Res.ok.inj h5
    have hstt : st.t = s.t + 1 := by rw [← hst]; exact htt
    have hcell : ∀ k < c.clf, ∀ i, cell w' k i = cell s.w k i - E (s.t + 1) e.x l * g.getD k 0 * dir c.biasEta0 e.x i := by
      intro k hk' i
      rw [← enter_cell (G := G) hs e.x k i hk', h7 k hk' i]
      simp only [hstt]
      rw [← hst]
    refine ⟨hfit, by rw [← hst], hstt, ?_, ?_⟩
    · intro hb0 k hk'
      have hx0 : feat e.x 0 = 0 := feat_eq_zero fun p hp => by have := (hr p hp).1; omega
      simp only
      rw [hcell k hk', h0 hb0 k hk']
      simp [dir, hb0, hx0]
    · intro l' E' hl' hE' hE0
      obtain rfl : l' = l := by rw [hl', hll]
      rw [← hE'] at hcell
      obtain ⟨h8, h9⟩ := ip_update hx.1 hr hD (fun k => E' * g.getD k 0) (cell s.w) (cell w') U hcell hU0 h0
      obtain ⟨h10, h11⟩ := hgr hlp
      have h12 := h11 (scoresOf U e.x)
      have e1 : ∑ k ∈ Finset.range c.clf, E' * g.getD k 0 * (linear (U k) e.x + U k 0)
          = E' * ∑ k ∈ Finset.range c.clf, g.getD k 0 * scoresOf U e.x k := by
        rw [Finset.mul_sum]; exact Finset.sum_congr rfl fun k _ => by unfold scoresOf; ring
      have e2 : ∑ k ∈ Finset.range c.clf, E' * g.getD k 0 * (linear (cell s.w k) e.x + cell s.w k 0)
          = E' * ∑ k ∈ Finset.range c.clf, g.getD k 0 * p.getD k 0 := by
        rw [Finset.mul_sum]
        refine Finset.sum_congr rfl fun k _ => ?_
        have := congrFun hscore k
        simp only [scoresOf] at this
        rw [this]; ring
      have e3 : ∑ k ∈ Finset.range c.clf, E' * g.getD k 0 * (E' * g.getD k 0)
          = E' ^ 2 * ∑ k ∈ Finset.range c.clf, g.getD k 0 * g.getD k 0 := by
        rw [Finset.mul_sum]; exact Finset.sum_congr rfl fun k _ => by ring
      have e4 : ∑ k ∈ Finset.range c.clf, g.getD k 0 * (scoresOf U e.x k - p.getD k 0)
          = (∑ k ∈ Finset.range c.clf, g.getD k 0 * scoresOf U e.x k) - ∑ k ∈ Finset.range c.clf, g.getD k 0 * p.getD k 0 := by
        rw [← Finset.sum_sub_distrib]; exact Finset.sum_congr rfl fun k _ => by ring
      rw [e1] at h8
      rw [e2, e3] at h9
      rw [e4] at h12
      simp only
      rw [dist2_eq, dist2_eq, h8, h9]
      have h13 := mul_le_mul_of_nonneg_left h12 hE0
      have h14 := mul_le_mul_of_nonneg_left (mul_le_mul_of_nonneg_right h10 hsq) (sq_nonneg E')
      nlinarith [h13, h14]
  · obtain ⟨n, rfl⟩ := h4 (by simpa using hlp)
    have hcell : ∀ k < c.clf, ∀ i, cell (enter G s e.x).w k i = cell s.w k i := fun k hk' i => enter_cell hs e.x k i hk'
    refine ⟨hfit, rfl, htt, fun hb0 k hk' => by rw [hcell k hk']; exact h0 hb0 k hk', ?_⟩
    intro l' E' hl' hE' hE0
    obtain rfl : l' = l := by rw [hl', hll]
    have hz : l' = 0 := le_antisymm (not_lt.1 hlp) hl0
    have hd : dist2 c.clf D c.biasEta0 (cell (enter G s e.x).w) U = dist2 c.clf D c.biasEta0 (cell s.w) U := by
      unfold dist2
      exact ip_congr (fun k hk' i => by rw [hcell k hk' i]) (fun k hk' i => by rw [hcell k hk' i])
    simp only
    rw [hd, hz]
    have h1 : 0 ≤ E' * L e (scoresOf U e.x) := mul_nonneg hE0 (hL.nonneg _ _)
    have h2 : 0 ≤ E' * ε := mul_nonneg hE0 hL.err
    have h3 : 0 ≤ E' ^ 2 * (κ * (sqnorm e.x + c.biasEta0)) := mul_nonneg (sq_nonneg _) (mul_nonneg hL.sq hsq)
    nlinarith

/-- One example of a run: the distance before it, the step, the loss, the loss compared with, the square of the direction. -/
structure Pos (α : Type) where
  d : α
  E : α
  l : α
  u : α
  q : α

/-- The distances along a run. -/
inductive Falls (ε : α) : α → List (Pos α) → α → Prop where
  | nil {d} : 0 ≤ d → Falls ε d [] d
  | cons {z d1 L d2} : d1 ≤ z.d - 2 * z.E * (z.l - z.u - ε) + z.E ^ 2 * z.q → 0 ≤ z.d → Falls ε d1 L d2 →
      Falls ε z.d (z :: L) d2

theorem Falls.nonneg {ε d d2 : α} {L : List (Pos α)} (h : Falls ε d L d2) : 0 ≤ d ∧ 0 ≤ d2 := by
  induction h with
  | nil h => exact ⟨h, h⟩
  | cons _ h _ ih => exact ⟨h, ih.2⟩

theorem Falls.sum {ε d d2 : α} {L : List (Pos α)} (h : Falls ε d L d2) :
    (L.map fun z => 2 * z.E * (z.l - z.u - ε) - z.E ^ 2 * z.q).sum + d2 ≤ d := by
  induction h with
  | nil h => simp
  | cons h _ _ ih =>
    simp only [List.map_cons, List.sum_cons]
    linarith

/-- A bound for every example gives a bound for the run. -/
theorem Falls.bound {ε d d2 : α} {L : List (Pos α)} (h : Falls ε d L d2) (f : Pos α → α)
    (hf : ∀ z ∈ L, f z ≤ 2 * z.E * (z.l - z.u - ε) - z.E ^ 2 * z.q) : (L.map f).sum ≤ d := by
  have h1 := h.sum
  have h2 : (L.map f).sum ≤ (L.map fun z => 2 * z.E * (z.l - z.u - ε) - z.E ^ 2 * z.q).sum := List.sum_le_sum hf
  linarith [h.nonneg.2]

/-- Decreasing steps and bounded distances. -/
theorem Falls.bounded {ε d d2 B Q H : α} {L : List (Pos α)} (h : Falls ε d L d2) (hB : ∀ z ∈ L, z.d ≤ B) (hq : ∀ z ∈ L, z.q ≤ Q)
    (hp : ∀ z ∈ L, 0 < z.E) (hH : ∀ z ∈ L, 1 / z.E ≤ H) (hd : d ≤ B) (E0 : α) (hE0 : 0 < E0) (hEH : 1 / E0 ≤ H)
    (hc : (E0 :: L.map (·.E)).IsChain (fun a b => b ≤ a)) :
    (L.map fun z => z.l - z.u - ε - z.E / 2 * Q).sum ≤ (d - B) / (2 * E0) + B / 2 * H := by
  induction h generalizing E0 with
  | @nil d h =>
    simp only [List.map_nil, List.sum_nil]
    have h1 : B / 2 * (1 / E0) ≤ B / 2 * H := mul_le_mul_of_nonneg_left hEH (by linarith)
    have h2 : (d - B) / (2 * E0) + B / 2 * (1 / E0) = d / (2 * E0) := by field_simp; ring
    have h3 : 0 ≤ d / (2 * E0) := by positivity
    linarith
  | @cons z d1 L d2 h hz ht ih =>
    simp only [List.map_cons, List.isChain_cons_cons] at hc
    have hzE := hp z List.mem_cons_self
    have hzq := hq z List.mem_cons_self
    simp only [List.map_cons, List.sum_cons]
    have hfirst : z.l - z.u - ε - z.E / 2 * Q ≤ (z.d - d1) / (2 * z.E) := by
      rw [le_div_iff₀ (by positivity)]
      have := mul_le_mul_of_nonneg_left hzq (sq_nonneg z.E)
      nlinarith
    have hmono : ∀ x : α, x ≤ 0 → x / (2 * z.E) ≤ x / (2 * E0) := by
      intro x hx
      rw [div_le_div_iff₀ (by positivity) (by positivity)]
      nlinarith [mul_le_mul_of_nonpos_left hc.1 hx]
    have hzB : z.d - B ≤ 0 := by linarith [hB z List.mem_cons_self]
    by_cases hd1 : d1 ≤ B
    · have := ih (fun y hy => hB y (List.mem_cons_of_mem _ hy)) (fun y hy => hq y (List.mem_cons_of_mem _ hy))
        (fun y hy => hp y (List.mem_cons_of_mem _ hy)) (fun y hy => hH y (List.mem_cons_of_mem _ hy)) hd1 z.E hzE
        (hH z List.mem_cons_self) hc.2
      have h1 := hmono _ hzB
      have h2 : (z.d - d1) / (2 * z.E) + (d1 - B) / (2 * z.E) = (z.d - B) / (2 * z.E) := by ring
      linarith
    · -- only the model after the last example may be further away than `B`
      cases ht with
      | cons _ _ _ => exact absurd (hB _ (List.mem_cons_of_mem _ List.mem_cons_self)) hd1
      | nil h0 =>
        simp only [List.map_nil, List.sum_nil]
        have h1 : (z.d - d1) / (2 * z.E) ≤ 0 := div_nonpos_of_nonpos_of_nonneg (by linarith) (by positivity)
        have h2 : (z.d - B) / (2 * E0) + B / 2 * (1 / E0) = z.d / (2 * E0) := by field_simp; ring
        have h3 : 0 ≤ z.d / (2 * E0) := by positivity
        have h4 : B / 2 * (1 / E0) ≤ B / 2 * H := mul_le_mul_of_nonneg_left hEH (by linarith)
        linarith

/-- The numbers of one example. -/
def posOf (c : Cfg α) (D : Nat) (U : Nat → Nat → α) (L : Ex α → (Nat → α) → α) (κ : α) (E : Int → SVec α → α → α)
    (z : St α A × (Ex α × α)) : Pos α where
  d := dist2 c.clf D c.biasEta0 (cell z.1.w) U
  E := E (z.1.t + 1) z.2.1.x (L z.2.1 (scoresOf (cell z.1.w) z.2.1.x))
  l := L z.2.1 (scoresOf (cell z.1.w) z.2.1.x)
  u := L z.2.1 (scoresOf U z.2.1.x)
  q := κ * (sqnorm z.2.1.x + c.biasEta0)

/-- A whole run. -/
theorem regret_visits {c : Cfg α} {G : Alg α A} {inv : Nat → A → Prop} {mid : SVec α → Nat → A → Prop} (hG : Safe c G inv mid)
    (hm : Margin G) (hk : Matches c.kind c.clf) (E : Int → SVec α → α → α)
    (hupd : ∀ c s x l, G.update c s x l = etaStep c { s with eta := E s.t x l } x)
    (hhand : ∀ c s x, G.handler c s x = none) (hlazy : c.lazyUpdate = false) (hsm : c.smooth ≤ 0) (hcost : c.cost = none)
    (hb : 0 ≤ c.biasEta0) (D : Nat) (hD : 1 ≤ D) (U : Nat → Nat → α) (hU0 : c.biasEta0 = 0 → ∀ k < c.clf, U k 0 = 0)
    {L : Ex α → (Nat → α) → α} {m κ ε : α} {Lab : Int → Prop} {Low : (Nat → α) → Prop} (hL : Bent c m L κ ε Lab Low)
    {s s' : St α A} {l : List (Ex α × α)} {sts : List (St α A)} (hs : Fit c inv s) (hmar : s.margin = m)
    (h0 : c.biasEta0 = 0 → ∀ k < c.clf, cell s.w k 0 = 0)
    (hl : ∀ q ∈ l, Good q.1.x ∧ (∀ p ∈ q.1.x, 1 ≤ p.1 ∧ p.1 < D) ∧ LabelOk c.clf q.1.label ∧ Lab q.1.label)
    (h : Visits G c s l sts s')
    (hlow : ∀ z ∈ sts.zip l, Low (scoresOf (cell z.1.w) z.2.1.x)) (hE : ∀ t x lo, s.t < t → 0 ≤ lo → 0 ≤ E t x lo) :
    sts.length = l.length ∧ (∀ i (hi : i < sts.length), sts[i].t = s.t + i) ∧
    Falls ε (dist2 c.clf D c.biasEta0 (cell s.w) U) ((sts.zip l).map (posOf c D U L κ E)) (dist2 c.clf D c.biasEta0 (cell s'.w) U) := by
  induction h with
  | nil s => exact ⟨rfl, by simp, .nil (dist2_nonneg hb _ _)⟩
  | @cons s s1 s2 e r l sts hone ht ih =>
    obtain ⟨hx, hr, hlo, hlab⟩ := hl (e, r) List.mem_cons_self
    have h1 := hlow (s, (e, r)) List.mem_cons_self
    have h2 := hE (s.t + 1) e.x (L e (scoresOf (cell s.w) e.x)) (by omega) (hL.nonneg _ _)
    obtain ⟨h3, h4, h5, h6, h7⟩ := regret_step hG hm hk E hupd hhand hlazy hsm hcost hb D hD U hU0 hL hs hmar h0 hx hr hlo hlab h1 hone
    obtain ⟨h8, h9, h10⟩ := ih h3 h4 h6 (fun q hq => hl q (List.mem_cons_of_mem _ hq))
      (fun z hz => hlow z (List.mem_cons_of_mem _ hz)) (fun t x lo ht => hE t x lo (by omega))
    refine ⟨by simp [h8], ?_, ?_⟩
    · intro i hi
      cases i with
      | zero => simp
      | succ i =>
        have := h9 i (by simpa using hi)
        simp only [List.getElem_cons_succ]
        rw [this, h5]
        push_cast
        ring
    · exact Falls.cons (z := posOf c D U L κ E (s, (e, r))) (h7 _ _ rfl rfl h2) (dist2_nonneg hb _ _) h10

/-! ### The hinge losses -/

theorem bent_hinge {c : Cfg α} (hk : c.kind = .hinge) (hc : c.clf = 1) (m : α) :
    Bent c m (hingeOf m) 1 0 (fun y => y = 1 ∨ y = -1) (fun _ => True) where
  nonneg e v := le_max_left _ _
  sq := zero_le_one
  err := le_refl _
  grad e p pred g0 vi l g m' v' hp hg _ hlab _ h := by
    rw [hk] at h
    rw [hc] at hp hg ⊢
    have hm' : m' = m := by
      simp only [gradient, Res.bind_eq_ok, Res.ok.injEq, Prod.mk.injEq] at h
      obtain ⟨_, _, _, h1, _, _, -, -, h2, -⟩ := h
      rw [← h1] at h2
      exact h2.symm
    obtain ⟨h1, h2⟩ := hinge_grad hp hg h
    refine ⟨hm', by rw [h1]; unfold hingeOf; rw [mul_comm], fun hl => ?_⟩
    rw [if_pos hl] at h2
    rw [Finset.sum_range_one, h2]
    refine ⟨le_of_eq ?_, fun v => ?_⟩
    · rcases hlab with h | h <;> rw [h] <;> simp
    · rw [Finset.sum_range_one, h2]
      have hlv : l = m - p.getD 0 0 * (e.label : α) := by
        rcases max_choice 0 (m - p.getD 0 0 * (e.label : α)) with h | h
        · rw [h] at h1; linarith
        · rw [h] at h1; exact h1
      have := le_max_right 0 (m - (e.label : α) * v 0)
      unfold hingeOf
      rw [hlv]
      linarith

theorem maxHingeOf_ge {n k : Nat} (m : α) (e : Ex α) (v : Nat → α) (hk : k < n) (hne : k ≠ e.label.toNat) :
    m - v e.label.toNat + v k ≤ maxHingeOf n m e v :=
  (Finset.le_fold_max _).2 (.inr ⟨k, Finset.mem_erase.2 ⟨hne, Finset.mem_range.2 hk⟩, le_refl _⟩)

theorem maxHingeOf_eq {n q : Nat} (m : α) (e : Ex α) (v : Nat → α) (hq : q < n) (hne : q ≠ e.label.toNat)
    (hb : ∀ k < n, k ≠ e.label.toNat → v k ≤ v q) : maxHingeOf n m e v = max 0 (m - v e.label.toNat + v q) := by
  apply le_antisymm
  · refine (Finset.fold_max_le _).2 ⟨le_max_left _ _, fun k hk => ?_⟩
    obtain ⟨h1, h2⟩ := Finset.mem_erase.1 hk
    exact le_trans (by linarith [hb k (Finset.mem_range.1 h2) h1]) (le_max_right _ _)
  · exact max_le ((Finset.le_fold_max _).2 (.inl (le_refl _))) (maxHingeOf_ge m e v hq hne)

theorem bent_maxHinge {c : Cfg α} (hk : c.kind = .maxHinge) (hc : 2 ≤ c.clf) (m : α) :
    Bent c m (maxHingeOf c.clf m) 2 0 (fun y => 0 ≤ y ∧ y < c.clf) (fun v => ∀ k < c.clf, FFun.lowest < v k) where
  nonneg e v := (Finset.le_fold_max _).2 (.inl (le_refl _))
  sq := zero_le_two
  err := le_refl _
  grad e p pred g0 vi l g m' v' hp hg hpl hlab hlow h := by
    rw [hk] at h
    obtain ⟨y, hy⟩ := Int.eq_ofNat_of_zero_le hlab.1
    have hyc : y < c.clf := by omega
    have hyt : e.label.toNat = y := by rw [hy]; rfl
    have hm' : m' = m := by
      simp only [gradient, Res.bind_eq_ok] at h
      obtain ⟨_, _, _, _, _, _, h⟩ := h
      split at h
      · simp only [Res.bind_eq_ok, Res.ok.injEq, Prod.mk.injEq] at h
        obtain ⟨_, _, -, -, h2, -⟩ := h
        exact h2.symm
      · simp only [Res.ok.injEq, Prod.mk.injEq] at h
        exact h.2.2.1.symm
    rw [hy] at h
    obtain ⟨q, hq, hqy, hbest, h1, h2⟩ := maxHinge_grad hc hp hg hyc hpl hlow h
    have hLp := maxHingeOf_eq m e (fun k => p.getD k 0) hq (by rw [hyt]; exact hqy) (by rw [hyt]; exact hbest)
    rw [hyt] at hLp
    refine ⟨hm', by rw [h1, hLp], fun hl => ?_⟩
    have h3 := h2 hl
    have hg2 : ∀ f : Nat → α, ∑ k ∈ Finset.range c.clf, g.getD k 0 * f k = f q - f y := by
      intro f
      simp only [h3]
      rw [sum_two hq hyc hqy]
      ring
    refine ⟨?_, fun v => ?_⟩
    · rw [hg2 fun k => g.getD k 0, h3 q, h3 y, if_neg hqy, if_pos rfl, if_pos rfl]
      norm_num
    · rw [hg2 fun k => v k - p.getD k 0]
      have hlv : l = m - p.getD y 0 + p.getD q 0 := by
        rcases max_choice 0 (m - p.getD y 0 + p.getD q 0) with h | h
        · rw [h] at h1; linarith
        · rw [h] at h1; exact h1
      have := maxHingeOf_ge m e v hq (by rw [hyt]; exact hqy)
      rw [hyt] at this
      rw [hlv]
      linarith

end
end Sol.Olm
