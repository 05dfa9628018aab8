import Verif.Spec.Composite
import Verif.Proofs.Regret
import Verif.Proofs.Lazy
/-! The distance to a fixed linear function during training that shrinks all weights after every example. -/

set_option linter.unusedSectionVars false
set_option linter.unusedVariables false

namespace Sol.Olm

open Sol.Online Sol.Sparse Sol.Loss Sol.Spec

variable {α : Type} [Field α] [LinearOrder α] [IsStrictOrderedRing α] [FFun α] [FSqrt α]

/-- Shrinking a number against any other number. -/
theorem soft_prox (a u : α) {b : α} (hb : 0 ≤ b) : (soft a b - u) ^ 2 + 2 * b * |soft a b| ≤ (a - u) ^ 2 + 2 * b * |u| := by
  have h1 : u ≤ |u| := le_abs_self u
  have h2 : -u ≤ |u| := neg_le_abs u
  unfold soft
  split
  · rename_i h
    rw [abs_of_pos (by linarith)]
    nlinarith [mul_nonneg hb (sub_nonneg.2 h1), sq_nonneg b]
  · rename_i h
    split
    · rename_i h'
      rw [abs_of_neg (by linarith)]
      nlinarith [mul_nonneg hb (sub_nonneg.2 h2), sq_nonneg b]
    · rename_i h'
      have ha : |a| ≤ b := abs_le.2 ⟨by linarith, by linarith⟩
      have h3 : a * u ≤ b * |u| := by
        calc a * u ≤ |a * u| := le_abs_self _
          _ = |a| * |u| := abs_mul _ _
          _ ≤ b * |u| := mul_le_mul_of_nonneg_right ha (abs_nonneg _)
      simp only [abs_zero]
      nlinarith [sq_nonneg a]

/-- Shrinking all weights against any linear functions. -/
theorem dist2_prox {n D : Nat} {b β : α} (hb : 0 ≤ b) (hβ : 0 ≤ β) (V W U : Nat → Nat → α)
    (hV : ∀ k < n, ∀ i, V k i = soft (W k i) (if i = 0 then b * β else β)) (h0 : b = 0 → ∀ k < n, W k 0 = 0) :
    dist2 n D b V U + 2 * β * absSum n D V ≤ dist2 n D b W U + 2 * β * absSum n D U := by
  unfold dist2 ip absSum
  rw [Finset.mul_sum, Finset.mul_sum, ← Finset.sum_add_distrib, ← Finset.sum_add_distrib]
  refine Finset.sum_le_sum fun k hk => ?_
  rw [Finset.mul_sum, Finset.mul_sum, ← Finset.sum_add_distrib, ← Finset.sum_add_distrib]
  refine Finset.sum_le_sum fun i _ => ?_
  have hk' := Finset.mem_range.1 hk
  beta_reduce
  rw [hV k hk' i]
  by_cases hi : i = 0
  · subst hi
    simp only [if_true]
    rcases hb.eq_or_lt with h | h
    · rw [h0 h.symm k hk', ← h, zero_mul, soft_zero_right]
      simp only [inv_zero, zero_mul, abs_zero, mul_zero, zero_add]
      positivity
    · have h1 := mul_le_mul_of_nonneg_left (soft_prox (W k 0) (U k 0) (mul_nonneg hb hβ)) (inv_nonneg.2 hb)
      have h2 : ∀ x y : α, b⁻¹ * (x ^ 2 + 2 * (b * β) * y) = b⁻¹ * x * x + 2 * β * y := by
        intro x y
        field_simp
      rw [h2, h2] at h1
      exact h1
  · simp only [hi, if_false]
    have h1 := soft_prox (W k i) (U k i) hβ
    nlinarith

/-- One example of the eager algorithm is one of gradient descent, followed by shrinking. -/
theorem eager_half {c : Cfg α} {eta0 lambda b thresh : α} (hsm : c.smooth ≤ 0) {s s' : St α Unit} {e : Ex α} {r : α}
    (h : trainOne (eagerL1 eta0 lambda b thresh) c s e r = .ok s') :
    ∃ h, trainOne (ogd eta0 fun _ => 1) c s e r = .ok h ∧
      s' = { h with w := h.w.map (shrink (h.eta * lambda) (b * h.eta * lambda)) } := by
  have hsm' : (0 <? c.smooth) = false := by simpa using hsm
  simp only [trainOne, iterate, Res.bind_eq_ok] at h
  obtain ⟨⟨s1, pred'⟩, ⟨s0, h0, s01, h01, ⟨p, pred⟩, h1, sk, h2, h3⟩, h4⟩ := h
  obtain rfl := Res.ok.inj h0
  obtain rfl := Res.ok.inj h01
  have hsk : sk = false := by
    simp only [skipped, hsm', Bool.false_eq_true, if_false] at h2
    exact (Res.ok.inj h2).symm
  subst hsk
  simp only [Bool.false_eq_true, if_false, Res.bind_eq_ok, learn] at h3
  obtain ⟨s3, ⟨⟨l, g, m, v⟩, h7, s4, h8, h9⟩, h6⟩ := h3
  simp only [Res.ok.injEq, Prod.mk.injEq] at h6
  obtain ⟨rfl, rfl⟩ := h6
  have h9' := Res.ok.inj h9
  have henter : enter (eagerL1 eta0 lambda b thresh) s e.x = enter (ogd eta0 fun _ => 1) s e.x := rfl
  have hupd : maybeUpdate (ogd eta0 fun _ => 1) c { enter (ogd eta0 fun _ => 1) s e.x with g := g, margin := m, vi := v } e pred l
      = .ok s4 := by
    rw [← h8]
    simp only [maybeUpdate, henter]
    split
    · simp only [ogd, plain, eagerL1, div_one]
    · rfl
  have hlearn : learn (ogd eta0 fun _ => 1) c (enter (ogd eta0 fun _ => 1) s e.x) e p pred = .ok s4 := by
    simp only [learn, Res.bind_eq_ok]
    exact ⟨(l, g, m, v), h7, s4, hupd, rfl⟩
  refine ⟨if pred ≠ e.label then { s4 with err := s4.err + 1 } else s4, ?_, ?_⟩
  · simp only [trainOne, iterate, Res.bind_eq_ok]
    refine ⟨(s4, pred), ⟨_, rfl, _, rfl, (p, pred), h1, false, h2, ?_⟩, rfl⟩
    simp only [Bool.false_eq_true, if_false, Res.bind_eq_ok]
    exact ⟨s4, hlearn, rfl⟩
  · rw [← Res.ok.inj h4, ← h9']
    split <;> rfl

/-- One example of the eager algorithm: how the distance to `U` and the sum of the absolute weights change. -/
theorem composite_step {c : Cfg α} (hk : Matches c.kind c.clf) (hlazy : c.lazyUpdate = false) (hsm : c.smooth ≤ 0)
    (hcost : c.cost = none) (hb : 0 ≤ c.biasEta0) (D : Nat) (hD : 1 ≤ D) (U : Nat → Nat → α)
    (hU0 : c.biasEta0 = 0 → ∀ k < c.clf, U k 0 = 0) {L : Ex α → (Nat → α) → α} {m κ ε : α} {Lab : Int → Prop}
    {Low : (Nat → α) → Prop} (hL : Bent c m L κ ε Lab Low) {eta0 lambda thresh : α} (he : 0 ≤ eta0) (hla : 0 ≤ lambda)
    {s s' : St α Unit} {e : Ex α} {r : α} (hs : Fit c (none' Unit) s) (hmar : s.margin = m)
    (h0 : c.biasEta0 = 0 → ∀ k < c.clf, cell s.w k 0 = 0) (hrate : s.eta = eta0 ∨ ∀ k < c.clf, ∀ i, cell s.w k i = 0)
    (hpos : 0 ≤ s.eta) (hx : Good e.x) (hr : ∀ p ∈ e.x, 1 ≤ p.1 ∧ p.1 < D) (hl : LabelOk c.clf e.label) (hlab : Lab e.label)
    (hlow : Low (scoresOf (cell s.w) e.x)) (h : trainOne (eagerL1 eta0 lambda c.biasEta0 thresh) c s e r = .ok s') :
    s'.margin = m ∧ (c.biasEta0 = 0 → ∀ k < c.clf, cell s'.w k 0 = 0) ∧
      dist2 c.clf D c.biasEta0 (cell s'.w) U + 2 * (eta0 * lambda) * absSum c.clf D (cell s'.w)
        ≤ dist2 c.clf D c.biasEta0 (cell s.w) U - 2 * eta0 * (L e (scoresOf (cell s.w) e.x) - L e (scoresOf U e.x) - ε)
          + eta0 ^ 2 * (κ * (sqnorm e.x + c.biasEta0)) + 2 * (eta0 * lambda) * absSum c.clf D U := by
  obtain ⟨u, hu, rfl⟩ := eager_half hsm h
  obtain ⟨h1, h2, -, h4, h5⟩ := regret_step (safe_ogd c eta0 fun _ => 1) (.ogd eta0 fun _ => 1) hk (fun _ _ _ => eta0)
    (fun c s x l => by simp only [ogd, plain, div_one]) (fun _ _ _ => rfl) hlazy hsm hcost hb D hD U hU0 hL hs hmar h0 hx hr hl hlab
    hlow hu
  have h6 := h5 _ _ rfl rfl he
  have heta : u.eta = eta0 ∨ u.eta = s.eta ∧ ∀ k < c.clf, ∀ i, cell u.w k i = cell s.w k i := by
    obtain ⟨p, pred, l, g, m', v, -, -, h7, h8⟩ := one_step (.ogd eta0 fun _ => 1) (fun _ _ _ => rfl) hlazy (by simpa using hsm) hu
    cases hq : (0 <? l) with
    | true =>
      obtain ⟨s2, n, h9, rfl⟩ := h7 hq
      simp only [ogd, plain, etaStep, Res.bind_eq_ok, div_one] at h9
      obtain ⟨w, -, h9⟩ := h9
      rw [← Res.ok.inj h9]
      exact .inl rfl
    | false =>
      obtain ⟨n, rfl⟩ := h8 hq
      exact .inr ⟨(enter_fields _ s e.x).2.1, fun k hk' i => enter_cell hs e.x k i hk'⟩
  have hshr : ∀ k < c.clf, ∀ i, cell (u.w.map (shrink (u.eta * lambda) (c.biasEta0 * u.eta * lambda))) k i
      = soft (cell u.w k i) (if i = 0 then c.biasEta0 * u.eta * lambda else u.eta * lambda) := by
    intro k hk' i
    have hue : 0 ≤ u.eta := by
      rcases heta with h | h
      · rw [h]; exact he
      · rw [h.1]; exact hpos
    by_cases hi : i < u.dim
    · exact cell_shrink h1.w _ _ k i hk' hi
    · have hlen := h1.w.2 _ (cell_mem h1.w.1 hk')
      have e1 : cell u.w k i = 0 := by
        unfold cell coord
        rw [List.getD_eq_getElem?_getD, List.getElem?_eq_none (by omega)]
        rfl
      rw [e1, soft_zero (by split <;> positivity), cell_map _ h1.w.1 k i hk']
      unfold coord
      rw [List.getD_eq_getElem?_getD, List.getElem?_eq_none (by simp only [shrink, List.length_mapIdx]; omega)]
      rfl
  have hV : ∀ k < c.clf, ∀ i, cell (u.w.map (shrink (u.eta * lambda) (c.biasEta0 * u.eta * lambda))) k i
      = soft (cell u.w k i) (if i = 0 then c.biasEta0 * (eta0 * lambda) else eta0 * lambda) := by
    intro k hk' i
    rw [hshr k hk' i]
    have hz : u.eta = eta0 ∨ u.eta = s.eta ∧ cell u.w k i = 0 := by
      rcases heta with h | h
      · exact .inl h
      · rcases hrate with h' | h'
        · exact .inl (h.1.trans h')
        · exact .inr ⟨h.1, by rw [h.2 k hk', h' k hk']⟩
    rcases hz with h | ⟨h, h'⟩
    · rw [h, mul_assoc]
    · rw [h', h, soft_zero (by split <;> positivity), soft_zero (by split <;> positivity)]
  refine ⟨h2, fun hb0 k hk' => ?_, ?_⟩
  · show cell (u.w.map _) k 0 = 0
    rw [hV k hk', h4 hb0 k hk', if_pos rfl, hb0, zero_mul, soft_zero_right]
  · have h7 := dist2_prox (D := D) hb (mul_nonneg he hla) _ (cell u.w) U hV h4
    simp only at h7 ⊢
    linarith

end Sol.Olm
