import Verif.Proofs.DualRegret
import Verif.Proofs.Composite
/-! The regret of enhanced dual averaging with an L1 regulariser. -/

set_option linter.unusedSectionVars false
set_option linter.unusedVariables false

namespace Sol.Olm

open Sol.Online Sol.Sparse Sol.Loss Sol.Spec

variable {α : Type} [Field α] [LinearOrder α] [IsStrictOrderedRing α] [FFun α] [FSqrt α]

/-- The weights that belong to the sums `u` with step size `eta` and threshold `th`. -/
def softOf (b eta th : α) (u : List (List α)) (k i : Nat) : α := -(rateOf b i * eta) * soft (cell u k i) th

/-- The number by which ERDA_L1 divides after `t` examples. -/
def erdaDiv (sigma eps t : α) : α := FSqrt.sqrt (t + eps) * sigma

/-- The threshold of ERDA_L1 after `t` examples. -/
def erdaCut (sigma eps lambda rou t : α) : α := lambda * (t + eps) + sigma * rou * FSqrt.sqrt (t + eps)

/-- The weights of ERDA_L1 after `t` examples with sums `u`. -/
def erdaOf (c : Cfg α) (sigma eps lambda rou t : α) (u : List (List α)) : Nat → Nat → α :=
  softOf c.biasEta0 (1 / erdaDiv sigma eps t) (erdaCut sigma eps lambda rou t) u

theorem erda_prep_cell (c : Cfg α) (sigma eps lambda rou thresh : α) {s : St α (List (List α))} (hf : Fit c (vecs c.clf) s) {x : SVec α} (hx : Good x)
    (hd : Sparse.dim x ≤ s.dim) (hcut : 0 ≤ erdaCut sigma eps lambda rou ((s.t - 1 : Int) : α)) {s' : St α (List (List α))} (h : (erdaL1 sigma eps lambda rou thresh).prep c s x = .ok s') :
    ∃ w, s' = { s with eta := 1 / erdaDiv sigma eps ((s.t - 1 : Int) : α), w := w } ∧ Vecs c.clf s.dim w ∧
      ∀ k < c.clf, scoresOf (cell w) x k = scoresOf (erdaOf c sigma eps lambda rou ((s.t - 1 : Int) : α) s.alg) x k := by
  have hlw : ∀ v ∈ s.w, v.length = s.dim := hf.w.2
  have hlu : ∀ v ∈ s.alg, v.length = s.dim := hf.alg.2
  have hd1 := hf.dim
  have hts : ∀ a : α, trunc a (lambda * (((s.t - 1 : Int) : α) + eps) + sigma * rou * FSqrt.sqrt (((s.t - 1 : Int) : α) + eps))
      = soft a (erdaCut sigma eps lambda rou ((s.t - 1 : Int) : α)) := fun a => trunc_soft hcut
  simp only [erdaL1] at h
  rw [eachWith_closed _ _ _ (hf.w.1.trans hf.alg.1.symm) fun v hv u hu => fromDual_closed _ _ hx.1 (by rw [hlw v hv]; exact hd1)
    (by rw [hlu u hu, hlw v hv]), Res.bind_ok] at h
  refine ⟨_, (Res.ok.inj h).symm, ⟨by simp [hf.w.1, hf.alg.1], fun v hv => ?_⟩, ?_⟩
  · obtain ⟨i, hi, rfl⟩ := List.getElem_of_mem hv
    simp only [List.getElem_zipWith, List.length_mapIdx]
    exact hlw _ (List.getElem_mem _)
  · intro k hk
    have hvl : (s.w.getD k []).length = s.dim := hlw _ (cell_mem hf.w.1 hk)
    refine scoresOf_congr k ?_ ?_
    · rw [cell_with _ hf.w.1 hf.alg.1 k 0 hk, coord_mapIdx _ (by rw [List.length_mapIdx, hvl]; exact hd1), coord_mapIdx _ (by omega)]
      simp only [atZero, if_true, biasEta, erdaOf, softOf, erdaDiv, hts, rateOf, cell, coord]
    · intro p hp
      have hi : p.1 < s.dim := lt_of_lt_of_le (hx.lt_dim p hp) hd
      rw [cell_with _ hf.w.1 hf.alg.1 k p.1 hk, coord_mapIdx _ (by rw [List.length_mapIdx, hvl]; exact hi), coord_mapIdx _ (by omega)]
      by_cases h0 : p.1 = 0
      · simp only [atZero, h0, if_true, biasEta, erdaOf, softOf, erdaDiv, hts, rateOf, cell, coord]
      · simp only [atZero, h0, if_false, touch, featureAt_mem hx.1 (show (p.1, p.2) ∈ x from hp), erdaOf, softOf, erdaDiv, hts, rateOf, one_mul, cell, coord]

/-- The scores that ERDA_L1 computes for an example are those of its weights. -/
theorem erda_scores {c : Cfg α} {sigma eps lambda rou thresh : α} {s s1 : St α (List (List α))} {x : SVec α} {p : List α} {pred : Int}
    (hs : Fit c (vecs c.clf) s) (hx : Good x) (hcut : 0 ≤ erdaCut sigma eps lambda rou (s.t : α))
    (h0 : (erdaL1 sigma eps lambda rou thresh).prep c (enter (erdaL1 sigma eps lambda rou thresh) s x) x = .ok s1) (h1 : predict c s1 x = .ok (p, pred)) :
    (fun k => p.getD k 0) = scoresOf (erdaOf c sigma eps lambda rou (s.t : α) s.alg) x := by
  have hfe : Fit c (vecs c.clf) (enter (erdaL1 sigma eps lambda rou thresh) s x) := by
    obtain ⟨t, ht, hft, -⟩ := (safe_erdaL1 c sigma eps lambda rou thresh).start s x hs hx
    obtain rfl := Res.ok.inj ht
    exact hft
  have hut : ∀ k < c.clf, ∀ i, cell (enter (erdaL1 sigma eps lambda rou thresh) s x).alg k i = cell s.alg k i := by
    intro k hk' i
    simp only [enter, updateDim]
    split
    · exact grow_cell hs.alg k i hk'
    · rfl
  have ht1 : (enter (erdaL1 sigma eps lambda rou thresh) s x).t = s.t + 1 := by simp only [enter, updateDim]; split <;> rfl
  obtain ⟨w, rfl, hw, hsc⟩ := erda_prep_cell c sigma eps lambda rou thresh hfe hx (by rw [enter_dim]; omega) (by rw [ht1, add_sub_cancel_right]; exact hcut) h0
  have hf1 : Fit c (none' (List (List α))) { enter (erdaL1 sigma eps lambda rou thresh) s x with
      eta := 1 / erdaDiv sigma eps (((enter (erdaL1 sigma eps lambda rou thresh) s x).t - 1 : Int) : α), w := w } := ⟨hfe.dim, hw, hfe.g, trivial⟩
  obtain ⟨hp, hpred⟩ := predict_eq hf1 hx.1 h1
  have hpl : p.length = c.clf := by rw [hp, List.length_map, hf1.w.1]
  have hscore : (fun k => p.getD k 0) = scoresOf (erdaOf c sigma eps lambda rou (s.t : α) s.alg) x := by
    funext k
    rcases Nat.lt_or_ge k c.clf with hk' | hk'
    · rw [predict_get hf1 hx.1 h1 k hk']
      have h5 := hsc k hk'
      rw [ht1, add_sub_cancel_right] at h5
      refine Eq.trans ?_ (h5.trans ?_)
      · rfl
      · refine scoresOf_congr k ?_ fun q _ => ?_ <;> (unfold erdaOf softOf; rw [hut k hk'])
    · have h5 : p.getD k 0 = 0 := by simp [List.getD_eq_getElem?_getD, List.getElem?_eq_none (l := p) (i := k) (by omega)]
      have h6 : ∀ i, cell s.alg k i = 0 := by
        intro i
        have : s.alg[k]? = none := List.getElem?_eq_none (by rw [hs.alg.1]; exact hk')
        simp [cell, coord, List.getD_eq_getElem?_getD, this]
      rw [h5]
      unfold scoresOf linear erdaOf softOf
      simp [h6, soft_zero hcut]
  exact hscore

/-- One example of ERDA_L1: the sums change by a vector that compares the losses, and is not long. -/
theorem erda_step {c : Cfg α} {sigma eps lambda rou thresh : α} (hk : Matches c.kind c.clf) (hlazy : c.lazyUpdate = false) (hsm : c.smooth ≤ 0)
    (hcost : c.cost = none) {D : Nat} (hD : 1 ≤ D) (hb : 0 ≤ c.biasEta0) (U : Nat → Nat → α)
    {L : Ex α → (Nat → α) → α} {m κ ε : α} {Lab : Int → Prop} {Low : (Nat → α) → Prop} (hL : Bent c m L κ ε Lab Low)
    {s s' : St α (List (List α))} {e : Ex α} {r : α} (hs : Fit c (vecs c.clf) s) (hmar : s.margin = m)
    (hx : Good e.x) (hr : ∀ p ∈ e.x, 1 ≤ p.1 ∧ p.1 < D) (hl : LabelOk c.clf e.label) (hlab : Lab e.label)
    (hlow : Low (scoresOf (erdaOf c sigma eps lambda rou (s.t : α) s.alg) e.x))
    (hcut : 0 ≤ erdaCut sigma eps lambda rou (s.t : α)) (h : trainOne (erdaL1 sigma eps lambda rou thresh) c s e r = .ok s') :
    Fit c (vecs c.clf) s' ∧ s'.margin = m ∧ s'.t = s.t + 1 ∧ ∃ z : Nat → Nat → α,
      (∀ k < c.clf, ∀ i, cell s'.alg k i = cell s.alg k i + z k i) ∧
      (∑ k ∈ Finset.range c.clf, ∑ i ∈ Finset.range D, rateOf c.biasEta0 i * z k i ^ 2) ≤ κ * (sqnorm e.x + c.biasEta0) ∧
      L e (scoresOf (erdaOf c sigma eps lambda rou (s.t : α) s.alg) e.x) - L e (scoresOf U e.x) - ε ≤
        ∑ k ∈ Finset.range c.clf, ∑ i ∈ Finset.range D,
          z k i * (erdaOf c sigma eps lambda rou (s.t : α) s.alg k i - U k i) := by
  have hfit : Fit c (vecs c.clf) s' := by
    obtain ⟨ev, s'', hh, hf, -⟩ := happens (safe_erdaL1 c sigma eps lambda rou thresh) hk s hs e r hx hl
    obtain ⟨_, _, _, _, _, _, _, _, h1⟩ := hh
    rw [h] at h1
    exact Res.ok.inj h1 ▸ hf
  obtain ⟨s1, p, pred, l, g, m', v, h0, h1, h2, h3, h4⟩ := prep_step (fun _ _ => rfl) (fun _ _ => rfl) (fun _ _ _ => rfl) hlazy
    (by simpa using hsm) h
  have hfe : Fit c (vecs c.clf) (enter (erdaL1 sigma eps lambda rou thresh) s e.x) := by
    obtain ⟨t, ht, hft, -⟩ := (safe_erdaL1 c sigma eps lambda rou thresh).start s e.x hs hx
    obtain rfl := Res.ok.inj ht
    exact hft
  have hut : ∀ k < c.clf, ∀ i, cell (enter (erdaL1 sigma eps lambda rou thresh) s e.x).alg k i = cell s.alg k i := by
    intro k hk' i
    simp only [enter, updateDim]
    split
    · exact grow_cell hs.alg k i hk'
    · rfl
  have ht1 : (enter (erdaL1 sigma eps lambda rou thresh) s e.x).t = s.t + 1 := by simp only [enter, updateDim]; split <;> rfl
  have hm1 : (enter (erdaL1 sigma eps lambda rou thresh) s e.x).margin = m := by rw [← hmar]; simp only [enter, updateDim]; split <;> rfl
  obtain ⟨w, rfl, hw, hsc⟩ := erda_prep_cell c sigma eps lambda rou thresh hfe hx (by rw [enter_dim]; omega) (by rw [ht1, add_sub_cancel_right]; exact hcut) h0
  have hf1 : Fit c (none' (List (List α))) { enter (erdaL1 sigma eps lambda rou thresh) s e.x with
      eta := 1 / erdaDiv sigma eps (((enter (erdaL1 sigma eps lambda rou thresh) s e.x).t - 1 : Int) : α), w := w } := ⟨hfe.dim, hw, hfe.g, trivial⟩
  obtain ⟨hp, hpred⟩ := predict_eq hf1 hx.1 h1
  have hpl : p.length = c.clf := by rw [hp, List.length_map, hf1.w.1]
  have hc : 1 ≤ c.clf := by
    unfold Matches at hk
    split at hk <;> omega
  have hr' : InRange c.clf pred := by
    obtain ⟨⟨p', pr'⟩, hh1, hh2, hh3⟩ := gives_predict (s := { enter (erdaL1 sigma eps lambda rou thresh) s e.x with
      eta := 1 / erdaDiv sigma eps (((enter (erdaL1 sigma eps lambda rou thresh) s e.x).t - 1 : Int) : α), w := w }) hc hx.1 hf1.dim hf1.w
    rw [h1] at hh1
    obtain ⟨rfl, rfl⟩ := Prod.mk.inj (Res.ok.inj hh1)
    exact hh3
  have hgl : g.length = c.clf := gradient_length hk hpl hf1.g hl hr' h2
  have hscore : (fun k => p.getD k 0) = scoresOf (erdaOf c sigma eps lambda rou (s.t : α) s.alg) e.x := by
    funext k
    rcases Nat.lt_or_ge k c.clf with hk' | hk'
    · rw [predict_get hf1 hx.1 h1 k hk']
      have h5 := hsc k hk'
      rw [ht1, add_sub_cancel_right] at h5
      refine Eq.trans ?_ (h5.trans ?_)
      · rfl
      · refine scoresOf_congr k ?_ fun q _ => ?_ <;> (unfold erdaOf softOf; rw [hut k hk'])
    · have h5 : p.getD k 0 = 0 := by simp [List.getD_eq_getElem?_getD, List.getElem?_eq_none (l := p) (i := k) (by omega)]
      have h6 : ∀ i, cell s.alg k i = 0 := by
        intro i
        have : s.alg[k]? = none := List.getElem?_eq_none (by rw [hs.alg.1]; exact hk')
        simp [cell, coord, List.getD_eq_getElem?_getD, this]
      rw [h5]
      unfold scoresOf linear erdaOf softOf
      simp [h6, soft_zero hcut]
  simp only [costMargin, hcost, hm1] at h2
  obtain ⟨rfl, hll, hgr⟩ := hL.grad e p pred _ _ l g m' v hpl hf1.g hpred hlab (by rw [hscore]; exact hlow) h2
  rw [hscore] at hll
  have hl0 : 0 ≤ l := by rw [hll]; exact hL.nonneg _ _
  have hz0 : feat e.x 0 = 0 := feat_eq_zero fun p hp => by have := (hr p hp).1; omega
  by_cases hlp : 0 < l
  · obtain ⟨s2, n, h5, rfl⟩ := h3 (by simpa using hlp)
    generalize hst : ({ enter (erdaL1 sigma eps lambda rou thresh) s e.x with
      eta := 1 / erdaDiv sigma eps (((enter (erdaL1 sigma eps lambda rou thresh) s e.x).t - 1 : Int) : α), w := w, g := g, margin := m', vi := v,
      upd := (enter (erdaL1 sigma eps lambda rou thresh) s e.x).upd + 1 } : St α (List (List α))) = st at h5
    have hfs : Fit c (vecs c.clf) st := by rw [← hst]; exact ⟨hfe.dim, hw, hgl, hfe.alg⟩
    obtain ⟨u, rfl, hu⟩ := rda_update_cell c sigma eps (l := l) hfs hx (by rw [← hst]; simp only; rw [enter_dim]; omega) h5
    have e1 : st.g = g := by rw [← hst]
    have e2 : st.alg = (enter (erdaL1 sigma eps lambda rou thresh) s e.x).alg := by rw [← hst]
    refine ⟨hfit, by rw [← hst], by rw [← hst]; exact ht1, fun k i => g.getD k 0 * dir 1 e.x i, ?_, ?_, ?_⟩
    · intro k hk' i
      simp only
      rw [hu k hk' i, e1, e2, hut k hk']
    · have h6 := (hgr hlp).1
      have h7 : ∑ i ∈ Finset.range D, rateOf c.biasEta0 i * dir 1 e.x i ^ 2 = sqnorm e.x + c.biasEta0 := by
        rw [sqnorm_linear hx.1, linear_sum hx.1 fun p hp => (hr p hp).2]
        have : ∀ i ∈ Finset.range D, rateOf c.biasEta0 i * dir 1 e.x i ^ 2
            = feat e.x i * feat e.x i + if i = 0 then c.biasEta0 else 0 := by
          intro i _
          unfold rateOf dir
          by_cases hi : i = 0
          · subst hi; simp [hz0]
          · simp [hi]; ring
        rw [Finset.sum_congr rfl this, Finset.sum_add_distrib, Finset.sum_ite_eq']
        simp [show 0 < D by omega]
      have h8 : ∀ k, ∑ i ∈ Finset.range D, rateOf c.biasEta0 i * (g.getD k 0 * dir 1 e.x i) ^ 2
          = g.getD k 0 * g.getD k 0 * (sqnorm e.x + c.biasEta0) := by
        intro k
        rw [← h7, Finset.mul_sum]
        exact Finset.sum_congr rfl fun i _ => by ring
      simp only [h8]
      rw [← Finset.sum_mul]
      exact mul_le_mul_of_nonneg_right h6 (add_nonneg (sqnorm_nonneg _) hb)
    · have h6 := (hgr hlp).2 (scoresOf U e.x)
      have h7 : ∀ k, ∑ i ∈ Finset.range D, g.getD k 0 * dir 1 e.x i *
          (erdaOf c sigma eps lambda rou (s.t : α) s.alg k i - U k i)
          = - (g.getD k 0 * (scoresOf U e.x k - p.getD k 0)) := by
        intro k
        rw [congrFun hscore k, ← mul_neg, neg_sub, scores_diff hx.1 hD hr, Finset.mul_sum]
        exact Finset.sum_congr rfl fun i _ => by ring
      simp only [h7, Finset.sum_neg_distrib]
      rw [← hll]
      linarith
  · obtain ⟨n, rfl⟩ := h4 (by simpa using hlp)
    have hz : L e (scoresOf (erdaOf c sigma eps lambda rou (s.t : α) s.alg) e.x) = 0 := by
      rw [← hll]; exact le_antisymm (not_lt.1 hlp) hl0
    refine ⟨hfit, rfl, ht1, fun _ _ => 0, fun k hk' i => by simp only; rw [hut k hk', add_zero], ?_, ?_⟩
    · simp only [ne_eq, OfNat.ofNat_ne_zero, not_false_eq_true, zero_pow, mul_zero, Finset.sum_const_zero]
      exact mul_nonneg hL.sq (add_nonneg (sqnorm_nonneg _) hb)
    · simp only [zero_mul, Finset.sum_const_zero]
      rw [hz]
      have h5 := hL.nonneg e (scoresOf U e.x)
      have h6 := hL.err
      linarith

/-! ### The potential of one coordinate -/

theorem soft_gap (a : α) {b : α} (hb : 0 ≤ b) : |a - soft a b| ≤ b := by
  unfold soft
  split
  · rw [sub_sub_cancel, abs_of_nonneg hb]
  · split
    · rw [show a - (a + b) = -b by ring, abs_neg, abs_of_nonneg hb]
    · rw [sub_zero]
      exact abs_le.2 ⟨by linarith, by linarith⟩

theorem abs_soft (a : α) {b : α} (hb : 0 ≤ b) : |soft a b| = max 0 (|a| - b) := by
  unfold soft
  split
  · rename_i h
    rw [abs_of_pos (by linarith), abs_of_pos (by linarith), max_eq_right (by linarith)]
  · split
    · rename_i h
      rw [abs_of_neg (by linarith), abs_of_neg (by linarith), max_eq_right (by linarith)]
      ring
    · rw [abs_zero, max_eq_left]
      have : |a| ≤ b := abs_le.2 ⟨by linarith, by linarith⟩
      linarith

theorem soft_sq_le (a q : α) {b : α} (hb : 0 ≤ b) (hq : |q| ≤ b) : soft a b ^ 2 ≤ (a - q) ^ 2 := by
  rw [← sq_abs (soft a b), ← sq_abs (a - q), abs_soft a hb]
  refine pow_le_pow_left₀ (le_max_left _ _) (max_le (abs_nonneg _) ?_) 2
  have := abs_sub_abs_le_abs_sub a q
  linarith

/-- Another gradient. -/
theorem soft_add_sq (a z : α) {b : α} (hb : 0 ≤ b) : soft (a + z) b ^ 2 ≤ (soft a b + z) ^ 2 := by
  have := soft_sq_le (a + z) (a - soft a b) hb (soft_gap a hb)
  rwa [show a + z - (a - soft a b) = soft a b + z by ring] at this

/-- A higher threshold and a larger divisor. -/
theorem soft_later (a : α) {b b' d d' y : α} (hb : 0 ≤ b) (hy : 0 ≤ y) (hbb : b + y ≤ b') (hd : 0 < d) (hdd : d ≤ d') :
    soft a b' ^ 2 / (2 * d') + y * (|soft a b'| / d') ≤ soft a b ^ 2 / (2 * d) := by
  have hd' : 0 < d' := lt_of_lt_of_le hd hdd
  rw [← sq_abs (soft a b'), ← sq_abs (soft a b), abs_soft a hb, abs_soft a (b := b') (by linarith)]
  rcases le_total (|a| - b') 0 with h | h
  · rw [max_eq_left h]
    simp only [ne_eq, OfNat.ofNat_ne_zero, not_false_eq_true, zero_pow, zero_div, mul_zero, add_zero]
    positivity
  · rw [max_eq_right h, max_eq_right (by linarith)]
    generalize hs : |a| - b' = s at *
    have h1 : s + y ≤ |a| - b := by linarith
    have e1 : s ^ 2 / (2 * d') + y * (s / d') = (s ^ 2 + 2 * y * s) / (2 * d') := by field_simp
    rw [e1]
    have h2 : s ^ 2 + 2 * y * s ≤ (|a| - b) ^ 2 := by nlinarith [sq_nonneg y]
    calc (s ^ 2 + 2 * y * s) / (2 * d') ≤ (|a| - b) ^ 2 / (2 * d') := div_le_div_of_nonneg_right h2 (by positivity)
      _ ≤ (|a| - b) ^ 2 / (2 * d) := div_le_div_of_nonneg_left (sq_nonneg _) (by positivity) (by linarith)

/-- One example, one coordinate. -/
theorem erda_coord {r : α} (hr : 0 ≤ r) (a z : α) {b b' d d' y : α} (hb : 0 ≤ b) (hy : 0 ≤ y) (hbb : b + y ≤ b') (hd : 0 < d)
    (hdd : d ≤ d') :
    z * (-(r * (1 / d)) * soft a b) + r * (soft (a + z) b' ^ 2 / (2 * d')) + y * |(-(r * (1 / d')) * soft (a + z) b')|
      ≤ r * (soft a b ^ 2 / (2 * d)) + r * z ^ 2 * (1 / (2 * d)) := by
  have hd' : 0 < d' := lt_of_lt_of_le hd hdd
  have h1 := soft_later (a + z) hb hy hbb hd hdd
  have h2 := div_le_div_of_nonneg_right (soft_add_sq a z hb) (show 0 ≤ 2 * d by positivity)
  have h3 := mul_le_mul_of_nonneg_left (h1.trans h2) hr
  have e1 : |(-(r * (1 / d')) * soft (a + z) b')| = r * (|soft (a + z) b'| / d') := by
    rw [abs_mul, abs_neg, abs_of_nonneg (by positivity)]
    ring
  have e2 : r * ((soft a b + z) ^ 2 / (2 * d)) = r * (soft a b ^ 2 / (2 * d)) + r * z ^ 2 * (1 / (2 * d))
      - z * (-(r * (1 / d)) * soft a b) := by
    field_simp
    ring
  rw [e1]
  linarith

/-- The last sums against any coefficient. -/
theorem erda_last {r : α} (hr : 0 ≤ r) (a u : α) {b d : α} (hb : 0 ≤ b) (hd : 0 < d) (hu : r = 0 → u = 0) :
    -(a * u) ≤ r * (soft a b ^ 2 / (2 * d)) + b * |u| + d / 2 * (u ^ 2 / r) := by
  rcases hr.eq_or_lt with h | h
  · rw [hu h.symm, ← h]
    simp
  · have h1 : -((a - soft a b) * u) ≤ b * |u| := by
      calc -((a - soft a b) * u) ≤ |(a - soft a b) * u| := neg_le_abs _
        _ = |a - soft a b| * |u| := abs_mul _ _
        _ ≤ b * |u| := mul_le_mul_of_nonneg_right (soft_gap a hb) (abs_nonneg _)
    have h2 : 0 ≤ (r * soft a b + d * u) ^ 2 / (2 * d * r) := by positivity
    have e1 : (r * soft a b + d * u) ^ 2 / (2 * d * r)
        = r * (soft a b ^ 2 / (2 * d)) + soft a b * u + d / 2 * (u ^ 2 / r) := by
      field_simp
      ring
    rw [e1] at h2
    linarith

/-! ### A whole run -/

/-- The potential. -/
def erdaPot (c : Cfg α) (D : Nat) (b d : α) (u : List (List α)) : α :=
  ∑ k ∈ Finset.range c.clf, ∑ i ∈ Finset.range D, rateOf c.biasEta0 i * (soft (cell u k i) b ^ 2 / (2 * d))

/-- One example, all coordinates. -/
theorem erda_fall {c : Cfg α} (hbias : 0 ≤ c.biasEta0) (D : Nat) {b b' d d' y : α} (hb : 0 ≤ b) (hy : 0 ≤ y) (hbb : b + y ≤ b')
    (hd : 0 < d) (hdd : d ≤ d') {u u' : List (List α)} {z : Nat → Nat → α}
    (hz : ∀ k < c.clf, ∀ i, cell u' k i = cell u k i + z k i) :
    (∑ k ∈ Finset.range c.clf, ∑ i ∈ Finset.range D, z k i * softOf c.biasEta0 (1 / d) b u k i) + erdaPot c D b' d' u'
        + y * absSum c.clf D (softOf c.biasEta0 (1 / d') b' u')
      ≤ erdaPot c D b d u + (∑ k ∈ Finset.range c.clf, ∑ i ∈ Finset.range D, rateOf c.biasEta0 i * z k i ^ 2) * (1 / (2 * d)) := by
  unfold erdaPot absSum softOf
  rw [Finset.mul_sum, Finset.sum_mul, ← Finset.sum_add_distrib, ← Finset.sum_add_distrib, ← Finset.sum_add_distrib]
  refine Finset.sum_le_sum fun k hk => ?_
  rw [Finset.mul_sum, Finset.sum_mul, ← Finset.sum_add_distrib, ← Finset.sum_add_distrib, ← Finset.sum_add_distrib]
  refine Finset.sum_le_sum fun i _ => ?_
  rw [hz k (Finset.mem_range.1 hk) i]
  exact erda_coord (rateOf_nonneg hbias i) (cell u k i) (z k i) hb hy hbb hd hdd

theorem erda_close {c : Cfg α} (hbias : 0 ≤ c.biasEta0) {D : Nat} {b d : α} (hb : 0 ≤ b) (hd : 0 < d) {U : Nat → Nat → α}
    (hU : c.biasEta0 = 0 → ∀ k < c.clf, U k 0 = 0) (u : List (List α)) :
    -(∑ k ∈ Finset.range c.clf, ∑ i ∈ Finset.range D, cell u k i * U k i) ≤ erdaPot c D b d u + b * absSum c.clf D U
      + d / 2 * ∑ k ∈ Finset.range c.clf, ∑ i ∈ Finset.range D, U k i ^ 2 / rateOf c.biasEta0 i := by
  unfold erdaPot absSum
  rw [Finset.mul_sum, Finset.mul_sum, ← Finset.sum_neg_distrib, ← Finset.sum_add_distrib, ← Finset.sum_add_distrib]
  refine Finset.sum_le_sum fun k hk => ?_
  rw [Finset.mul_sum, Finset.mul_sum, ← Finset.sum_neg_distrib, ← Finset.sum_add_distrib, ← Finset.sum_add_distrib]
  refine Finset.sum_le_sum fun i _ => ?_
  refine erda_last (rateOf_nonneg hbias i) (cell u k i) (U k i) hb hd fun h => ?_
  unfold rateOf at h
  split at h
  · rename_i hi
    rw [hi]
    exact hU h k (Finset.mem_range.1 hk)
  · exact absurd h one_ne_zero

/-- The model that training would give has no larger weights. -/
theorem erda_end {c : Cfg α} {sigma eps lambda rou thresh : α} {s s' : St α (List (List α))} (hf : Fit c (vecs c.clf) s)
    (hcut : 0 ≤ erdaCut sigma eps lambda rou (s.t : α)) (h : (erdaL1 sigma eps lambda rou thresh).endTrain c s = .ok s') (D : Nat) :
    absWeights c.clf D s' ≤ absSum c.clf D (erdaOf c sigma eps lambda rou (s.t : α) s.alg) := by
  have hlw : ∀ v ∈ s.w, v.length = s.dim := hf.w.2
  have hlu : ∀ v ∈ s.alg, v.length = s.dim := hf.alg.2
  have hd := hf.dim
  have hts : ∀ a : α, trunc a (lambda * ((s.t : α) + eps) + sigma * rou * FSqrt.sqrt ((s.t : α) + eps))
      = soft a (erdaCut sigma eps lambda rou (s.t : α)) := fun a => trunc_soft hcut
  simp only [erdaL1] at h
  rw [eachWith_closed _ _ _ (hf.w.1.trans hf.alg.1.symm) fun v hv u hu => fromDualAll_closed _ _ (by rw [hlu u hu]; exact hd)
    (by rw [hlu u hu, hlw v hv]), Res.bind_ok] at h
  obtain rfl := Res.ok.inj h
  unfold absWeights absSum
  refine Finset.sum_le_sum fun k hk => ?_
  have hk' := Finset.mem_range.1 hk
  refine le_trans (Finset.sum_le_sum (g := fun i => |erdaOf c sigma eps lambda rou (s.t : α) s.alg k i|) fun i hi => ?_)
    (Finset.sum_le_sum_of_subset_of_nonneg (fun i hi => Finset.mem_range.2 (Finset.mem_Ico.1 hi).2) fun _ _ _ => abs_nonneg _)
  have hi1 : i ≠ 0 := by have := (Finset.mem_Ico.1 hi).1; omega
  have hul : (s.alg.getD k []).length = s.dim := hlu _ (cell_mem hf.alg.1 hk')
  simp only
  show |cell _ k i| ≤ _
  rw [cell_map (n := c.clf) _ (by simp [hf.w.1, hf.alg.1]) k i hk']
  have hsp : ∀ v : List α, |coord (sparsify thresh v) i| ≤ |coord v i| := by
    intro v
    unfold sparsify coord
    simp only [List.getD_eq_getElem?_getD, List.getElem?_map]
    cases v[i]? with
    | none => simp
    | some a =>
      simp only [Option.map_some, Option.getD_some]
      split
      · rw [abs_zero]; exact abs_nonneg _
      · exact le_refl _
  refine (hsp _).trans (le_of_eq ?_)
  congr 1
  show cell _ k i = _
  rw [cell_with _ hf.w.1 hf.alg.1 k i hk']
  by_cases hi : i < s.dim
  · rw [coord_mapIdx _ (by rw [List.length_map, hul]; exact hi)]
    simp only [atZero, hi1, if_false]
    rw [coord_lt (by rw [List.length_map, hul]; exact hi), List.getElem_map]
    simp only [erdaOf, softOf, erdaDiv, hts, rateOf, hi1, if_false, one_mul, cell]
    rw [coord_lt (by rw [hul]; exact hi)]
  · rw [coord_eq_zero (by rw [List.length_mapIdx, List.length_map, hul]; omega)]
    unfold erdaOf softOf cell
    rw [coord_eq_zero (by omega), soft_zero hcut, mul_zero]

end Sol.Olm
