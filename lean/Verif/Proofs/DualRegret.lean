import Verif.Proofs.Ada
import Verif.Proofs.Dual
/-! The regret of dual averaging with a quadratic regulariser. -/

set_option linter.unusedSectionVars false
set_option linter.unusedVariables false

namespace Sol.Olm

open Sol.Online Sol.Sparse Sol.Loss Sol.Spec

section
variable {α A : Type} [Zero α] [One α] [Add α] [Sub α] [Mul α] [Div α] [Neg α] [FCmp α] [IntCast α] [FFun α] [FSqrt α]

/-- One example of an algorithm that prepares its weights, without active learning and lazy updates. -/
theorem prep_step {c : Cfg α} {G : Alg α A} (hb : ∀ s x, G.beginIter s x = .ok s) (he : ∀ s x, G.endIter s x = .ok s)
    (hhand : ∀ c s x, G.handler c s x = none) (hlazy : c.lazyUpdate = false)
    (hsm : (0 <? c.smooth) = false) {s s' : St α A} {e : Ex α} {r : α} (h : trainOne G c s e r = .ok s') :
    ∃ s1 p pred l g m v, G.prep c (enter G s e.x) e.x = .ok s1 ∧ predict c s1 e.x = .ok (p, pred) ∧
      gradient c.kind (costMargin c e.label s1.margin) none s1.vi e.label p pred s1.g = .ok (l, g, m, v) ∧
      ((0 <? l) = true → ∃ s2 n, G.update c { s1 with g := g, margin := m, vi := v, upd := s1.upd + 1 } e.x l
        = .ok s2 ∧ s' = { s2 with err := n }) ∧
      ((0 <? l) = false → ∃ n, s' = { s1 with g := g, margin := m, vi := v, err := n }) := by
  simp only [trainOne, iterate, hb, Res.bind_ok, Res.bind_eq_ok] at h
  obtain ⟨⟨s1', pred'⟩, ⟨s1, h0, ⟨p, pred⟩, h1, sk, h2, h3⟩, h4⟩ := h
  have hsk : sk = false := by
    simp only [skipped, hsm, Bool.false_eq_true, if_false] at h2
    exact (Res.ok.inj h2).symm
  rw [hsk] at h3
  simp only [Bool.false_eq_true, if_false, Res.bind_eq_ok] at h3
  obtain ⟨s3, h5, h6⟩ := h3
  simp only [Res.ok.injEq, Prod.mk.injEq] at h6
  obtain ⟨rfl, rfl⟩ := h6
  simp only [learn, Res.bind_eq_ok] at h5
  obtain ⟨⟨l, g, m, v⟩, h7, s4, h8, h9⟩ := h5
  rw [he] at h9
  obtain rfl := Res.ok.inj h9
  rw [hhand] at h7
  refine ⟨s1, p, pred, l, g, m, v, h0, h1, h7, fun hl => ?_, fun hl => ?_⟩
  · simp only [maybeUpdate, fires, hlazy, Bool.false_eq_true, if_false, hl, if_true] at h8
    rw [← Res.ok.inj h4]
    split
    · exact ⟨s4, _, h8, rfl⟩
    · exact ⟨s4, s4.err, h8, rfl⟩
  · simp only [maybeUpdate, fires, hlazy, Bool.false_eq_true, if_false, hl] at h8
    rw [← Res.ok.inj h4, ← Res.ok.inj h8]
    split
    · exact ⟨_, rfl⟩
    · exact ⟨s1.err, rfl⟩

end

section
variable {α : Type} [Field α] [LinearOrder α] [IsStrictOrderedRing α] [FFun α] [FSqrt α]

/-- How the step size of a coordinate differs from that of the features. -/
def rateOf (b : α) (i : Nat) : α := if i = 0 then b else 1

theorem rateOf_nonneg {b : α} (hb : 0 ≤ b) (i : Nat) : 0 ≤ rateOf b i := by
  unfold rateOf
  split
  · exact hb
  · exact zero_le_one

/-- The weights that belong to the sums `u` with step size `eta`. -/
def dualOf (b eta : α) (u : List (List α)) (k i : Nat) : α := -(rateOf b i * eta) * cell u k i

theorem scoresOf_congr {x : SVec α} {W W' : Nat → Nat → α} (k : Nat) (h0 : W k 0 = W' k 0) (h : ∀ p ∈ x, W k p.1 = W' k p.1) :
    scoresOf W x k = scoresOf W' x k := by
  unfold scoresOf linear
  rw [h0]
  congr 2
  exact List.map_congr_left fun p hp => by rw [h p hp]

theorem rda_prep_cell (c : Cfg α) (sigma eps : α) {s : St α (List (List α))} (hf : Fit c (vecs c.clf) s) {x : SVec α} (hx : Good x)
    (hd : Sparse.dim x ≤ s.dim) {s' : St α (List (List α))} (h : (rda sigma eps).prep c s x = .ok s') :
    ∃ w, s' = { s with eta := 1 / ((((s.t - 1 : Int) : α) + eps) * sigma), w := w } ∧ Vecs c.clf s.dim w ∧
      ∀ k < c.clf, scoresOf (cell w) x k = scoresOf (dualOf c.biasEta0 (1 / ((((s.t - 1 : Int) : α) + eps) * sigma)) s.alg) x k := by
  have hlw : ∀ v ∈ s.w, v.length = s.dim := hf.w.2
  have hlu : ∀ v ∈ s.alg, v.length = s.dim := hf.alg.2
  have hd1 := hf.dim
  simp only [rda] at h
  rw [eachWith_closed _ _ _ (hf.w.1.trans hf.alg.1.symm) fun v hv u hu => fromDual_closed _ _ hx.1 (by rw [hlw v hv]; exact hd1)
    (by rw [hlu u hu, hlw v hv]), Res.bind_ok] at h
  refine ⟨_, (Res.ok.inj h).symm, ⟨by simp [hf.w.1, hf.alg.1], fun v hv => ?_⟩, ?_⟩
  · obtain ⟨i, hi, rfl⟩ := List.getElem_of_mem hv
    simp only [List.getElem_zipWith, List.length_mapIdx]
    exact hlw _ (List.getElem_mem _)
  · intro k hk
    have hvl : (s.w.getD k []).length = s.dim := hlw _ (cell_mem hf.w.1 hk)
    refine scoresOf_congr k ?_ ?_
    · rw [cell_with _ hf.w.1 hf.alg.1 k 0 hk, coord_mapIdx _ (by rw [List.length_mapIdx, hvl]; exact hd1), coord_mapIdx _ (by omega)]
      simp only [atZero, if_true, biasEta, dualOf, rateOf, cell, coord]
    · intro p hp
      have hi : p.1 < s.dim := lt_of_lt_of_le (hx.lt_dim p hp) hd
      rw [cell_with _ hf.w.1 hf.alg.1 k p.1 hk, coord_mapIdx _ (by rw [List.length_mapIdx, hvl]; exact hi), coord_mapIdx _ (by omega)]
      by_cases h0 : p.1 = 0
      · simp only [atZero, h0, if_true, biasEta, dualOf, rateOf, cell, coord]
      · simp only [atZero, h0, if_false, touch, featureAt_mem hx.1 (show (p.1, p.2) ∈ x from hp), dualOf, rateOf, one_mul, cell, coord]

theorem rda_end_cell (c : Cfg α) (sigma eps : α) {s s' : St α (List (List α))} (hf : Fit c (vecs c.clf) s)
    (h : (rda sigma eps).endTrain c s = .ok s') :
    ∀ k < c.clf, ∀ i, cell s'.w k i = dualOf c.biasEta0 (1 / (((s.t : α) + eps) * sigma)) s.alg k i := by
  have hlw : ∀ v ∈ s.w, v.length = s.dim := hf.w.2
  have hlu : ∀ v ∈ s.alg, v.length = s.dim := hf.alg.2
  have hd := hf.dim
  simp only [rda] at h
  rw [eachWith_closed _ _ _ (hf.w.1.trans hf.alg.1.symm) fun v hv u hu => fromDualAll_closed _ _ (by rw [hlu u hu]; exact hd)
    (by rw [hlu u hu, hlw v hv]), Res.bind_ok] at h
  obtain rfl := Res.ok.inj h
  intro k hk i
  have hul : (s.alg.getD k []).length = s.dim := hlu _ (cell_mem hf.alg.1 hk)
  simp only
  rw [cell_with _ hf.w.1 hf.alg.1 k i hk]
  by_cases hi : i < s.dim
  · rw [coord_mapIdx _ (by rw [List.length_map, hul]; exact hi)]
    have : coord (List.map (fun a => -(1 / (((s.t : α) + eps) * sigma)) * a) (s.alg.getD k [])) i
        = -(1 / (((s.t : α) + eps) * sigma)) * coord (s.alg.getD k []) i := by
      rw [coord_lt (by rw [List.length_map, hul]; exact hi), List.getElem_map, coord_lt (by rw [hul]; exact hi)]
    by_cases h0 : i = 0
    · subst h0
      simp only [atZero, if_true, biasEta, dualOf, rateOf, cell, coord]
    · simp only [atZero, h0, if_false, this, dualOf, rateOf, one_mul, cell]
  · rw [coord_eq_zero (by rw [List.length_mapIdx, List.length_map, hul]; omega)]
    unfold dualOf cell
    rw [coord_eq_zero (by omega), mul_zero]

theorem rda_update_cell (c : Cfg α) (sigma eps : α) {s : St α (List (List α))} (hf : Fit c (vecs c.clf) s) {x : SVec α} (hx : Good x)
    (hdx : Sparse.dim x ≤ s.dim) {l : α} {s' : St α (List (List α))}
    (h : (rda sigma eps).update c s x l = .ok s') : ∃ u, s' = { s with alg := u } ∧
      ∀ k < c.clf, ∀ i, cell u k i = cell s.alg k i + s.g.getD k 0 * dir 1 x i := by
  have hlu : ∀ v ∈ s.alg, v.length = s.dim := hf.alg.2
  have hd := hf.dim
  simp only [rda] at h
  rw [each1_closed _ _ _ (by rw [hf.g, hf.alg.1]) fun g v hv => addGrad_closed g hx.1 (by rw [hlu v hv]; exact hd),
    Res.bind_ok] at h
  refine ⟨_, (Res.ok.inj h).symm, fun k hk i => ?_⟩
  have hul : (s.alg.getD k []).length = s.dim := hlu _ (cell_mem hf.alg.1 hk)
  rw [cell_zipWith _ hf.g hf.alg.1 k i hk]
  split
  · rename_i h0
    have h0 : s.g.getD k 0 = 0 := (feq_iff _ _).1 h0
    simp only [h0, zero_mul, add_zero]
    rfl
  · rw [coord_addGrad _ (by omega) (fun p hp => by rw [hul]; exact lt_of_lt_of_le (hx.lt_dim p hp) hdx)]
    rfl

/-- One example of RDA: the sums change by a vector that compares the losses, and is not long. -/
theorem dual_step {c : Cfg α} {sigma eps : α} (hk : Matches c.kind c.clf) (hlazy : c.lazyUpdate = false) (hsm : c.smooth ≤ 0)
    (hcost : c.cost = none) {D : Nat} (hD : 1 ≤ D) (hb : 0 ≤ c.biasEta0) (U : Nat → Nat → α)
    {L : Ex α → (Nat → α) → α} {m κ ε : α} {Lab : Int → Prop} {Low : (Nat → α) → Prop} (hL : Bent c m L κ ε Lab Low)
    {s s' : St α (List (List α))} {e : Ex α} {r : α} (hs : Fit c (vecs c.clf) s) (hmar : s.margin = m)
    (hx : Good e.x) (hr : ∀ p ∈ e.x, 1 ≤ p.1 ∧ p.1 < D) (hl : LabelOk c.clf e.label) (hlab : Lab e.label)
    (hlow : Low (scoresOf (dualOf c.biasEta0 (1 / (((s.t : α) + eps) * sigma)) s.alg) e.x))
    (h : trainOne (rda sigma eps) c s e r = .ok s') :
    Fit c (vecs c.clf) s' ∧ s'.margin = m ∧ s'.t = s.t + 1 ∧ ∃ z : Nat → Nat → α,
      (∀ k < c.clf, ∀ i, cell s'.alg k i = cell s.alg k i + z k i) ∧
      (∑ k ∈ Finset.range c.clf, ∑ i ∈ Finset.range D, rateOf c.biasEta0 i * z k i ^ 2) ≤ κ * (sqnorm e.x + c.biasEta0) ∧
      L e (scoresOf (dualOf c.biasEta0 (1 / (((s.t : α) + eps) * sigma)) s.alg) e.x) - L e (scoresOf U e.x) - ε ≤
        ∑ k ∈ Finset.range c.clf, ∑ i ∈ Finset.range D,
          z k i * (dualOf c.biasEta0 (1 / (((s.t : α) + eps) * sigma)) s.alg k i - U k i) := by
  have hfit : Fit c (vecs c.clf) s' := by
    obtain ⟨ev, s'', hh, hf, -⟩ := happens (safe_rda c sigma eps) hk s hs e r hx hl
    obtain ⟨_, _, _, _, _, _, _, _, h1⟩ := hh
    rw [h] at h1
    exact Res.ok.inj h1 ▸ hf
  obtain ⟨s1, p, pred, l, g, m', v, h0, h1, h2, h3, h4⟩ := prep_step (fun _ _ => rfl) (fun _ _ => rfl) (fun _ _ _ => rfl) hlazy
    (by simpa using hsm) h
  have hfe : Fit c (vecs c.clf) (enter (rda sigma eps) s e.x) := by
    obtain ⟨t, ht, hft, -⟩ := (safe_rda c sigma eps).start s e.x hs hx
    obtain rfl := Res.ok.inj ht
    exact hft
  have hut : ∀ k < c.clf, ∀ i, cell (enter (rda sigma eps) s e.x).alg k i = cell s.alg k i := by
    intro k hk' i
    simp only [enter, updateDim]
    split
    · exact grow_cell hs.alg k i hk'
    · rfl
  have ht1 : (enter (rda sigma eps) s e.x).t = s.t + 1 := by simp only [enter, updateDim]; split <;> rfl
  have hm1 : (enter (rda sigma eps) s e.x).margin = m := by rw [← hmar]; simp only [enter, updateDim]; split <;> rfl
  obtain ⟨w, rfl, hw, hsc⟩ := rda_prep_cell c sigma eps hfe hx (by rw [enter_dim]; omega) h0
  have hf1 : Fit c (none' (List (List α))) { enter (rda sigma eps) s e.x with
      eta := 1 / (((((enter (rda sigma eps) s e.x).t - 1 : Int) : α) + eps) * sigma), w := w } := ⟨hfe.dim, hw, hfe.g, trivial⟩
  obtain ⟨hp, hpred⟩ := predict_eq hf1 hx.1 h1
  have hpl : p.length = c.clf := by rw [hp, List.length_map, hf1.w.1]
  have hc : 1 ≤ c.clf := by
    unfold Matches at hk
    split at hk <;> omega
  have hr' : InRange c.clf pred := by
    obtain ⟨⟨p', pr'⟩, hh1, hh2, hh3⟩ := gives_predict (s := { enter (rda sigma eps) s e.x with
      eta := 1 / (((((enter (rda sigma eps) s e.x).t - 1 : Int) : α) + eps) * sigma), w := w }) hc hx.1 hf1.dim hf1.w
    rw [h1] at hh1
    obtain ⟨rfl, rfl⟩ := Prod.mk.inj (Res.ok.inj hh1)
    exact hh3
  have hgl : g.length = c.clf := gradient_length hk hpl hf1.g hl hr' h2
  have hscore : (fun k => p.getD k 0) = scoresOf (dualOf c.biasEta0 (1 / (((s.t : α) + eps) * sigma)) s.alg) e.x := by
    funext k
    rcases Nat.lt_or_ge k c.clf with hk' | hk'
    · rw [predict_get hf1 hx.1 h1 k hk']
      have h5 := hsc k hk'
      rw [ht1, add_sub_cancel_right] at h5
      refine Eq.trans ?_ (h5.trans ?_)
      · rfl
      · refine scoresOf_congr k ?_ fun q _ => ?_ <;> (unfold dualOf; rw [hut k hk'])
    · have h5 : p.getD k 0 = 0 := by simp [List.getD_eq_getElem?_getD, List.getElem?_eq_none (l := p) (i := k) (by omega)]
      have h6 : ∀ i, cell s.alg k i = 0 := by
        intro i
        have : s.alg[k]? = none := List.getElem?_eq_none (by rw [hs.alg.1]; exact hk')
        simp [cell, coord, List.getD_eq_getElem?_getD, this]
      rw [h5]
      unfold scoresOf linear dualOf
      simp [h6]
  simp only [costMargin, hcost, hm1] at h2
  obtain ⟨rfl, hll, hgr⟩ := hL.grad e p pred _ _ l g m' v hpl hf1.g hpred hlab (by rw [hscore]; exact hlow) h2
  rw [hscore] at hll
  have hl0 : 0 ≤ l := by rw [hll]; exact hL.nonneg _ _
  have hz0 : feat e.x 0 = 0 := feat_eq_zero fun p hp => by have := (hr p hp).1; omega
  by_cases hlp : 0 < l
  · obtain ⟨s2, n, h5, rfl⟩ := h3 (by simpa using hlp)
    generalize hst : ({ enter (rda sigma eps) s e.x with
      eta := 1 / (((((enter (rda sigma eps) s e.x).t - 1 : Int) : α) + eps) * sigma), w := w, g := g, margin := m', vi := v,
      upd := (enter (rda sigma eps) s e.x).upd + 1 } : St α (List (List α))) = st at h5
    have hfs : Fit c (vecs c.clf) st := by rw [← hst]; exact ⟨hfe.dim, hw, hgl, hfe.alg⟩
    obtain ⟨u, rfl, hu⟩ := rda_update_cell c sigma eps hfs hx (by rw [← hst]; simp only; rw [enter_dim]; omega) h5
    have e1 : st.g = g := by rw [← hst]
    have e2 : st.alg = (enter (rda sigma eps) s e.x).alg := by rw [← hst]
    refine ⟨hfit, by rw [← hst], by rw [← hst]; exact ht1, fun k i => g.getD k 0 * dir 1 e.x i, ?_, ?_, ?_⟩
    · intro k hk' i
      simp only
      rw [hu k hk' i, e1, e2, hut k hk']
    · have h6 := (hgr hlp).1
      have h7 : ∑ i ∈ Finset.range D, rateOf c.biasEta0 i * dir 1 e.x i ^ 2 = sqnorm e.x + c.biasEta0 := by
        rw [sqnorm_linear hx.1, linear_sum hx.1 fun p hp => (hr p hp).2]
        have : ∀ i ∈ Finset.range D, rateOf c.biasEta0 i * dir 1 e.x i ^ 2
            = feat e.x i * feat e.x i + if i = 0 then c.biasEta0 else 0 := by
          intro i _
          unfold rateOf dir
          by_cases hi : i = 0
          · subst hi; simp [hz0]
          · simp [hi]; ring
        rw [Finset.sum_congr rfl this, Finset.sum_add_distrib, Finset.sum_ite_eq']
        simp [show 0 < D by omega]
      have h8 : ∀ k, ∑ i ∈ Finset.range D, rateOf c.biasEta0 i * (g.getD k 0 * dir 1 e.x i) ^ 2
          = g.getD k 0 * g.getD k 0 * (sqnorm e.x + c.biasEta0) := by
        intro k
        rw [← h7, Finset.mul_sum]
        exact Finset.sum_congr rfl fun i _ => by ring
      simp only [h8]
      rw [← Finset.sum_mul]
      exact mul_le_mul_of_nonneg_right h6 (add_nonneg (sqnorm_nonneg _) hb)
    · have h6 := (hgr hlp).2 (scoresOf U e.x)
      have h7 : ∀ k, ∑ i ∈ Finset.range D, g.getD k 0 * dir 1 e.x i *
          (dualOf c.biasEta0 (1 / (((s.t : α) + eps) * sigma)) s.alg k i - U k i)
          = - (g.getD k 0 * (scoresOf U e.x k - p.getD k 0)) := by
        intro k
        rw [congrFun hscore k, ← mul_neg, neg_sub, scores_diff hx.1 hD hr, Finset.mul_sum]
        exact Finset.sum_congr rfl fun i _ => by ring
      simp only [h7, Finset.sum_neg_distrib]
      rw [← hll]
      linarith
  · obtain ⟨n, rfl⟩ := h4 (by simpa using hlp)
    have hz : L e (scoresOf (dualOf c.biasEta0 (1 / (((s.t : α) + eps) * sigma)) s.alg) e.x) = 0 := by
      rw [← hll]; exact le_antisymm (not_lt.1 hlp) hl0
    refine ⟨hfit, rfl, ht1, fun _ _ => 0, fun k hk' i => by simp only; rw [hut k hk', add_zero], ?_, ?_⟩
    · simp only [ne_eq, OfNat.ofNat_ne_zero, not_false_eq_true, zero_pow, mul_zero, Finset.sum_const_zero]
      exact mul_nonneg hL.sq (add_nonneg (sqnorm_nonneg _) hb)
    · simp only [zero_mul, Finset.sum_const_zero]
      rw [hz]
      have h5 := hL.nonneg e (scoresOf U e.x)
      have h6 := hL.err
      linarith

/-- A sum over all classes and coordinates, the bias counted with its rate. -/
def wsum (c : Cfg α) (D : Nat) (f : Nat → Nat → α) : α :=
  ∑ k ∈ Finset.range c.clf, ∑ i ∈ Finset.range D, rateOf c.biasEta0 i * f k i

theorem wsum_nonneg {c : Cfg α} (hb : 0 ≤ c.biasEta0) (D : Nat) {f : Nat → Nat → α} (h : ∀ k i, 0 ≤ f k i) : 0 ≤ wsum c D f :=
  Finset.sum_nonneg fun k _ => Finset.sum_nonneg fun i _ => mul_nonneg (rateOf_nonneg hb i) (h k i)

theorem wsum_add (c : Cfg α) (D : Nat) (f g : Nat → Nat → α) : wsum c D (fun k i => f k i + g k i) = wsum c D f + wsum c D g := by
  unfold wsum
  rw [← Finset.sum_add_distrib]
  refine Finset.sum_congr rfl fun k _ => ?_
  rw [← Finset.sum_add_distrib]
  exact Finset.sum_congr rfl fun i _ => by ring

theorem wsum_mul (c : Cfg α) (D : Nat) (a : α) (f : Nat → Nat → α) : wsum c D (fun k i => a * f k i) = a * wsum c D f := by
  unfold wsum
  rw [Finset.mul_sum]
  refine Finset.sum_congr rfl fun k _ => ?_
  rw [Finset.mul_sum]
  exact Finset.sum_congr rfl fun i _ => by ring

theorem wsum_congr (c : Cfg α) (D : Nat) {f g : Nat → Nat → α} (h : ∀ k < c.clf, ∀ i, f k i = g k i) : wsum c D f = wsum c D g := by
  unfold wsum
  refine Finset.sum_congr rfl fun k hk => Finset.sum_congr rfl fun i _ => ?_
  rw [h k (Finset.mem_range.1 hk)]

/-- The square of a sum of two vectors. -/
theorem wsum_sq (c : Cfg α) (D : Nat) (a b : α) (f g : Nat → Nat → α) : wsum c D (fun k i => (a * f k i + b * g k i) ^ 2) =
    a ^ 2 * wsum c D (fun k i => f k i ^ 2) + 2 * a * b * wsum c D (fun k i => f k i * g k i)
      + b ^ 2 * wsum c D (fun k i => g k i ^ 2) := by
  rw [← wsum_mul, ← wsum_mul, ← wsum_mul, ← wsum_add, ← wsum_add]
  exact wsum_congr c D fun k _ i => by ring

theorem wsum_mixed {c : Cfg α} (hb : 0 ≤ c.biasEta0) (D : Nat) (f g : Nat → Nat → α) (h : wsum c D (fun k i => f k i ^ 2) ≤ 0) :
    wsum c D (fun k i => f k i * g k i) = 0 := by
  have h0 : wsum c D (fun k i => f k i ^ 2) = 0 := le_antisymm h (wsum_nonneg hb D fun k i => sq_nonneg _)
  unfold wsum at h0 ⊢
  rw [Finset.sum_eq_zero_iff_of_nonneg fun k _ => Finset.sum_nonneg fun i _ => mul_nonneg (rateOf_nonneg hb i) (sq_nonneg _)] at h0
  refine Finset.sum_eq_zero fun k hk => ?_
  have h1 := h0 k hk
  rw [Finset.sum_eq_zero_iff_of_nonneg fun i _ => mul_nonneg (rateOf_nonneg hb i) (sq_nonneg _)] at h1
  refine Finset.sum_eq_zero fun i hi => ?_
  rcases mul_eq_zero.1 (h1 i hi) with h2 | h2
  · rw [h2, zero_mul]
  · rw [pow_eq_zero_iff two_ne_zero] at h2
    simp only [h2, zero_mul, mul_zero]

/-- The sums grow by at most `G` per example. -/
theorem sums_grow {c : Cfg α} (hb : 0 ≤ c.biasEta0) (D n : Nat) {G2 : α} {th z : Nat → Nat → α}
    (hP : wsum c D (fun k i => th k i ^ 2) ≤ (n : α) ^ 2 * G2) (hZ : wsum c D (fun k i => z k i ^ 2) ≤ G2) :
    wsum c D (fun k i => (th k i + z k i) ^ 2) ≤ ((n : α) + 1) ^ 2 * G2 := by
  have e := wsum_sq c D 1 1 th z
  simp only [one_mul, one_pow, mul_one] at e
  rw [e]
  rcases Nat.eq_zero_or_pos n with rfl | hn
  · simp only [Nat.cast_zero, ne_eq, OfNat.ofNat_ne_zero, not_false_eq_true, zero_pow, zero_mul] at hP
    rw [wsum_mixed hb D _ _ hP]
    simp
    linarith
  · have hn' : (0 : α) < n := by exact_mod_cast hn
    have h1 : 0 ≤ wsum c D (fun k i => (1 * th k i + (-(n : α)) * z k i) ^ 2) := wsum_nonneg hb D fun k i => sq_nonneg _
    rw [wsum_sq] at h1
    generalize wsum c D (fun k i => th k i ^ 2) = P at *
    generalize wsum c D (fun k i => th k i * z k i) = Q at *
    generalize wsum c D (fun k i => z k i ^ 2) = Z at *
    have h2 : (n : α) * (P + 2 * Q + Z) ≤ n * (((n : α) + 1) ^ 2 * G2) := by
      have h3 : ((n : α) + 1) * P ≤ (n + 1) * ((n : α) ^ 2 * G2) := mul_le_mul_of_nonneg_left hP (by positivity)
      have h4 : (n : α) * (n + 1) * Z ≤ n * (n + 1) * G2 := mul_le_mul_of_nonneg_left hZ (by positivity)
      nlinarith
    exact le_of_mul_le_mul_left h2 hn'

/-- One step of the potential. -/
theorem dual_scalar {sigma a G2 P Q Z : α} (n : Nat) (hs : 0 < sigma) (ha : (n : α) < a) (hP0 : 0 ≤ P) (hG : 0 ≤ G2)
    (hP : P ≤ (n : α) ^ 2 * G2) (hZ : Z ≤ G2) (hsum : 0 ≤ Z + 2 * (Q / a) + P / a ^ 2) :
    -(Q / (sigma * a)) + sigma / 2 * (P / (sigma * a) ^ 2)
      ≤ -((P + 2 * Q + Z) / (2 * sigma * (a + 1))) + P / (2 * sigma * a) + 2 * G2 / (sigma * (n + 1)) := by
  have hn : (0 : α) ≤ n := Nat.cast_nonneg n
  have ha0 : 0 < a := lt_of_le_of_lt hn ha
  have e : -(Q / (sigma * a)) + sigma / 2 * (P / (sigma * a) ^ 2)
      = -((P + 2 * Q + Z) / (2 * sigma * (a + 1))) + P / (2 * sigma * a) + (Z - 2 * (Q / a) + P / a ^ 2) / (2 * sigma * (a + 1)) := by
    field_simp
    ring
  rw [e]
  have h1 : P / a ^ 2 ≤ G2 := by
    rw [div_le_iff₀ (by positivity)]
    have : (n : α) ^ 2 ≤ a ^ 2 := pow_le_pow_left₀ hn ha.le 2
    nlinarith
  have h2 : (Z - 2 * (Q / a) + P / a ^ 2) / (2 * sigma * (a + 1)) ≤ 2 * G2 / (sigma * (n + 1)) := by
    have h3 : Z - 2 * (Q / a) + P / a ^ 2 ≤ 4 * G2 := by linarith
    calc (Z - 2 * (Q / a) + P / a ^ 2) / (2 * sigma * (a + 1)) ≤ 4 * G2 / (2 * sigma * (a + 1)) :=
          div_le_div_of_nonneg_right h3 (by positivity)
      _ = 2 * G2 / (sigma * (a + 1)) := by field_simp; ring
      _ ≤ 2 * G2 / (sigma * (n + 1)) := by
          refine div_le_div_of_nonneg_left (by linarith) (by positivity) ?_
          exact mul_le_mul_of_nonneg_left (by linarith) hs.le
  linarith

/-- What the run gains at an example: the comparison with `U` and the size of the model. -/
def gainOf (c : Cfg α) (D : Nat) (sigma eps ε : α) (U : Nat → Nat → α) (L : Ex α → (Nat → α) → α)
    (z : St α (List (List α)) × (Ex α × α)) : α :=
  L z.2.1 (scoresOf (dualOf c.biasEta0 (1 / (((z.1.t : α) + eps) * sigma)) z.1.alg) z.2.1.x) - L z.2.1 (scoresOf U z.2.1.x) - ε
    + sigma / 2 * (wsum c D (fun k i => cell z.1.alg k i ^ 2) / (sigma * ((z.1.t : α) + eps)) ^ 2)

/-- A whole run of RDA. -/
theorem dual_visits {c : Cfg α} {sigma eps : α} (hsig : 0 < sigma) (heps : 0 < eps) (hk : Matches c.kind c.clf)
    (hlazy : c.lazyUpdate = false) (hsm : c.smooth ≤ 0) (hcost : c.cost = none) {D : Nat} (hD : 1 ≤ D) (hb : 0 ≤ c.biasEta0)
    (U : Nat → Nat → α) {L : Ex α → (Nat → α) → α} {m κ ε : α} {Lab : Int → Prop} {Low : (Nat → α) → Prop}
    (hL : Bent c m L κ ε Lab Low) {R : α} {s s' : St α (List (List α))} {l : List (Ex α × α)} {sts : List (St α (List (List α)))}
    (n : Nat) (hn : s.t = n) (hs : Fit c (vecs c.clf) s) (hmar : s.margin = m)
    (hP : wsum c D (fun k i => cell s.alg k i ^ 2) ≤ (n : α) ^ 2 * (κ * R ^ 2))
    (hl : ∀ q ∈ l, Good q.1.x ∧ (∀ p ∈ q.1.x, 1 ≤ p.1 ∧ p.1 < D) ∧ sqnorm q.1.x + c.biasEta0 ≤ R ^ 2 ∧ LabelOk c.clf q.1.label ∧
      Lab q.1.label)
    (h : Visits (rda sigma eps) c s l sts s')
    (hlow : ∀ z ∈ sts.zip l, Low (scoresOf (dualOf c.biasEta0 (1 / (((z.1.t : α) + eps) * sigma)) z.1.alg) z.2.1.x)) :
    (∀ st ∈ sts, Fit c (vecs c.clf) st) ∧
    ((sts.zip l).map (gainOf c D sigma eps ε U L)).sum ≤
      -(wsum c D (fun k i => cell s'.alg k i ^ 2) / (2 * sigma * ((n + l.length : Nat) + eps)))
      + wsum c D (fun k i => cell s.alg k i ^ 2) / (2 * sigma * (n + eps))
      - (∑ k ∈ Finset.range c.clf, ∑ i ∈ Finset.range D, cell s'.alg k i * U k i)
      + (∑ k ∈ Finset.range c.clf, ∑ i ∈ Finset.range D, cell s.alg k i * U k i)
      + ∑ j ∈ Finset.range l.length, 2 * (κ * R ^ 2) / (sigma * ((n + j : Nat) + 1)) := by
  induction h generalizing n with
  | nil s => exact ⟨by simp, by simp⟩
  | @cons s s1 s2 e r l sts hone ht ih =>
    obtain ⟨hx, hr, hR, hlo, hlab⟩ := hl (e, r) List.mem_cons_self
    have h1 := hlow (s, (e, r)) List.mem_cons_self
    obtain ⟨h2, h3, h4, z, h5, h6, h7⟩ := dual_step hk hlazy hsm hcost hD hb U hL hs hmar hx hr hlo hlab h1 hone
    have hG : 0 ≤ κ * R ^ 2 := mul_nonneg hL.sq (sq_nonneg _)
    have hZ : wsum c D (fun k i => z k i ^ 2) ≤ κ * R ^ 2 := h6.trans (mul_le_mul_of_nonneg_left hR hL.sq)
    have e1 : wsum c D (fun k i => cell s1.alg k i ^ 2) = wsum c D (fun k i => (cell s.alg k i + z k i) ^ 2) :=
      wsum_congr c D fun k hk' i => by rw [h5 k hk']
    have e2 := wsum_sq c D 1 1 (cell s.alg) z
    simp only [one_mul, one_pow, mul_one] at e2
    have h8 : wsum c D (fun k i => cell s1.alg k i ^ 2) ≤ ((n + 1 : Nat) : α) ^ 2 * (κ * R ^ 2) := by
      rw [e1]
      push_cast
      exact sums_grow hb D n hP hZ
    obtain ⟨h0, h9⟩ := ih (n + 1) (by rw [h4, hn]; push_cast; ring) h2 h3 h8 (fun q hq => hl q (List.mem_cons_of_mem _ hq))
      (fun z hz => hlow z (List.mem_cons_of_mem _ hz))
    refine ⟨?_, ?_⟩
    · intro st hst
      rcases List.mem_cons.1 hst with rfl | hst
      · exact hs
      · exact h0 st hst
    have ht' : (s.t : α) = n := by rw [hn]; simp
    have ha : (n : α) < n + eps := by linarith
    have hsq : 0 ≤ wsum c D (fun k i => z k i ^ 2) + 2 * (wsum c D (fun k i => cell s.alg k i * z k i) / (n + eps))
        + wsum c D (fun k i => cell s.alg k i ^ 2) / (n + eps) ^ 2 := by
      have h10 : 0 ≤ wsum c D (fun k i => (1 / ((n : α) + eps) * cell s.alg k i + 1 * z k i) ^ 2) := wsum_nonneg hb D fun k i => sq_nonneg _
      rw [wsum_sq] at h10
      have e3 : (1 / ((n : α) + eps)) ^ 2 * wsum c D (fun k i => cell s.alg k i ^ 2)
          + 2 * (1 / ((n : α) + eps)) * 1 * wsum c D (fun k i => cell s.alg k i * z k i) + 1 ^ 2 * wsum c D (fun k i => z k i ^ 2)
          = wsum c D (fun k i => z k i ^ 2) + 2 * (wsum c D (fun k i => cell s.alg k i * z k i) / (n + eps))
        + wsum c D (fun k i => cell s.alg k i ^ 2) / (n + eps) ^ 2 := by
        rw [div_eq_mul_inv _ (((n : α) + eps) ^ 2), ← inv_pow]
        ring
      rw [e3] at h10
      exact h10
    have h11 := dual_scalar n hsig ha (wsum_nonneg hb D fun k i => sq_nonneg (cell s.alg k i)) hG hP hZ hsq
    have h12 : (∑ k ∈ Finset.range c.clf, ∑ i ∈ Finset.range D,
          z k i * (dualOf c.biasEta0 (1 / (((s.t : α) + eps) * sigma)) s.alg k i - U k i))
        = -(wsum c D (fun k i => cell s.alg k i * z k i) / (sigma * (n + eps)))
          - ∑ k ∈ Finset.range c.clf, ∑ i ∈ Finset.range D, z k i * U k i := by
      rw [ht']
      have e3 : -(wsum c D (fun k i => cell s.alg k i * z k i) / (sigma * (n + eps)))
          = wsum c D (fun k i => -(1 / (((n : α) + eps) * sigma)) * (cell s.alg k i * z k i)) := by rw [wsum_mul]; ring
      rw [e3]
      unfold wsum dualOf
      rw [← Finset.sum_sub_distrib]
      refine Finset.sum_congr rfl fun k _ => ?_
      rw [← Finset.sum_sub_distrib]
      refine Finset.sum_congr rfl fun i _ => ?_
      ring
    have h13 : (∑ k ∈ Finset.range c.clf, ∑ i ∈ Finset.range D, cell s1.alg k i * U k i)
        = (∑ k ∈ Finset.range c.clf, ∑ i ∈ Finset.range D, cell s.alg k i * U k i)
          + ∑ k ∈ Finset.range c.clf, ∑ i ∈ Finset.range D, z k i * U k i := by
      rw [← Finset.sum_add_distrib]
      refine Finset.sum_congr rfl fun k hk' => ?_
      rw [← Finset.sum_add_distrib]
      refine Finset.sum_congr rfl fun i _ => ?_
      rw [h5 k (Finset.mem_range.1 hk')]
      ring
    rw [h12] at h7
    rw [List.zip_cons_cons, List.map_cons, List.sum_cons, List.length_cons, Finset.sum_range_succ']
    have e4 : gainOf c D sigma eps ε U L (s, (e, r)) = L e (scoresOf (dualOf c.biasEta0 (1 / (((s.t : α) + eps) * sigma)) s.alg) e.x)
        - L e (scoresOf U e.x) - ε + sigma / 2 * (wsum c D (fun k i => cell s.alg k i ^ 2) / (sigma * ((n : α) + eps)) ^ 2) := by
      unfold gainOf
      simp only [ht']
    have e5 : (∑ j ∈ Finset.range l.length, 2 * (κ * R ^ 2) / (sigma * (((n + (j + 1) : Nat) : α) + 1)))
        = ∑ j ∈ Finset.range l.length, 2 * (κ * R ^ 2) / (sigma * (((n + 1 + j : Nat) : α) + 1)) :=
      Finset.sum_congr rfl fun j _ => by rw [show n + (j + 1) = n + 1 + j by omega]
    rw [e4, e5, show n + (l.length + 1) = n + 1 + l.length by omega, add_zero]
    rw [e1, e2] at h9
    have e6 : ((n + 1 : Nat) : α) + eps = n + eps + 1 := by push_cast; ring
    rw [e6] at h9
    linarith

/-- The end of the telescope. -/
theorem dual_last {c : Cfg α} (hb : 0 ≤ c.biasEta0) {sigma a : α} (hsig : 0 < sigma) (ha : 0 < a) (D : Nat) {U : Nat → Nat → α}
    (hU : c.biasEta0 = 0 → ∀ k < c.clf, U k 0 = 0) (th : Nat → Nat → α) :
    -(wsum c D (fun k i => th k i ^ 2) / (2 * sigma * a)) - (∑ k ∈ Finset.range c.clf, ∑ i ∈ Finset.range D, th k i * U k i)
      ≤ sigma / 2 * a * ∑ k ∈ Finset.range c.clf, ∑ i ∈ Finset.range D, U k i ^ 2 / rateOf c.biasEta0 i := by
  have e : -(wsum c D (fun k i => th k i ^ 2) / (2 * sigma * a)) = wsum c D (fun k i => -(1 / (2 * sigma * a)) * th k i ^ 2) := by
    rw [wsum_mul]; ring
  rw [e, Finset.mul_sum]
  unfold wsum
  rw [← Finset.sum_sub_distrib]
  refine Finset.sum_le_sum fun k hk => ?_
  rw [← Finset.sum_sub_distrib, Finset.mul_sum]
  refine Finset.sum_le_sum fun i _ => ?_
  by_cases h0 : i = 0 ∧ c.biasEta0 = 0
  · obtain ⟨rfl, hb0⟩ := h0
    rw [hU hb0 k (Finset.mem_range.1 hk)]
    simp [rateOf, hb0]
  · have hr : 0 < rateOf c.biasEta0 i := by
      unfold rateOf
      split
      · rename_i hi
        exact lt_of_le_of_ne hb fun h => h0 ⟨hi, h.symm⟩
      · exact one_pos
    generalize rateOf c.biasEta0 i = b at *
    have h1 : sigma / 2 * a * (U k i ^ 2 / b) - (b * (-(1 / (2 * sigma * a)) * th k i ^ 2) - th k i * U k i)
        = (b * th k i + sigma * a * U k i) ^ 2 / (2 * sigma * a * b) := by
      field_simp
      ring
    have h2 : 0 ≤ (b * th k i + sigma * a * U k i) ^ 2 / (2 * sigma * a * b) := by positivity
    linarith

end

end Sol.Olm
