import Verif.Proofs.Regret
import Verif.Proofs.Variance
/-! The regret of the adaptive algorithms: scales per coordinate. -/

set_option linter.unusedSectionVars false
set_option linter.unusedVariables false

namespace Sol.Olm

open Sol.Online Sol.Sparse Sol.Loss Sol.Spec

section
variable {α A : Type} [Field α] [LinearOrder α] [IsStrictOrderedRing α] [FFun α] [FSqrt α]

/-- No part of the gradient is larger than 1. -/
def Steep (c : Cfg α) (m : α) (Lab : Int → Prop) (Low : (Nat → α) → Prop) : Prop :=
  ∀ (e : Ex α) p pred g0 vi l g m' v', p.length = c.clf → g0.length = c.clf → labelOf c.clf p = .ok pred → Lab e.label →
    Low (fun k => p.getD k 0) → gradient c.kind m none vi e.label p pred g0 = .ok (l, g, m', v') → g.length = c.clf → 0 < l →
    ∀ k, g.getD k 0 * g.getD k 0 ≤ 1

theorem steep_of_bent {c : Cfg α} (hc : c.clf = 1) {m ε κ : α} (hκ : κ ≤ 1) {L : Ex α → (Nat → α) → α} {Lab : Int → Prop}
    {Low : (Nat → α) → Prop} (hL : Bent c m L κ ε Lab Low) : Steep c m Lab Low := by
  intro e p pred g0 vi l g m' v' hp hg hpl hl hlow h hgl h0 k
  have h1 := ((hL.grad e p pred g0 vi l g m' v' hp hg hpl hl hlow h).2.2 h0).1
  rw [hc, Finset.sum_range_one] at h1
  cases k with
  | zero => exact h1.trans hκ
  | succ k =>
    rw [List.getD_eq_getElem?_getD, List.getElem?_eq_none (by rw [hgl, hc]; omega)]
    simp

theorem steep_maxHinge {c : Cfg α} (hk : c.kind = .maxHinge) (hc : 2 ≤ c.clf) (m : α) :
    Steep c m (fun y => 0 ≤ y ∧ y < c.clf) (fun v => ∀ k < c.clf, FFun.lowest < v k) := by
  intro e p pred g0 vi l g m' v' hp hg hpl hlab hlow h _ h0 k
  rw [hk] at h
  obtain ⟨y, hy⟩ := Int.eq_ofNat_of_zero_le hlab.1
  rw [hy] at h
  obtain ⟨q, hq, hqy, hbest, h1, h2⟩ := maxHinge_grad hc hp hg (by omega) hpl hlow h
  rw [h2 h0 k]
  split
  · norm_num
  · split <;> norm_num

/-- One example without lazy updates, active learning and costs: the update, and how the losses are compared by its gradient. -/
theorem lin_step {c : Cfg α} {G : Alg α A} {inv : Nat → A → Prop} {mid : SVec α → Nat → A → Prop} (hG : Safe c G inv mid)
    (hm : Margin G) (hk : Matches c.kind c.clf) (hhand : ∀ c s x, G.handler c s x = none) (hlazy : c.lazyUpdate = false)
    (hsm : c.smooth ≤ 0) (hcost : c.cost = none) (U : Nat → Nat → α)
    {L : Ex α → (Nat → α) → α} {m κ ε : α} {Lab : Int → Prop} {Low : (Nat → α) → Prop} (hL : Bent c m L κ ε Lab Low)
    (hS : Steep c m Lab Low) {s s' : St α A} {e : Ex α} {r : α} (hs : Fit c inv s) (hmar : s.margin = m) (hx : Good e.x)
    (hl : LabelOk c.clf e.label) (hlab : Lab e.label) (hlow : Low (scoresOf (cell s.w) e.x)) (h : trainOne G c s e r = .ok s') :
    Fit c inv s' ∧
      ((∃ g v s2 n, g.length = c.clf ∧ G.update c { enter G s e.x with g := g, margin := m, vi := v, upd := (enter G s e.x).upd + 1 } e.x
            (L e (scoresOf (cell s.w) e.x)) = .ok s2 ∧ s' = { s2 with err := n } ∧ (∀ k, g.getD k 0 * g.getD k 0 ≤ 1) ∧
          L e (scoresOf (cell s.w) e.x) - L e (scoresOf U e.x) - ε ≤
            ∑ k ∈ Finset.range c.clf, g.getD k 0 * (scoresOf (cell s.w) e.x k - scoresOf U e.x k)) ∨
        (∃ g v n, s' = { enter G s e.x with g := g, margin := m, vi := v, err := n }) ∧ L e (scoresOf (cell s.w) e.x) = 0) := by
  have hfit : Fit c inv s' := by
    obtain ⟨ev, s'', hh, hf, -⟩ := happens hG hk s hs e r hx hl
    obtain ⟨_, _, _, _, _, _, _, _, h1⟩ := hh
    rw [h] at h1
    exact Res.ok.inj h1 ▸ hf
  refine ⟨hfit, ?_⟩
  obtain ⟨p, pred, l, g, m', v, h1, h2, h3, h4⟩ := one_step hm hhand hlazy (by simpa using hsm) h
  have hfe : Fit c (none' A) (enter G s e.x) := enter_fit hs e.x
  have hscore := scores_cell (G := G) hs hx h1
  obtain ⟨hp, hpred⟩ := predict_eq hfe hx.1 h1
  have hpl : p.length = c.clf := by rw [hp, List.length_map, hfe.w.1]
  have hc : 1 ≤ c.clf := by
    unfold Matches at hk
    split at hk <;> omega
  have hr' : InRange c.clf pred := by
    obtain ⟨⟨p', pr'⟩, hh1, hh2, hh3⟩ := gives_predict (s := enter G s e.x) hc hx.1 hfe.dim hfe.w
    rw [h1] at hh1
    obtain ⟨rfl, rfl⟩ := Prod.mk.inj (Res.ok.inj hh1)
    exact hh3
  have hgl : g.length = c.clf := gradient_length hk hpl hfe.g hl hr' h2
  have hmar' : (enter G s e.x).margin = s.margin := by simp only [enter, updateDim]; split <;> rfl
  have hcm : costMargin c e.label (enter G s e.x).margin = m := by simp [costMargin, hcost, hmar', hmar]
  rw [hcm] at h2
  obtain ⟨rfl, hll, hgr⟩ := hL.grad e p pred _ _ l g m' v hpl hfe.g hpred hlab (by rw [hscore]; exact hlow) h2
  have hst := hS e p pred _ _ l g m' v hpl hfe.g hpred hlab (by rw [hscore]; exact hlow) h2 hgl
  rw [hscore] at hll
  have hl0 : 0 ≤ l := by rw [hll]; exact hL.nonneg _ _
  by_cases hlp : 0 < l
  · obtain ⟨s2, n, h5, rfl⟩ := h3 (by simpa using hlp)
    refine .inl ⟨g, v, s2, n, hgl, by rw [← hll]; exact h5, rfl, hst hlp, ?_⟩
    have h6 := (hgr hlp).2 (scoresOf U e.x)
    have e1 : ∑ k ∈ Finset.range c.clf, g.getD k 0 * (scoresOf (cell s.w) e.x k - scoresOf U e.x k)
        = - ∑ k ∈ Finset.range c.clf, g.getD k 0 * (scoresOf U e.x k - p.getD k 0) := by
      rw [← Finset.sum_neg_distrib]
      refine Finset.sum_congr rfl fun k _ => ?_
      rw [← congrFun hscore k]
      ring
    rw [e1, ← hll]
    linarith
  · obtain ⟨n, rfl⟩ := h4 (by simpa using hlp)
    exact .inr ⟨⟨g, v, n, rfl⟩, by rw [← hll]; exact le_antisymm (not_lt.1 hlp) hl0⟩

/-- The difference of two scores, coordinate by coordinate. -/
theorem scores_diff {x : SVec α} (hx : Ascending x) {D : Nat} (hD : 1 ≤ D) (hr : ∀ p ∈ x, 1 ≤ p.1 ∧ p.1 < D) (W U : Nat → Nat → α)
    (k : Nat) : scoresOf W x k - scoresOf U x k = ∑ i ∈ Finset.range D, dir 1 x i * (W k i - U k i) := by
  unfold scoresOf
  rw [linear_sum hx fun p hp => (hr p hp).2, linear_sum hx fun p hp => (hr p hp).2]
  have h0 : feat x 0 = 0 := feat_eq_zero fun p hp => by have := (hr p hp).1; omega
  have : ∀ i ∈ Finset.range D, dir 1 x i * (W k i - U k i)
      = W k i * feat x i - U k i * feat x i + if i = 0 then W k 0 - U k 0 else 0 := by
    intro i _
    by_cases hi : i = 0
    · subst hi
      simp [dir, h0]
    · simp only [dir, hi, if_false]
      ring
  rw [Finset.sum_congr rfl this, Finset.sum_add_distrib, Finset.sum_sub_distrib, Finset.sum_ite_eq']
  simp [show 0 < D by omega]
  ring

/-- The number for coordinate `i` of class `k` in vectors that are continued with `a`. -/
def hcell (a : α) (H : List (List α)) (k i : Nat) : α := (H.getD k []).getD i a

theorem hcell_grow {n d : Nat} {a : α} {H : List (List α)} (h : Vecs n d H) (d' k i : Nat) (hk : k < n) :
    hcell a (growSig a d d' H) k i = hcell a H k i := by
  have hlt : k < H.length := by rw [h.1]; exact hk
  have hl : H[k].length = d := h.2 _ (List.getElem_mem hlt)
  simp only [hcell, growSig, List.getD_eq_getElem?_getD, List.getElem?_map, List.getElem?_eq_getElem hlt, Option.map_some,
    Option.getD_some, growTo]
  subst hl
  rw [List.take_length]
  by_cases hi : i < H[k].length
  · rw [List.getElem?_append_left hi]
  · rw [List.getElem?_append_right (by omega), List.getElem?_eq_none (l := H[k]) (by omega), List.getElem?_replicate]
    split <;> rfl

theorem getD_mapIdx {β : Type} {v : List β} (f : Nat → β → β) (i : Nat) (a : β) (h : i < v.length) :
    (v.mapIdx f).getD i a = f i (v.getD i a) := by
  simp [List.getD_eq_getElem?_getD, List.getElem?_mapIdx, List.getElem?_eq_getElem h]

end

/-! ### The scales -/

/-- The new scale of a coordinate. -/
noncomputable def grown (delta h z : ℝ) : ℝ := Real.sqrt ((h - delta) ^ 2 + z ^ 2) + delta

theorem grown_zero {delta h : ℝ} (hh : delta ≤ h) : grown delta h 0 = h := by
  unfold grown
  rw [zero_pow two_ne_zero, add_zero, Real.sqrt_sq (by linarith)]
  ring

theorem grown_ge {delta h : ℝ} (hh : delta ≤ h) (z : ℝ) : h ≤ grown delta h z := by
  unfold grown
  have := Real.abs_le_sqrt (show (h - delta) ^ 2 ≤ (h - delta) ^ 2 + z ^ 2 by nlinarith [sq_nonneg z])
  rw [abs_of_nonneg (by linarith)] at this
  linarith

theorem grown_sq (delta h z : ℝ) : (grown delta h z - delta) ^ 2 = (h - delta) ^ 2 + z ^ 2 := by
  unfold grown
  rw [add_sub_cancel_right, Real.sq_sqrt (by positivity)]

theorem adaH_cell {delta g : ℝ} {x : SVec ℝ} {H : List ℝ} (hx : Ascending x) (h1 : ∀ p ∈ x, 1 ≤ p.1 ∧ p.1 < H.length)
    (hH : 1 ≤ H.length) (ha : ∀ i, delta ≤ H.getD i delta) :
    ∃ H', adaH delta g x H = .ok H' ∧ H'.length = H.length ∧ ∀ i, H'.getD i delta = grown delta (H.getD i delta) (g * dir 1 x i) := by
  have hc := calcExp_closed (op := fun _ r => r) (f := fun H i y => do
      let h ← lget H i
      .ok (FSqrt.sqrt ((h - delta) * (h - delta) + (g * y) * (g * y)) + delta))
    (fun _ a y => FSqrt.sqrt ((a - delta) * (a - delta) + (g * y) * (g * y)) + delta) (w := H) hx (by
      intro w' i y a hw hi h2 h3
      have : i < w'.length := by omega
      simp only [lget_ok this, Res.bind_ok]
      rw [List.getElem?_eq_getElem this] at h2
      rw [Option.some.inj h2])
  have hb := atBias_closed (fun h => FSqrt.sqrt ((h - delta) * (h - delta) + g * g) + delta) (v := H.mapIdx (touch x fun _ a y =>
    FSqrt.sqrt ((a - delta) * (a - delta) + (g * y) * (g * y)) + delta)) (by simpa using hH)
  refine ⟨_, by unfold adaH; rw [hc, Res.bind_ok]; exact hb, by simp, ?_⟩
  · intro i
    by_cases hi : i < H.length
    · rw [getD_mapIdx _ _ _ (by simpa using hi), getD_mapIdx _ _ _ hi]
      have h0 : feat x 0 = 0 := feat_eq_zero fun p hp => by have := (h1 p hp).1; omega
      simp only [atZero, touch, dir]
      have hs : ∀ y : ℝ, FSqrt.sqrt ((H.getD i delta - delta) * (H.getD i delta - delta) + (g * y) * (g * y)) + delta
          = grown delta (H.getD i delta) (g * y) := by
        intro y
        unfold grown
        rw [pow_two, pow_two]
        rfl
      by_cases h : i = 0
      · subst h
        simp only [if_true, h0, zero_add, mul_one]
        have hf : featureAt x 0 = none := by
          cases hf : featureAt x 0 with
          | none => rfl
          | some y => have := (h1 _ (featureAt_some hf)).1; simp at this
        rw [hf]
        have := hs 1
        simp only [mul_one] at this
        exact this
      · simp only [h, if_false, add_zero, feat]
        cases hf : featureAt x i with
        | none => simp only [Option.getD_none, mul_zero]; rw [grown_zero (ha i)]
        | some y => exact hs y
    · have e1 : ∀ l : List ℝ, l.length ≤ i → l.getD i delta = delta := fun l hl => by
        simp [List.getD_eq_getElem?_getD, List.getElem?_eq_none hl]
      rw [e1 _ (by simpa using hi), e1 _ (by omega)]
      have : feat x i = 0 := feat_eq_zero fun p hp h => by have := (h1 p hp).2; omega
      simp only [dir, this, show i ≠ 0 by omega, if_false, add_zero, mul_zero]
      rw [grown_zero (le_refl _)]

theorem adaStep_cell {k b : ℝ} {x : SVec ℝ} {w H : List ℝ} (hx : Ascending x) (h1 : ∀ p ∈ x, 1 ≤ p.1 ∧ p.1 < w.length)
    (hw : 1 ≤ w.length) (hH : H.length = w.length) (a : ℝ) :
    ∃ w', adaStep k (k * b) x w H = .ok w' ∧ w'.length = w.length ∧ ∀ i, coord w' i = coord w i - k * dir b x i / H.getD i a := by
  have hc := calcExp_closed (op := fun p q => p - q) (f := fun _ i y => do let h ← lget H i; .ok (k * y / h))
    (fun i _ y => k * y / H.getD i a) (w := w) hx (by
      intro w' i y c hw hi h2 h3
      have : i < H.length := by omega
      simp only [lget_ok this, Res.bind_ok]
      simp [List.getD_eq_getElem?_getD, List.getElem?_eq_getElem this])
  have hb := atBias_closed (fun p => p - k * b / H[0]) (v := w.mapIdx (touch x fun i a' y => a' - k * y / H.getD i a)) (by simpa using hw)
  refine ⟨_, by unfold adaStep; rw [hc, Res.bind_ok, lget_ok (w := H) (i := 0) (by omega), Res.bind_ok]; exact hb, by simp, ?_⟩
  · intro i
    have h0 : feat x 0 = 0 := feat_eq_zero fun p hp => by have := (h1 p hp).1; omega
    by_cases hi : i < w.length
    · rw [coord_mapIdx _ (by simpa using hi), coord_mapIdx _ hi]
      simp only [atZero, touch, dir]
      by_cases h : i = 0
      · subst h
        have hf : featureAt x 0 = none := by
          cases hf : featureAt x 0 with
          | none => rfl
          | some y => have := (h1 _ (featureAt_some hf)).1; simp at this
        simp only [if_true, h0, zero_add, hf]
        simp [List.getD_eq_getElem?_getD, List.getElem?_eq_getElem (show 0 < H.length by omega)]
      · simp only [h, if_false, add_zero, feat]
        cases featureAt x i <;> simp
    · rw [coord_eq_zero (by simpa using hi), coord_eq_zero (by omega)]
      have : feat x i = 0 := feat_eq_zero fun p hp h => by have := (h1 p hp).2; omega
      simp [dir, this, show i ≠ 0 by omega]

/-- The weights and scales after an update of AdaFOBOS. -/
theorem adaFobos_cell {c : Cfg ℝ} {delta : ℝ} {s : St ℝ (List (List ℝ))} {x : SVec ℝ} (h : Fit c (vecs c.clf) s) (hx : Good x)
    (h1 : ∀ p ∈ x, 1 ≤ p.1) (hd : Sparse.dim x ≤ s.dim) (ha : ∀ k < c.clf, ∀ i, delta ≤ hcell delta s.alg k i)
    {lo : ℝ} {s' : St ℝ (List (List ℝ))} (hu : (adaFobos delta).update c s x lo = .ok s') :
    ∃ w' H', s' = { s with w := w', alg := H' } ∧ ∀ k < c.clf, ∀ i,
      hcell delta H' k i = grown delta (hcell delta s.alg k i) (s.g.getD k 0 * dir 1 x i) ∧
      cell w' k i = cell s.w k i - s.eta * s.g.getD k 0 * dir c.biasEta0 x i / hcell delta H' k i := by
  have hin : ∀ p ∈ x, 1 ≤ p.1 ∧ p.1 < s.dim := fun p hp => ⟨h1 p hp, lt_of_lt_of_le (hx.lt_dim p hp) hd⟩
  -- one class
  have key : ∀ g : ℝ, ∀ p : List ℝ × List ℝ, p.1.length = s.dim → p.2.length = s.dim → (∀ i, delta ≤ p.2.getD i delta) →
      ∃ q : List ℝ × List ℝ, (do
        let H ← adaH delta g x p.2
        let w ← adaStep (s.eta * g) (biasEta c s * g) x p.1 H
        .ok (w, H) : Res (List ℝ × List ℝ)) = .ok q ∧ ∀ i, q.2.getD i delta = grown delta (p.2.getD i delta) (g * dir 1 x i) ∧
          coord q.1 i = coord p.1 i - s.eta * g * dir c.biasEta0 x i / q.2.getD i delta := by
    intro g p hp1 hp2 hp3
    obtain ⟨H', h2, h3, h4⟩ := adaH_cell (g := g) hx.1 (by rw [hp2]; exact hin) (by rw [hp2]; exact h.dim) hp3
    obtain ⟨w', h5, h6, h7⟩ := adaStep_cell (k := s.eta * g) (b := c.biasEta0) (w := p.1) (H := H') hx.1 (by rw [hp1]; exact hin)
      (by rw [hp1]; exact h.dim) (by rw [h3, hp2, hp1]) delta
    refine ⟨(w', H'), ?_, fun i => ⟨h4 i, h7 i⟩⟩
    rw [h2, Res.bind_ok, show biasEta c s * g = s.eta * g * c.biasEta0 by unfold biasEta; ring, h5]
    rfl
  simp only [adaFobos, Res.bind_eq_ok] at hu
  obtain ⟨ws, h2, h3⟩ := hu
  unfold adaFobosUpdate at h2
  have hz : (s.w.zip s.alg).length = c.clf := by rw [List.length_zip, h.w.1, h.alg.1, min_self]
  classical
  choose! F hF using key
  have hmem : ∀ v ∈ s.w.zip s.alg, v.1.length = s.dim ∧ v.2.length = s.dim ∧ ∀ i, delta ≤ v.2.getD i delta := by
    intro v hv
    obtain ⟨k, hk, rfl⟩ := List.mem_iff_getElem.1 hv
    have hkc : k < c.clf := by omega
    have hka : k < s.alg.length := by rw [h.alg.1]; exact hkc
    have hkw : k < s.w.length := by rw [h.w.1]; exact hkc
    rw [List.getElem_zip]
    refine ⟨h.w.2 _ (List.getElem_mem hkw), h.alg.2 _ (List.getElem_mem hka), fun i => ?_⟩
    have := ha k hkc i
    simpa [hcell, List.getD_eq_getElem?_getD, hka] using this
  rw [each1_closed F s.g (s.w.zip s.alg) (by rw [hz, h.g]) (fun g v hv => by
    obtain ⟨a, b, d⟩ := hmem v hv
    exact (hF g v a b d).1)] at h2
  obtain rfl := Res.ok.inj h2
  refine ⟨_, _, (Res.ok.inj h3).symm, ?_⟩
  intro k hk i
  have hka : k < s.alg.length := by rw [h.alg.1]; exact hk
  have hkw : k < s.w.length := by rw [h.w.1]; exact hk
  have hkg : k < s.g.length := by rw [h.g]; exact hk
  have hkz : k < (s.w.zip s.alg).length := by omega
  obtain ⟨a, b, d⟩ := hmem (s.w[k], s.alg[k]) (by
    rw [← List.getElem_zip (h := hkz)]
    exact List.getElem_mem _)
  have hf := (hF s.g[k] (s.w[k], s.alg[k]) a b d).2 i
  simp only [hcell, cell, List.getD_eq_getElem?_getD, List.getElem?_map, List.getElem?_zipWith, List.getElem?_eq_getElem hkg,
    List.getElem?_eq_getElem hkz, List.getElem_zip, Option.map_some, Option.getD_some, List.getElem?_eq_getElem hka,
    List.getElem?_eq_getElem hkw]
  simp only [List.getD_eq_getElem?_getD] at hf d
  by_cases hg : s.g[k] = 0
  · rw [if_pos (by simpa using hg), hg]
    simp only [zero_mul, mul_zero, zero_div, sub_zero, and_true]
    rw [grown_zero (d i)]
  · rw [if_neg (by simpa using hg)]
    exact hf

/-! ### The potential -/

/-- What a coordinate contributes to the potential. -/
noncomputable def psi (delta eta B u h w : ℝ) : ℝ := (h * (w - u) ^ 2 - B ^ 2 * h) / (2 * eta) - eta * (h - delta)

/-- One coordinate of one step of AdaFOBOS. -/
theorem psi_step {delta eta B u h w z : ℝ} (hd : 0 < delta) (he : 0 < eta) (hh : delta ≤ h) (hB : |w - u| ≤ B) :
    z * (w - u) ≤ psi delta eta B u h w - psi delta eta B u (grown delta h z) (w - eta * z / grown delta h z) := by
  have h1 := grown_ge hh z
  have h2 := grown_sq delta h z
  generalize grown delta h z = k at *
  have hk : 0 < k := by linarith
  unfold psi
  have e1 : k * (w - eta * z / k - u) ^ 2 = k * (w - u) ^ 2 - 2 * eta * (z * (w - u)) + eta ^ 2 * (z ^ 2 / k) := by
    field_simp
    ring
  rw [e1]
  have hB2 : (w - u) ^ 2 ≤ B ^ 2 := sq_le_sq' (by linarith [abs_le.1 hB]) (abs_le.1 hB).2
  have h3 : z ^ 2 / k ≤ 2 * (k - h) := by
    rw [div_le_iff₀ hk]
    have : z ^ 2 = (k - h) * (k - delta + (h - delta)) := by nlinarith
    rw [this]
    nlinarith [mul_nonneg (sub_nonneg.2 h1) hd.le, mul_nonneg (sub_nonneg.2 h1) (sub_nonneg.2 h1)]
  have h4 : (k - h) * (w - u) ^ 2 ≤ (k - h) * B ^ 2 := mul_le_mul_of_nonneg_left hB2 (by linarith)
  have h5 : eta ^ 2 * (z ^ 2 / k) ≤ eta ^ 2 * (2 * (k - h)) := mul_le_mul_of_nonneg_left h3 (sq_nonneg _)
  have e2 : (h * (w - u) ^ 2 - B ^ 2 * h) / (2 * eta) - eta * (h - delta) -
      ((k * (w - u) ^ 2 - 2 * eta * (z * (w - u)) + eta ^ 2 * (z ^ 2 / k) - B ^ 2 * k) / (2 * eta) - eta * (k - delta))
      = (2 * eta * (z * (w - u)) + (h * (w - u) ^ 2 - B ^ 2 * h - k * (w - u) ^ 2 - eta ^ 2 * (z ^ 2 / k) + B ^ 2 * k
        + 2 * eta ^ 2 * (k - h))) / (2 * eta) := by
    field_simp
    ring
  rw [e2, le_div_iff₀ (by linarith)]
  nlinarith

/-- How the step size of a coordinate differs from that of the features. -/
def rate (b : ℝ) (i : Nat) : ℝ := if i = 0 then b else 1

theorem rate_dir {b : ℝ} {x : SVec ℝ} (h1 : ∀ p ∈ x, 1 ≤ p.1) (i : Nat) : rate b i * dir 1 x i = dir b x i := by
  have h0 : feat x 0 = 0 := feat_eq_zero fun p hp => by have := h1 p hp; omega
  unfold rate dir
  by_cases hi : i = 0
  · subst hi
    simp [h0]
  · simp [hi]

/-- The potential. -/
noncomputable def pot (c : Cfg ℝ) (D : Nat) (delta eta B : ℝ) (U : Nat → Nat → ℝ) (w H : List (List ℝ)) : ℝ :=
  ∑ k ∈ Finset.range c.clf, ∑ i ∈ Finset.range D, psi delta (eta * rate c.biasEta0 i) B (U k i) (hcell delta H k i) (cell w k i)

theorem pot_congr {c : Cfg ℝ} {D : Nat} {delta eta B : ℝ} {U : Nat → Nat → ℝ} {w w' H H' : List (List ℝ)}
    (h : ∀ k < c.clf, ∀ i, hcell delta H k i = hcell delta H' k i ∧ cell w k i = cell w' k i) :
    pot c D delta eta B U w H = pot c D delta eta B U w' H' := by
  unfold pot
  refine Finset.sum_congr rfl fun k hk => Finset.sum_congr rfl fun i _ => ?_
  rw [(h k (Finset.mem_range.1 hk) i).1, (h k (Finset.mem_range.1 hk) i).2]

/-- The state of AdaFOBOS during a run: `a i` bounds the squared gradients so far. -/
structure AdaInv (c : Cfg ℝ) (m delta eta : ℝ) (a : Nat → ℝ) (s : St ℝ (List (List ℝ))) : Prop where
  fit : Fit c (vecs c.clf) s
  margin : s.margin = m
  eta : s.eta = eta
  bias : c.biasEta0 = 0 → ∀ k < c.clf, cell s.w k 0 = 0
  above : ∀ k < c.clf, ∀ i, delta ≤ hcell delta s.alg k i
  below : ∀ k < c.clf, ∀ i, (hcell delta s.alg k i - delta) ^ 2 ≤ a i

theorem ada_step {c : Cfg ℝ} {delta eta B : ℝ} (hd : 0 < delta) (he : 0 < eta) (hk : Matches c.kind c.clf)
    (hlazy : c.lazyUpdate = false) (hsm : c.smooth ≤ 0) (hcost : c.cost = none) (hb : 0 ≤ c.biasEta0) {D : Nat} (hD : 1 ≤ D)
    {U : Nat → Nat → ℝ} (hU0 : c.biasEta0 = 0 → ∀ k < c.clf, U k 0 = 0)
    {L : Ex ℝ → (Nat → ℝ) → ℝ} {m κ ε : ℝ} {Lab : Int → Prop} {Low : (Nat → ℝ) → Prop} (hL : Bent c m L κ ε Lab Low)
    (hS : Steep c m Lab Low) {a : Nat → ℝ} {s s' : St ℝ (List (List ℝ))} {e : Ex ℝ} {r : ℝ} (hs : AdaInv c m delta eta a s)
    (hx : Good e.x) (hr : ∀ p ∈ e.x, 1 ≤ p.1 ∧ p.1 < D) (hl : LabelOk c.clf e.label) (hlab : Lab e.label)
    (hlow : Low (scoresOf (cell s.w) e.x)) (hB : ∀ k < c.clf, ∀ i < D, |cell s.w k i - U k i| ≤ B)
    (h : trainOne (adaFobos delta) c s e r = .ok s') :
    AdaInv c m delta eta (fun i => a i + dir 1 e.x i ^ 2) s' ∧ L e (scoresOf (cell s.w) e.x) - L e (scoresOf U e.x) - ε ≤
      pot c D delta eta B U s.w s.alg - pot c D delta eta B U s'.w s'.alg := by
  obtain ⟨hf, hcase⟩ := lin_step (safe_adaFobos c delta) (.adaFobos delta) hk (fun _ _ _ => rfl) hlazy hsm hcost U hL hS hs.fit hs.margin
    hx hl hlab hlow h
  have hcw : ∀ k < c.clf, ∀ i, cell (enter (adaFobos delta) s e.x).w k i = cell s.w k i := fun k hk' i =>
    enter_cell hs.fit e.x k i hk'
  have hH : ∀ k < c.clf, ∀ i, hcell delta (enter (adaFobos delta) s e.x).alg k i = hcell delta s.alg k i := by
    intro k hk' i
    simp only [enter, updateDim]
    split
    · exact hcell_grow hs.fit.alg _ k i hk'
    · rfl
  have heta : (enter (adaFobos delta) s e.x).eta = s.eta := by simp only [enter, updateDim]; split <;> rfl
  rcases hcase with ⟨g, v, s2, n, hgl, hu, rfl, hg1, hle⟩ | ⟨⟨g, v, n, rfl⟩, hz⟩
  · generalize hst : ({ enter (adaFobos delta) s e.x with g := g, margin := m, vi := v,
                                                          upd := (enter (adaFobos delta) s e.x).upd + 1 } : St ℝ (List (List ℝ))) = st at hu
    have hfe := (safe_adaFobos c delta).start s e.x hs.fit hx
    have hfit : Fit c (vecs c.clf) st := by
      obtain ⟨t, ht, hft, -⟩ := hfe
      obtain rfl := Res.ok.inj ht
      rw [← hst]
      exact ⟨hft.dim, hft.w, hgl, hft.alg⟩
    obtain ⟨w', H', rfl, hc⟩ := adaFobos_cell hfit hx (fun p hp => (hr p hp).1) (by rw [← hst]; simp only; rw [enter_dim]; omega)
      (fun k hk' i => by rw [← hst]; simp only; rw [hH k hk' i]; exact hs.above k hk' i) hu
    have hc' : ∀ k < c.clf, ∀ i, hcell delta H' k i = grown delta (hcell delta s.alg k i) (g.getD k 0 * dir 1 e.x i) ∧
        cell w' k i = cell s.w k i - eta * rate c.biasEta0 i * (g.getD k 0 * dir 1 e.x i) / hcell delta H' k i := by
      intro k hk' i
      obtain ⟨h1, h2⟩ := hc k hk' i
      have e1 : st.g = g := by rw [← hst]
      have e2 : st.alg = (enter (adaFobos delta) s e.x).alg := by rw [← hst]
      have e3 : st.w = (enter (adaFobos delta) s e.x).w := by rw [← hst]
      have e4 : st.eta = eta := by rw [← hst]; exact heta.trans hs.eta
      rw [e1, e2, hH k hk' i] at h1
      rw [e1, e3, e4, hcw k hk' i, ← rate_dir (fun p hp => (hr p hp).1)] at h2
      refine ⟨h1, ?_⟩
      rw [h2]
      ring
    refine ⟨⟨hf, by rw [← hst], by rw [← hst]; exact heta.trans hs.eta, ?_, ?_, ?_⟩, ?_⟩
    · intro h0 k hk'
      simp only
      rw [(hc' k hk' 0).2, hs.bias h0 k hk']
      simp [rate, h0]
    · intro k hk' i
      simp only
      rw [(hc' k hk' i).1]
      exact (hs.above k hk' i).trans (grown_ge (hs.above k hk' i) _)
    · intro k hk' i
      simp only
      rw [(hc' k hk' i).1, grown_sq]
      have h1 := hs.below k hk' i
      have h2 : (g.getD k 0 * dir 1 e.x i) ^ 2 ≤ dir 1 e.x i ^ 2 := by
        have := mul_le_mul_of_nonneg_right (hg1 k) (sq_nonneg (dir 1 e.x i))
        nlinarith
      linarith
    · refine hle.trans ?_
      simp only
      unfold pot
      rw [← Finset.sum_sub_distrib]
      refine Finset.sum_le_sum fun k hk' => ?_
      have hk' := Finset.mem_range.1 hk'
      rw [scores_diff hx.1 hD hr, Finset.mul_sum, ← Finset.sum_sub_distrib]
      refine Finset.sum_le_sum fun i hi => ?_
      rw [(hc' k hk' i).2, (hc' k hk' i).1, ← mul_assoc]
      by_cases h0 : i = 0 ∧ c.biasEta0 = 0
      · obtain ⟨rfl, hb0⟩ := h0
        rw [hs.bias hb0 k hk', hU0 hb0 k hk']
        simp [psi, rate, hb0]
      · refine psi_step hd (mul_pos he ?_) (hs.above k hk' i) (hB k hk' i (Finset.mem_range.1 hi))
        unfold rate
        split
        · rename_i hi0
          exact lt_of_le_of_ne hb fun h => h0 ⟨hi0, h.symm⟩
        · exact one_pos
  · refine ⟨⟨hf, rfl, heta.trans hs.eta, fun h0 k hk' => by simp only; rw [hcw k hk']; exact hs.bias h0 k hk',
      fun k hk' i => by simp only; rw [hH k hk']; exact hs.above k hk' i,
      fun k hk' i => by simp only; rw [hH k hk']; have := hs.below k hk' i; nlinarith [sq_nonneg (dir 1 e.x i)]⟩, ?_⟩
    simp only
    rw [pot_congr (w := (enter (adaFobos delta) s e.x).w) (H := (enter (adaFobos delta) s e.x).alg) (w' := s.w) (H' := s.alg)
      fun k hk' i => ⟨hH k hk' i, hcw k hk' i⟩, sub_self, hz]
    have h1 := hL.nonneg e (scoresOf U e.x)
    have h2 := hL.err
    linarith

/-- A whole run of AdaFOBOS. -/
theorem ada_visits {c : Cfg ℝ} {delta eta B : ℝ} (hd : 0 < delta) (he : 0 < eta) (hk : Matches c.kind c.clf)
    (hlazy : c.lazyUpdate = false) (hsm : c.smooth ≤ 0) (hcost : c.cost = none) (hb : 0 ≤ c.biasEta0) {D : Nat} (hD : 1 ≤ D)
    {U : Nat → Nat → ℝ} (hU0 : c.biasEta0 = 0 → ∀ k < c.clf, U k 0 = 0)
    {L : Ex ℝ → (Nat → ℝ) → ℝ} {m κ ε : ℝ} {Lab : Int → Prop} {Low : (Nat → ℝ) → Prop} (hL : Bent c m L κ ε Lab Low)
    (hS : Steep c m Lab Low) {a : Nat → ℝ} {s s' : St ℝ (List (List ℝ))} {l : List (Ex ℝ × ℝ)} {sts : List (St ℝ (List (List ℝ)))}
    (hs : AdaInv c m delta eta a s)
    (hl : ∀ q ∈ l, Good q.1.x ∧ (∀ p ∈ q.1.x, 1 ≤ p.1 ∧ p.1 < D) ∧ LabelOk c.clf q.1.label ∧ Lab q.1.label)
    (h : Visits (adaFobos delta) c s l sts s') (hlow : ∀ z ∈ sts.zip l, Low (scoresOf (cell z.1.w) z.2.1.x))
    (hB : ∀ st ∈ sts, ∀ k < c.clf, ∀ i < D, |cell st.w k i - U k i| ≤ B) :
    AdaInv c m delta eta (fun i => a i + (l.map fun q => dir 1 q.1.x i ^ 2).sum) s' ∧
      (suffered L sts l).sum - (fixed L U l).sum - l.length * ε ≤ pot c D delta eta B U s.w s.alg - pot c D delta eta B U s'.w s'.alg := by
  induction h generalizing a with
  | nil s => exact ⟨by simpa using hs, by simp [suffered, fixed]⟩
  | @cons s s1 s2 e r l sts hone ht ih =>
    obtain ⟨hx, hr, hlo, hlab⟩ := hl (e, r) List.mem_cons_self
    have h1 := hlow (s, (e, r)) List.mem_cons_self
    obtain ⟨h2, h3⟩ := ada_step hd he hk hlazy hsm hcost hb hD hU0 hL hS hs hx hr hlo hlab h1 (hB s List.mem_cons_self) hone
    obtain ⟨h4, h5⟩ := ih h2 (fun q hq => hl q (List.mem_cons_of_mem _ hq)) (fun z hz => hlow z (List.mem_cons_of_mem _ hz))
      (fun st hst => hB st (List.mem_cons_of_mem _ hst))
    refine ⟨?_, ?_⟩
    · have : (fun i => a i + dir 1 e.x i ^ 2 + (l.map fun q => dir 1 q.1.x i ^ 2).sum) =
          fun i => a i + (((e, r) :: l).map fun q : Ex ℝ × ℝ => dir 1 q.1.x i ^ 2).sum := by
        funext i
        simp only [List.map_cons, List.sum_cons]
        ring
      rw [← this]
      exact h4
    · have e1 : (suffered L (s :: sts) ((e, r) :: l)).sum = L e (scoresOf (cell s.w) e.x) + (suffered L sts l).sum := by
        simp only [suffered, List.zip_cons_cons, List.map_cons, List.sum_cons]
        rfl
      have e2 : (fixed L U ((e, r) :: l)).sum = L e (scoresOf U e.x) + (fixed L U l).sum := by
        simp only [fixed, List.map_cons, List.sum_cons]
      rw [e1, e2, List.length_cons]
      push_cast
      linarith

/-- The potential at the beginning and at the end. -/
theorem pot_bound {c : Cfg ℝ} {delta eta B : ℝ} (hd : 0 < delta) (he : 0 < eta) (hb : 0 ≤ c.biasEta0) {D : Nat}
    {U : Nat → Nat → ℝ} {s s' : St ℝ (List (List ℝ))} {m : ℝ} {a : Nat → ℝ} (h0 : ∀ k < c.clf, ∀ i, cell s.w k i = 0)
    (hH : ∀ k < c.clf, ∀ i, hcell delta s.alg k i = delta) (hs : AdaInv c m delta eta a s') :
    pot c D delta eta B U s.w s.alg - pot c D delta eta B U s'.w s'.alg ≤ ∑ k ∈ Finset.range c.clf, ∑ i ∈ Finset.range D,
      ((delta * U k i ^ 2 + B ^ 2 * Real.sqrt (a i)) / (2 * (eta * rate c.biasEta0 i)) + eta * rate c.biasEta0 i * Real.sqrt (a i)) := by
  unfold pot
  rw [← Finset.sum_sub_distrib]
  refine Finset.sum_le_sum fun k hk => ?_
  have hk := Finset.mem_range.1 hk
  rw [← Finset.sum_sub_distrib]
  refine Finset.sum_le_sum fun i _ => ?_
  rw [h0 k hk i, hH k hk i]
  have h1 := hs.above k hk i
  have h2 := Real.abs_le_sqrt (hs.below k hk i)
  rw [abs_of_nonneg (by linarith)] at h2
  generalize hcell delta s'.alg k i = h at *
  generalize cell s'.w k i = w at *
  have hrate : 0 ≤ eta * rate c.biasEta0 i := mul_nonneg he.le (by unfold rate; split <;> [exact hb; exact zero_le_one])
  generalize eta * rate c.biasEta0 i = E at *
  unfold psi
  have h3 : eta = eta := rfl
  have h4 : E * (h - delta) ≤ E * Real.sqrt (a i) := mul_le_mul_of_nonneg_left h2 hrate
  have h5 : (delta * (0 - U k i) ^ 2 - B ^ 2 * delta) / (2 * E) - (h * (w - U k i) ^ 2 - B ^ 2 * h) / (2 * E)
      ≤ (delta * U k i ^ 2 + B ^ 2 * Real.sqrt (a i)) / (2 * E) := by
    rw [← sub_div]
    refine div_le_div_of_nonneg_right ?_ (by linarith)
    have h6 : B ^ 2 * (h - delta) ≤ B ^ 2 * Real.sqrt (a i) := mul_le_mul_of_nonneg_left h2 (sq_nonneg _)
    have h7 : 0 ≤ h * (w - U k i) ^ 2 := mul_nonneg (by linarith) (sq_nonneg _)
    nlinarith
  rw [sub_self, mul_zero]
  linarith

end Sol.Olm
