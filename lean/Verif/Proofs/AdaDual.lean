import Verif.Proofs.Ada
import Verif.Proofs.Dual
/-! The regret of adaptive dual averaging: the weights are computed from the sums of the gradients. -/

set_option linter.unusedSectionVars false
set_option linter.unusedVariables false

namespace Sol.Olm

open Sol.Online Sol.Sparse Sol.Loss Sol.Spec

/-- One class of an update of AdaRDA. -/
theorem adaRdaOne_cell {delta eta b g : ℝ} {x : SVec ℝ} {p : List ℝ × List ℝ × List ℝ} {d : Nat} (hx : Ascending x)
    (h1 : ∀ q ∈ x, 1 ≤ q.1 ∧ q.1 < d) (hd : 1 ≤ d) (hp : p.1.length = d) (hp1 : p.2.1.length = d) (hp2 : p.2.2.length = d)
    (ha : ∀ i, delta ≤ p.2.1.getD i delta) :
    ∃ q, adaRdaOne delta eta b g x p = .ok q ∧ (∀ i, q.2.1.getD i delta = grown delta (p.2.1.getD i delta) (g * dir 1 x i)) ∧
      (∀ i, coord q.2.2 i = coord p.2.2 i + g * dir 1 x i) ∧ coord q.1 0 = coord p.1 0 * b ∧
      ∀ i, 1 ≤ i → coord q.1 i = if featureAt x i = none then coord p.1 i else -eta * coord q.2.2 i / q.2.1.getD i delta := by
  obtain ⟨H', h2, h3, h4⟩ := adaH_cell (delta := delta) (g := g) (H := p.2.1) hx (by rw [hp1]; exact h1) (by omega) ha
  have h5 := addGrad_closed g (u := p.2.2) hx (by omega)
  have h6 := coord_addGrad g (u := p.2.2) (x := x) (by omega) (fun q hq => by rw [hp2]; exact (h1 q hq).2)
  have hlen : ((p.2.2.mapIdx (touch x fun _ a y => a + g * y)).mapIdx (atZero (· + g))).length = d := by simp [hp2]
  generalize (p.2.2.mapIdx (touch x fun _ a y => a + g * y)).mapIdx (atZero (· + g)) = u at *
  have hc := calcExp_closed (op := fun _ r => r) (f := fun _ i _ => do
      let a ← lget u i
      let h ← lget H' i
      .ok (-eta * a / h)) (fun i _ _ => -eta * coord u i / H'.getD i delta) (w := p.1) hx (by
      intro w' i y a hw hi h2 _
      have e1 : i < u.length := by omega
      have e2 : i < H'.length := by omega
      simp only [lget_ok e1, lget_ok e2, Res.bind_ok]
      simp [coord, List.getD_eq_getElem?_getD, List.getElem?_eq_getElem e1, List.getElem?_eq_getElem e2])
  have hb := atBias_closed (· * b) (v := p.1.mapIdx (touch x fun i _ _ => -eta * coord u i / H'.getD i delta)) (by simp; omega)
  have hf0 : featureAt x 0 = none := by
    cases hf : featureAt x 0 with
    | none => rfl
    | some y => have := (h1 _ (featureAt_some hf)).1; simp at this
  refine ⟨_, by unfold adaRdaOne; rw [h2, Res.bind_ok, h5, Res.bind_ok, hc, Res.bind_ok, hb, Res.bind_ok], h4,
    fun i => by rw [h6]; rfl, ?_, ?_⟩
  · simp only
    rw [coord_mapIdx _ (by simp; omega), coord_mapIdx _ (by omega)]
    simp [atZero, touch, hf0]
  · intro i hi
    simp only
    by_cases hid : i < d
    · rw [coord_mapIdx _ (by simp; omega), coord_mapIdx _ (by omega)]
      simp only [atZero, show i ≠ 0 by omega, if_false, touch]
      by_cases hf : featureAt x i = none
      · rw [if_pos hf, hf]
      · obtain ⟨y, hy⟩ := Option.ne_none_iff_exists'.1 hf
        rw [if_neg hf, hy]
    · have hf : featureAt x i = none := by
        cases hf : featureAt x i with
        | none => rfl
        | some y => have := (h1 _ (featureAt_some hf)).2; simp at this; omega
      rw [if_pos hf, coord_eq_zero (by simp; omega), coord_eq_zero (by omega)]

/-- The weights, scales and sums after an update of AdaRDA. -/
theorem adaRda_cell {c : Cfg ℝ} {delta : ℝ} {s : St ℝ (AdaRdaSt ℝ)} {x : SVec ℝ} (h : Fit c (adaRdaInv c.clf) s) (hx : Good x)
    (h1 : ∀ p ∈ x, 1 ≤ p.1) (hd : Sparse.dim x ≤ s.dim) (ha : ∀ k < c.clf, ∀ i, delta ≤ hcell delta s.alg.H k i)
    {lo : ℝ} {s' : St ℝ (AdaRdaSt ℝ)} (hu : (adaRda delta).update c s x lo = .ok s') :
    ∃ w' H' u', s' = { s with w := w', alg := ⟨H', u'⟩ } ∧ ∀ k < c.clf,
      (∀ i, hcell delta H' k i = grown delta (hcell delta s.alg.H k i) (s.g.getD k 0 * dir 1 x i) ∧
        cell u' k i = cell s.alg.ut k i + s.g.getD k 0 * dir 1 x i) ∧
      (cell s.w k 0 = 0 → cell w' k 0 = 0) ∧
      ∀ i, 1 ≤ i → cell s.w k i = -s.eta * cell s.alg.ut k i / hcell delta s.alg.H k i →
        cell w' k i = -s.eta * cell u' k i / hcell delta H' k i := by
  have hin : ∀ p ∈ x, 1 ≤ p.1 ∧ p.1 < s.dim := fun p hp => ⟨h1 p hp, lt_of_lt_of_le (hx.lt_dim p hp) hd⟩
  have key : ∀ g : ℝ, ∀ p : List ℝ × List ℝ × List ℝ, p.1.length = s.dim → p.2.1.length = s.dim → p.2.2.length = s.dim →
      (∀ i, delta ≤ p.2.1.getD i delta) → ∃ q, adaRdaOne delta s.eta c.biasEta0 g x p = .ok q ∧
        (∀ i, q.2.1.getD i delta = grown delta (p.2.1.getD i delta) (g * dir 1 x i)) ∧
      (∀ i, coord q.2.2 i = coord p.2.2 i + g * dir 1 x i) ∧ coord q.1 0 = coord p.1 0 * c.biasEta0 ∧
      ∀ i, 1 ≤ i → coord q.1 i = if featureAt x i = none then coord p.1 i
        else -s.eta * coord q.2.2 i / q.2.1.getD i delta := fun g p a b d e => adaRdaOne_cell hx.1 hin h.dim a b d e
  simp only [adaRda, Res.bind_eq_ok] at hu
  obtain ⟨ws, h2, h3⟩ := hu
  unfold adaRdaUpdate at h2
  have hz : (s.w.zip (s.alg.H.zip s.alg.ut)).length = c.clf := by
    rw [List.length_zip, List.length_zip, h.w.1, h.alg.1.1, h.alg.2.1, min_self, min_self]
  classical
  choose! F hF using key
  have hmem : ∀ v ∈ s.w.zip (s.alg.H.zip s.alg.ut), v.1.length = s.dim ∧ v.2.1.length = s.dim ∧ v.2.2.length = s.dim ∧
      ∀ i, delta ≤ v.2.1.getD i delta := by
    intro v hv
    obtain ⟨k, hk, rfl⟩ := List.mem_iff_getElem.1 hv
    have hkc : k < c.clf := by omega
    have hka : k < s.alg.H.length := by rw [h.alg.1.1]; exact hkc
    have hku : k < s.alg.ut.length := by rw [h.alg.2.1]; exact hkc
    have hkw : k < s.w.length := by rw [h.w.1]; exact hkc
    rw [List.getElem_zip, List.getElem_zip]
    refine ⟨h.w.2 _ (List.getElem_mem hkw), h.alg.1.2 _ (List.getElem_mem hka), h.alg.2.2 _ (List.getElem_mem hku), fun i => ?_⟩
    have := ha k hkc i
    simpa [hcell, List.getD_eq_getElem?_getD, hka] using this
  rw [each1_closed F s.g _ (by rw [hz, h.g]) (fun g v hv => by
    obtain ⟨a, b, d, e⟩ := hmem v hv
    exact (hF g v a b d e).1)] at h2
  obtain rfl := Res.ok.inj h2
  refine ⟨_, _, _, (Res.ok.inj h3).symm, ?_⟩
  intro k hk
  have hka : k < s.alg.H.length := by rw [h.alg.1.1]; exact hk
  have hku : k < s.alg.ut.length := by rw [h.alg.2.1]; exact hk
  have hkw : k < s.w.length := by rw [h.w.1]; exact hk
  have hkg : k < s.g.length := by rw [h.g]; exact hk
  have hkz : k < (s.w.zip (s.alg.H.zip s.alg.ut)).length := by omega
  obtain ⟨a, b, d, e⟩ := hmem (s.w[k], s.alg.H[k], s.alg.ut[k]) (by
    have := List.getElem_mem (l := s.w.zip (s.alg.H.zip s.alg.ut)) hkz
    simpa [List.getElem_zip] using this)
  have hf := (hF s.g[k] (s.w[k], s.alg.H[k], s.alg.ut[k]) a b d e).2
  simp only [hcell, cell, List.getD_eq_getElem?_getD, List.getElem?_map, List.getElem?_zipWith, List.getElem?_eq_getElem hkg,
    List.getElem?_eq_getElem hkz, List.getElem_zip, Option.map_some, Option.getD_some, List.getElem?_eq_getElem hka,
    List.getElem?_eq_getElem hkw, List.getElem?_eq_getElem hku]
  simp only [List.getD_eq_getElem?_getD] at hf e
  by_cases hg : s.g[k] = 0
  · rw [if_pos (by simpa using hg), hg]
    simp only [zero_mul, add_zero]
    exact ⟨fun i => ⟨(grown_zero (e i)).symm, trivial⟩, fun h => h, fun i _ h => h⟩
  · rw [if_neg (by simpa using hg)]
    obtain ⟨f1, f2, f3, f4⟩ := hf
    refine ⟨fun i => ⟨f1 i, f2 i⟩, fun h0 => by rw [f3, h0, zero_mul], fun i hi hw => ?_⟩
    rw [f4 i hi]
    split
    · rename_i hn
      have hz : s.g[k] * dir 1 x i = 0 := by simp [dir, feat, hn, show i ≠ 0 by omega]
      rw [hw, f1 i, f2 i, hz, grown_zero (e i), add_zero]
    · rfl

/-! ### The potential -/

/-- What a coordinate contributes to the potential. -/
noncomputable def rpsi (delta eta u h z : ℝ) : ℝ := eta * z ^ 2 / (2 * h) + z * u - eta * (h - delta)

/-- One coordinate of one step of AdaRDA. -/
theorem rpsi_step {delta eta u h th z : ℝ} (hd : 0 < delta) (he : 0 < eta) (hh : delta ≤ h) (hz : |z| ≤ 2 * delta) :
    z * (-eta * th / h - u) ≤ rpsi delta eta u h th - rpsi delta eta u (grown delta h z) (th + z) := by
  have h1 := grown_ge hh z
  have h2 := grown_sq delta h z
  generalize grown delta h z = k at *
  have h0 : 0 < h := by linarith
  have hk : 0 < k := by linarith
  have hkz : k ≤ h + 2 * delta := by
    by_contra hn
    have h3 : (h - delta + |z|) ^ 2 < (k - delta) ^ 2 := by
      have := abs_nonneg z
      apply pow_lt_pow_left₀ (by linarith) (by linarith) two_ne_zero
    rw [h2, ← sq_abs z] at h3
    nlinarith [mul_nonneg (sub_nonneg.2 hh) (abs_nonneg z)]
  unfold rpsi
  have a1 : eta * (th + z) ^ 2 / (2 * k) ≤ eta * (th + z) ^ 2 / (2 * h) :=
    div_le_div_of_nonneg_left (by positivity) (by linarith) (by linarith)
  have a2 : eta * (th + z) ^ 2 / (2 * h) = eta * th ^ 2 / (2 * h) + z * (eta * th / h) + eta * (z ^ 2 / (2 * h)) := by
    field_simp
    ring
  have a3 : z ^ 2 / (2 * h) ≤ k - h := by
    rw [div_le_iff₀ (by linarith)]
    have : z ^ 2 = (k - h) * (k + h - 2 * delta) := by nlinarith
    rw [this]
    nlinarith [mul_nonneg (sub_nonneg.2 h1) (sub_nonneg.2 hkz)]
  have a4 : eta * (z ^ 2 / (2 * h)) ≤ eta * (k - h) := mul_le_mul_of_nonneg_left a3 he.le
  have a5 : -eta * th / h = -(eta * th / h) := by ring
  rw [a5]
  linarith

/-- The potential. -/
noncomputable def rpot (c : Cfg ℝ) (D : Nat) (delta eta : ℝ) (U : Nat → Nat → ℝ) (a : AdaRdaSt ℝ) : ℝ :=
  ∑ k ∈ Finset.range c.clf, ∑ i ∈ Finset.range D, if i = 0 then 0 else rpsi delta eta (U k i) (hcell delta a.H k i) (cell a.ut k i)

/-- The state of AdaRDA during a run. -/
structure RdaInv (c : Cfg ℝ) (m delta eta : ℝ) (a : Nat → ℝ) (s : St ℝ (AdaRdaSt ℝ)) : Prop where
  fit : Fit c (adaRdaInv c.clf) s
  margin : s.margin = m
  step : s.eta = eta
  bias : ∀ k < c.clf, cell s.w k 0 = 0
  weights : ∀ k < c.clf, ∀ i, 1 ≤ i → cell s.w k i = -eta * cell s.alg.ut k i / hcell delta s.alg.H k i
  above : ∀ k < c.clf, ∀ i, delta ≤ hcell delta s.alg.H k i
  below : ∀ k < c.clf, ∀ i, (hcell delta s.alg.H k i - delta) ^ 2 ≤ a i

theorem rda_step {c : Cfg ℝ} {delta eta : ℝ} (hd : 0 < delta) (he : 0 < eta) (hk : Matches c.kind c.clf)
    (hlazy : c.lazyUpdate = false) (hsm : c.smooth ≤ 0) (hcost : c.cost = none) {D : Nat} (hD : 1 ≤ D)
    {U : Nat → Nat → ℝ} (hU0 : ∀ k < c.clf, U k 0 = 0)
    {L : Ex ℝ → (Nat → ℝ) → ℝ} {m κ ε : ℝ} {Lab : Int → Prop} {Low : (Nat → ℝ) → Prop} (hL : Bent c m L κ ε Lab Low)
    (hS : Steep c m Lab Low) {a : Nat → ℝ} {s s' : St ℝ (AdaRdaSt ℝ)} {e : Ex ℝ} {r : ℝ} (hs : RdaInv c m delta eta a s)
    (hx : Good e.x) (hr : ∀ p ∈ e.x, 1 ≤ p.1 ∧ p.1 < D) (hbig : ∀ p ∈ e.x, |p.2| ≤ 2 * delta) (hl : LabelOk c.clf e.label)
    (hlab : Lab e.label) (hlow : Low (scoresOf (cell s.w) e.x)) (h : trainOne (adaRda delta) c s e r = .ok s') :
    RdaInv c m delta eta (fun i => a i + dir 1 e.x i ^ 2) s' ∧ L e (scoresOf (cell s.w) e.x) - L e (scoresOf U e.x) - ε ≤
      rpot c D delta eta U s.alg - rpot c D delta eta U s'.alg := by
  obtain ⟨hf, hcase⟩ := lin_step (safe_adaRda c delta) (.adaRda delta) hk (fun _ _ _ => rfl) hlazy hsm hcost U hL hS hs.fit hs.margin
    hx hl hlab hlow h
  have hcw : ∀ k < c.clf, ∀ i, cell (enter (adaRda delta) s e.x).w k i = cell s.w k i := fun k hk' i =>
    enter_cell hs.fit e.x k i hk'
  have hH : ∀ k < c.clf, ∀ i, hcell delta (enter (adaRda delta) s e.x).alg.H k i = hcell delta s.alg.H k i := by
    intro k hk' i
    simp only [enter, updateDim]
    split
    · exact hcell_grow hs.fit.alg.1 _ k i hk'
    · rfl
  have hut : ∀ k < c.clf, ∀ i, cell (enter (adaRda delta) s e.x).alg.ut k i = cell s.alg.ut k i := by
    intro k hk' i
    have h0 : ∀ u : List (List ℝ), cell u k i = hcell 0 u k i := fun u => rfl
    rw [h0, h0]
    simp only [enter, updateDim]
    split
    · exact hcell_grow hs.fit.alg.2 _ k i hk'
    · rfl
  have heta : (enter (adaRda delta) s e.x).eta = s.eta := by simp only [enter, updateDim]; split <;> rfl
  have hdir : ∀ i, 1 ≤ i → |dir 1 e.x i| ≤ 2 * delta := by
    intro i hi
    simp only [dir, show i ≠ 0 by omega, if_false, add_zero, feat]
    cases hf : featureAt e.x i with
    | none => simp; linarith
    | some y => exact hbig _ (featureAt_some hf)
  rcases hcase with ⟨g, v, s2, n, hgl, hu, rfl, hg1, hle⟩ | ⟨⟨g, v, n, rfl⟩, hz⟩
  · generalize hst : ({ enter (adaRda delta) s e.x with g := g, margin := m, vi := v,
                                                        upd := (enter (adaRda delta) s e.x).upd + 1 } : St ℝ (AdaRdaSt ℝ)) = st at hu
    have hfe := (safe_adaRda c delta).start s e.x hs.fit hx
    have hfit : Fit c (adaRdaInv c.clf) st := by
      obtain ⟨t, ht, hft, -⟩ := hfe
      obtain rfl := Res.ok.inj ht
      rw [← hst]
      exact ⟨hft.dim, hft.w, hgl, hft.alg⟩
    obtain ⟨w', H', u', rfl, hc⟩ := adaRda_cell hfit hx (fun p hp => (hr p hp).1) (by rw [← hst]; simp only; rw [enter_dim]; omega)
      (fun k hk' i => by rw [← hst]; simp only; rw [hH k hk' i]; exact hs.above k hk' i) hu
    have e1 : st.g = g := by rw [← hst]
    have e2 : st.alg = (enter (adaRda delta) s e.x).alg := by rw [← hst]
    have e3 : st.w = (enter (adaRda delta) s e.x).w := by rw [← hst]
    have e4 : st.eta = eta := by rw [← hst]; exact heta.trans hs.step
    have hc' : ∀ k < c.clf, ∀ i, hcell delta H' k i = grown delta (hcell delta s.alg.H k i) (g.getD k 0 * dir 1 e.x i) ∧
        cell u' k i = cell s.alg.ut k i + g.getD k 0 * dir 1 e.x i := by
      intro k hk' i
      obtain ⟨h1, h2⟩ := (hc k hk').1 i
      rw [e1, e2, hH k hk' i] at h1
      rw [e1, e2, hut k hk' i] at h2
      exact ⟨h1, h2⟩
    refine ⟨⟨hf, by rw [← hst], e4, ?_, ?_, ?_, ?_⟩, ?_⟩
    · intro k hk'
      exact (hc k hk').2.1 (by rw [e3, hcw k hk']; exact hs.bias k hk')
    · intro k hk' i hi
      have := (hc k hk').2.2 i hi
      rw [e2, e3, e4, hcw k hk', hut k hk', hH k hk'] at this
      exact this (hs.weights k hk' i hi)
    · intro k hk' i
      simp only
      rw [(hc' k hk' i).1]
      exact (hs.above k hk' i).trans (grown_ge (hs.above k hk' i) _)
    · intro k hk' i
      simp only
      rw [(hc' k hk' i).1, grown_sq]
      have h1 := hs.below k hk' i
      have h2 : (g.getD k 0 * dir 1 e.x i) ^ 2 ≤ dir 1 e.x i ^ 2 := by
        have := mul_le_mul_of_nonneg_right (hg1 k) (sq_nonneg (dir 1 e.x i))
        nlinarith
      linarith
    · refine hle.trans ?_
      simp only
      unfold rpot
      rw [← Finset.sum_sub_distrib]
      refine Finset.sum_le_sum fun k hk' => ?_
      have hk' := Finset.mem_range.1 hk'
      rw [scores_diff hx.1 hD hr, Finset.mul_sum, ← Finset.sum_sub_distrib]
      refine Finset.sum_le_sum fun i _ => ?_
      by_cases h0 : i = 0
      · subst h0
        rw [hs.bias k hk', hU0 k hk']
        simp
      · simp only [h0, if_false]
        rw [(hc' k hk' i).2, (hc' k hk' i).1, ← mul_assoc, hs.weights k hk' i (by omega)]
        refine rpsi_step hd he (hs.above k hk' i) ?_
        rw [abs_mul]
        have h1 : |g.getD k 0| ≤ 1 := by
          rw [← sq_le_one_iff_abs_le_one, pow_two]
          exact hg1 k
        have h2 := hdir i (by omega)
        have := mul_le_mul h1 h2 (abs_nonneg _) zero_le_one
        linarith
  · refine ⟨⟨hf, rfl, heta.trans hs.step, fun k hk' => by simp only; rw [hcw k hk']; exact hs.bias k hk',
      fun k hk' i hi => by simp only; rw [hcw k hk', hut k hk', hH k hk']; exact hs.weights k hk' i hi,
      fun k hk' i => by simp only; rw [hH k hk']; exact hs.above k hk' i,
      fun k hk' i => by simp only; rw [hH k hk']; have := hs.below k hk' i; nlinarith [sq_nonneg (dir 1 e.x i)]⟩, ?_⟩
    simp only
    have : rpot c D delta eta U (enter (adaRda delta) s e.x).alg = rpot c D delta eta U s.alg := by
      unfold rpot
      refine Finset.sum_congr rfl fun k hk' => Finset.sum_congr rfl fun i _ => ?_
      rw [hH k (Finset.mem_range.1 hk'), hut k (Finset.mem_range.1 hk')]
    rw [this, sub_self, hz]
    have h1 := hL.nonneg e (scoresOf U e.x)
    have h2 := hL.err
    linarith

/-- A whole run of AdaRDA. -/
theorem rda_visits {c : Cfg ℝ} {delta eta : ℝ} (hd : 0 < delta) (he : 0 < eta) (hk : Matches c.kind c.clf)
    (hlazy : c.lazyUpdate = false) (hsm : c.smooth ≤ 0) (hcost : c.cost = none) {D : Nat} (hD : 1 ≤ D)
    {U : Nat → Nat → ℝ} (hU0 : ∀ k < c.clf, U k 0 = 0)
    {L : Ex ℝ → (Nat → ℝ) → ℝ} {m κ ε : ℝ} {Lab : Int → Prop} {Low : (Nat → ℝ) → Prop} (hL : Bent c m L κ ε Lab Low)
    (hS : Steep c m Lab Low) {a : Nat → ℝ} {s s' : St ℝ (AdaRdaSt ℝ)} {l : List (Ex ℝ × ℝ)} {sts : List (St ℝ (AdaRdaSt ℝ))}
    (hs : RdaInv c m delta eta a s)
    (hl : ∀ q ∈ l, Good q.1.x ∧ (∀ p ∈ q.1.x, 1 ≤ p.1 ∧ p.1 < D) ∧ LabelOk c.clf q.1.label ∧ Lab q.1.label)
    (hbig : ∀ q ∈ l, ∀ p ∈ q.1.x, |p.2| ≤ 2 * delta)
    (h : Visits (adaRda delta) c s l sts s') (hlow : ∀ z ∈ sts.zip l, Low (scoresOf (cell z.1.w) z.2.1.x)) :
    (∀ st ∈ sts, ∀ k < c.clf, cell st.w k 0 = 0) ∧ RdaInv c m delta eta (fun i => a i + (l.map fun q => dir 1 q.1.x i ^ 2).sum) s' ∧
      (suffered L sts l).sum - (fixed L U l).sum - l.length * ε ≤ rpot c D delta eta U s.alg - rpot c D delta eta U s'.alg := by
  induction h generalizing a with
  | nil s => exact ⟨by simp, by simpa using hs, by simp [suffered, fixed]⟩
  | @cons s s1 s2 e r l sts hone ht ih =>
    obtain ⟨hx, hr, hlo, hlab⟩ := hl (e, r) List.mem_cons_self
    have h1 := hlow (s, (e, r)) List.mem_cons_self
    obtain ⟨h2, h3⟩ := rda_step hd he hk hlazy hsm hcost hD hU0 hL hS hs hx hr (hbig (e, r) List.mem_cons_self) hlo hlab h1 hone
    obtain ⟨h0, h4, h5⟩ := ih h2 (fun q hq => hl q (List.mem_cons_of_mem _ hq)) (fun q hq => hbig q (List.mem_cons_of_mem _ hq))
      (fun z hz => hlow z (List.mem_cons_of_mem _ hz))
    refine ⟨?_, ?_, ?_⟩
    · intro st hst
      rcases List.mem_cons.1 hst with rfl | hst
      · exact hs.bias
      · exact h0 st hst
    · have : (fun i => a i + dir 1 e.x i ^ 2 + (l.map fun q => dir 1 q.1.x i ^ 2).sum) =
          fun i => a i + (((e, r) :: l).map fun q : Ex ℝ × ℝ => dir 1 q.1.x i ^ 2).sum := by
        funext i
        simp only [List.map_cons, List.sum_cons]
        ring
      rw [← this]
      exact h4
    · have e1 : (suffered L (s :: sts) ((e, r) :: l)).sum = L e (scoresOf (cell s.w) e.x) + (suffered L sts l).sum := by
        simp only [suffered, List.zip_cons_cons, List.map_cons, List.sum_cons]
        rfl
      have e2 : (fixed L U ((e, r) :: l)).sum = L e (scoresOf U e.x) + (fixed L U l).sum := by
        simp only [fixed, List.map_cons, List.sum_cons]
      rw [e1, e2, List.length_cons]
      push_cast
      linarith

/-- The potential at the beginning and at the end. -/
theorem rpot_bound {c : Cfg ℝ} {delta eta : ℝ} (hd : 0 < delta) (he : 0 < eta) {D : Nat}
    {U : Nat → Nat → ℝ} {s s' : St ℝ (AdaRdaSt ℝ)} {m : ℝ} {a : Nat → ℝ} (h0 : ∀ k < c.clf, ∀ i, cell s.alg.ut k i = 0)
    (hH : ∀ k < c.clf, ∀ i, hcell delta s.alg.H k i = delta) (hs : RdaInv c m delta eta a s') :
    rpot c D delta eta U s.alg - rpot c D delta eta U s'.alg ≤ ∑ k ∈ Finset.range c.clf, ∑ i ∈ Finset.range D,
      if i = 0 then 0 else (delta + Real.sqrt (a i)) * U k i ^ 2 / (2 * eta) + eta * Real.sqrt (a i) := by
  unfold rpot
  rw [← Finset.sum_sub_distrib]
  refine Finset.sum_le_sum fun k hk => ?_
  have hk := Finset.mem_range.1 hk
  rw [← Finset.sum_sub_distrib]
  refine Finset.sum_le_sum fun i _ => ?_
  by_cases hi : i = 0
  · simp [hi]
  simp only [hi, if_false]
  rw [h0 k hk i, hH k hk i]
  have h1 := hs.above k hk i
  have h2 := Real.abs_le_sqrt (hs.below k hk i)
  rw [abs_of_nonneg (by linarith)] at h2
  generalize hcell delta s'.alg.H k i = h at *
  generalize cell s'.alg.ut k i = z at *
  have hp : 0 < h := by linarith
  unfold rpsi
  have h4 : eta * (h - delta) ≤ eta * Real.sqrt (a i) := mul_le_mul_of_nonneg_left h2 he.le
  have h5 : h * U k i ^ 2 / (2 * eta) + (eta * z ^ 2 / (2 * h) + z * U k i) = (h * U k i + eta * z) ^ 2 / (2 * eta * h) := by
    field_simp
    ring
  have h6 : 0 ≤ (h * U k i + eta * z) ^ 2 / (2 * eta * h) := by positivity
  have h7 : h * U k i ^ 2 / (2 * eta) ≤ (delta + Real.sqrt (a i)) * U k i ^ 2 / (2 * eta) :=
    div_le_div_of_nonneg_right (mul_le_mul_of_nonneg_right (by linarith) (sq_nonneg _)) (by linarith)
  simp only [ne_eq, OfNat.ofNat_ne_zero, not_false_eq_true, zero_pow, mul_zero, zero_div, zero_mul, sub_self, add_zero]
  linarith

end Sol.Olm
