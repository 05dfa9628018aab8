import Verif.Proofs.Ball
import Verif.Proofs.Regret
/-! ALMA2 over a whole run with two classes. -/

set_option linter.unusedSectionVars false
set_option linter.unusedVariables false

namespace Sol.Olm

open Sol.Online Sol.Sparse Sol.Loss Sol.Spec

/-! ### The step, as numbers -/

/-- One update: `v` is the inner product with the function compared with, `Q` what is granted for examples that it does not
    separate, `n` the divisor of the projection. -/
theorem alma_scalar {k A h γ ξ v Q n : ℝ} (hk : 1 ≤ k) (hA : 0 ≤ A) (hh : 0 < h) (hγ : 0 < γ) (hξ : 0 ≤ ξ) (hQ : 0 ≤ Q)
    (hn1 : 1 ≤ n) (hn2 : n ≤ 1 + A / k) (hv : h * γ / (A + 1 / 2) * (√k - 1) ≤ v + Q) :
    h * γ / (A + 1 / 2) * (√(k + 1) - 1) ≤ (v + h / √k * (γ - ξ)) / n + (Q + h * ξ) := by
  obtain ⟨r, hr⟩ : ∃ r, r = √k := ⟨_, rfl⟩
  obtain ⟨r', hr'⟩ : ∃ r', r' = √(k + 1) := ⟨_, rfl⟩
  rw [← hr] at hv ⊢
  rw [← hr']
  have hr1 : 1 ≤ r := by rw [hr]; exact Real.one_le_sqrt.2 hk
  have hr1' : 1 ≤ r' := by rw [hr']; exact Real.one_le_sqrt.2 (by linarith)
  have hrr : r * r = k := by rw [hr]; exact Real.mul_self_sqrt (by linarith)
  have hrr' : r' * r' = k + 1 := by rw [hr']; exact Real.mul_self_sqrt (by linarith)
  obtain ⟨q, hq⟩ : ∃ q, q = 1 / r := ⟨_, rfl⟩
  have hq0 : 0 < q := by rw [hq]; positivity
  have hq1 : q ≤ 1 := by rw [hq, div_le_one (by linarith)]; exact hr1
  have hrq : r * q = 1 := by rw [hq]; field_simp
  have hup : r' ≤ r + q / 2 := by
    have : r' * r' ≤ (r + q / 2) * (r + q / 2) := by nlinarith [mul_pos hq0 hq0]
    nlinarith
  obtain ⟨β, hβ⟩ : ∃ β, β = h * γ / (A + 1 / 2) := ⟨_, rfl⟩
  rw [← hβ] at hv ⊢
  have hβ0 : 0 < β := by rw [hβ]; positivity
  have hβe : β * (A + 1 / 2) = h * γ := by rw [hβ]; field_simp
  have hAk : A / k = A * (q * q) := by
    rw [← hrr, hq]; field_simp
  rw [hAk] at hn2
  have hhr : h / r = h * q := by rw [hq]; ring
  rw [hhr]
  -- the quotient
  have e1 : (v + h * q * (γ - ξ)) / n + (Q + h * ξ) = (v + h * q * (γ - ξ) + n * (Q + h * ξ)) / n := by
    field_simp
  rw [e1, le_div_iff₀ (by linarith)]
  have h1 : 0 ≤ Q + h * ξ := by positivity
  have h2 : Q + h * ξ ≤ n * (Q + h * ξ) := by nlinarith
  have h3 : h * q * ξ ≤ h * ξ := by
    have := mul_nonneg hh.le hξ
    nlinarith
  have h4 : β * (r' - 1) * n ≤ β * (r' - 1) * (1 + A * (q * q)) :=
    mul_le_mul_of_nonneg_left hn2 (mul_nonneg hβ0.le (by linarith))
  have h5 : (r' - 1) * (1 + A * (q * q)) ≤ r - 1 + (A + 1 / 2) * q := by
    have h6 : (r' - 1) * (1 + A * (q * q)) ≤ (r + q / 2 - 1) * (1 + A * (q * q)) :=
      mul_le_mul_of_nonneg_right (by linarith) (by positivity)
    have h7 : (r + q / 2 - 1) * (1 + A * (q * q)) = r - 1 + q / 2 + A * q * (r * q) + A * (q * q) * (q / 2) - A * (q * q) := by ring
    rw [h7, hrq] at h6
    have h8 : A * (q * q) * (q / 2) ≤ A * (q * q) := by
      have : 0 ≤ A * (q * q) := by positivity
      nlinarith
    linarith
  have h9 : β * (r' - 1) * (1 + A * (q * q)) ≤ β * (r - 1) + h * γ * q := by
    have := mul_le_mul_of_nonneg_left h5 hβ0.le
    rw [← hβe]
    linarith
  nlinarith

/-! ### The projection -/

theorem coord_div (w : List ℝ) (n : ℝ) (i : Nat) : coord (w.map (· / n)) i = coord w i / n := by
  unfold coord
  simp only [List.getD_eq_getElem?_getD, List.getElem?_map]
  cases w[i]? <;> simp

/-- The projection divides by a number. -/
theorem project_coord (w : List ℝ) : ∃ n, 1 ≤ n ∧ n ^ 2 ≤ max 1 (dnorm2 w) ∧ dnorm2 w ≤ n ^ 2 ∧
    ∀ i, coord (project w) i = coord w i / n := by
  have hn := sum_sq_nonneg w
  rw [← dnorm2_eq] at hn
  have hs : FSqrt.sqrt (dnorm2 w) = √(dnorm2 w) := rfl
  have hsq := Real.sq_sqrt hn
  simp only [project, hs]
  split
  · rename_i h
    rw [flt_iff] at h
    exact ⟨√(dnorm2 w), h.le, by rw [hsq]; exact le_max_right _ _, hsq.ge, coord_div w _⟩
  · rename_i h
    rw [flt_iff, not_lt] at h
    refine ⟨1, le_refl _, by rw [one_pow]; exact le_max_left _ _, ?_, fun i => by rw [div_one]⟩
    rw [← hsq]
    exact pow_le_pow_left₀ (Real.sqrt_nonneg _) h 2

theorem dnorm2_coord (w : List ℝ) (D : Nat) (h : ∀ i, D ≤ i → coord w i = 0) : dnorm2 w = ∑ i ∈ Finset.range D, coord w i ^ 2 := by
  rw [dnorm2_eq]
  induction w generalizing D with
  | nil =>
    symm
    simp only [List.map_nil, List.sum_nil]
    exact Finset.sum_eq_zero fun i _ => by simp [coord]
  | cons a w ih =>
    rw [List.map_cons, List.sum_cons]
    cases D with
    | zero =>
      have h0 : a = 0 := by have := h 0 (le_refl _); simpa [coord] using this
      rw [ih 0 fun i _ => by have := h (i + 1) (Nat.zero_le _); simpa [coord] using this]
      simp [h0]
    | succ D =>
      rw [Finset.sum_range_succ', ih D fun i hi => by have := h (i + 1) (by omega); simpa [coord] using this]
      simp only [coord, List.getD_cons_succ, List.getD_cons_zero]
      ring

/-- With bias rate 0 or 1 the inner product of the weights is that of all their coordinates. -/
theorem dnorm2_ip {b : ℝ} (hb : b = 0 ∨ b = 1) {w : List ℝ} {D : Nat} (h : ∀ i, D ≤ i → coord w i = 0) (h0 : b = 0 → coord w 0 = 0) :
    dnorm2 w = ip 1 D b (fun _ i => coord w i) (fun _ i => coord w i) := by
  rw [dnorm2_coord w D h]
  unfold ip
  rw [Finset.sum_range_one]
  refine Finset.sum_congr rfl fun i _ => ?_
  by_cases hi : i = 0
  · subst hi
    rcases hb with hb | hb
    · simp [h0 hb]
    · simp [hb]; ring
  · rw [if_neg hi]; ring

/-! ### One example -/

theorem idle_margin {A : Type} {c : Cfg ℝ} {G : Alg ℝ A} (hm : Margin G) (hhand : ∀ c s x, G.handler c s x = none) (hkind : c.kind = .hinge)
    (hcost : c.cost = none) {s s' : St ℝ A} {e : Ex ℝ} {r : ℝ} {ev : Event} (hh : Happens G c s e r ev s') (hf : ev.fired = false) :
    s'.margin = s.margin := by
  have hmar' : (enter G s e.x).margin = s.margin := by simp only [enter, updateDim]; split <;> rfl
  obtain ⟨hb, hp, he⟩ := margin_hooks hm
  obtain ⟨s0, s1, p, h0, h1, h2, h3, h4, h5⟩ := hh
  rw [hb] at h0
  obtain rfl := Res.ok.inj h0
  rw [hp] at h1
  obtain rfl := Res.ok.inj h1
  simp only [trainOne, iterate, hb, hp, Res.bind_ok, h2, h3] at h5
  cases hsk : ev.skip with
  | true =>
    simp only [hsk, if_true, Res.bind_ok, Res.ok.injEq] at h5
    rw [← h5]
    split <;> exact hmar'
  | false =>
    simp only [hsk, Bool.false_eq_true, if_false] at h5
    obtain ⟨⟨s2, pred⟩, h6, h7⟩ := Res.bind_eq_ok.1 h5
    obtain ⟨s3, h8, h9⟩ := Res.bind_eq_ok.1 h6
    simp only [Res.ok.injEq, Prod.mk.injEq] at h9
    obtain ⟨rfl, rfl⟩ := h9
    simp only [learn] at h8
    obtain ⟨⟨l, g, m, v⟩, h10, h11⟩ := Res.bind_eq_ok.1 h8
    obtain ⟨s4, h12, h13⟩ := Res.bind_eq_ok.1 h11
    rw [he] at h13
    obtain rfl := Res.ok.inj h13
    have hmm : m = (enter G s e.x).margin := by
      rw [hhand, hkind] at h10
      simp only [gradient, Res.bind_eq_ok, Res.ok.injEq, Prod.mk.injEq] at h10
      obtain ⟨_, _, _, h14, _, _, -, -, h15, -⟩ := h10
      rw [← h14] at h15
      rw [← h15]
      simp [costMargin, hcost]
    have hnf : fires c ev.pred e.label l = false := by
      by_contra hcon
      have : ev.fired = true := h4.2 ⟨hsk, l, g, m, v, h10, by
        simp only [Bool.not_eq_false] at hcon
        unfold fires at hcon
        split at hcon
        · rename_i hz; simpa [hz] using hcon
        · rename_i hz; simpa [hz] using hcon⟩
      simp [hf] at this
    simp only [maybeUpdate, hnf, Bool.false_eq_true, if_false, Res.ok.injEq] at h12
    rw [← Res.ok.inj h7, ← h12]
    split <;> exact hmm.trans hmar'

/-- An example that is looked at without an update has the margin. -/
theorem idle_far {A : Type} {c : Cfg ℝ} {G : Alg ℝ A} {inv : Nat → A → Prop} (hm : Margin G) (hhand : ∀ c s x, G.handler c s x = none)
    (hkind : c.kind = .hinge) (hclf : c.clf = 1) (hlazy : c.lazyUpdate = false)
    (hcost : c.cost = none) {s s' : St ℝ A} (hs : Fit c inv s) {e : Ex ℝ} {r : ℝ} {ev : Event} (hx : Good e.x)
    (hh : Happens G c s e r ev s') (hf : ev.fired = false) (hsk : ev.skip = false) :
    s.margin ≤ (e.label : ℝ) * scoresOf (cell s.w) e.x 0 := by
  have hmar' : (enter G s e.x).margin = s.margin := by simp only [enter, updateDim]; split <;> rfl
  obtain ⟨hb, hp, he⟩ := margin_hooks hm
  obtain ⟨s0, s1, p, h0, h1, h2, h3, h4, h5⟩ := hh
  rw [hb] at h0
  obtain rfl := Res.ok.inj h0
  rw [hp] at h1
  obtain rfl := Res.ok.inj h1
  have hfe : Fit c (none' A) (enter G s e.x) := enter_fit hs e.x
  have hscore := scores_cell (G := G) hs hx h2
  have hpl : p.length = c.clf := by rw [(predict_eq hfe hx.1 h2).1, List.length_map, hfe.w.1]
  obtain ⟨a, rfl⟩ := List.length_eq_one_iff.1 (hclf ▸ hpl)
  obtain ⟨b, hb'⟩ := List.length_eq_one_iff.1 (hclf ▸ hfe.g)
  by_contra hcon
  rw [not_le] at hcon
  have hsc : a = scoresOf (cell s.w) e.x 0 := by rw [← congrFun hscore 0]; rfl
  have hgr : gradient c.kind (costMargin c e.label (enter G s e.x).margin) (G.handler c (enter G s e.x) e.x) (enter G s e.x).vi e.label [a]
      ev.pred (enter G s e.x).g = .ok (fmax 0 (s.margin - a * (e.label : ℝ)), [if (0 : ℝ) <? fmax 0 (s.margin - a * (e.label : ℝ))
        then -(e.label : ℝ) else 0], s.margin, (enter G s e.x).vi) := by
    rw [hhand, hkind, hb']
    simp [gradient, lget_ok (w := [a]) (i := 0) (by simp), lset_ok (w := [b]) (i := 0) _ (by simp), costMargin, hcost, hmar']
  have : ev.fired = true := h4.2 ⟨hsk, _, _, _, _, hgr, by
    rw [hlazy]
    have h6 : 0 < s.margin - a * (e.label : ℝ) := by rw [hsc, mul_comm]; linarith
    simp [fmax, h6]⟩
  rw [hf] at this
  simp at this

/-- The state of ALMA2 after `k - 1` updates. -/
structure AlmaInv (c : Cfg ℝ) (alpha P : ℝ) (D : Nat) (s : St ℝ Int) : Prop where
  fit : Fit c (none' Int) s
  count : 1 ≤ s.alg
  margin : s.margin = (1 - alpha) / alpha * P / √(s.alg : ℝ)
  ball : ip 1 D c.biasEta0 (cell s.w) (cell s.w) ≤ 1
  bias : c.biasEta0 = 0 → cell s.w 0 0 = 0
  above : ∀ i, D ≤ i → cell s.w 0 i = 0

/-- An example that led to an update did not have the margin. -/
theorem alma_low {c : Cfg ℝ} {C alpha P : ℝ} (hkind : c.kind = .hinge) (hclf : c.clf = 1) (hlazy : c.lazyUpdate = false)
    (hcost : c.cost = none) {s s' : St ℝ Int} (hs : Fit c (none' Int) s) {e : Ex ℝ} {r : ℝ} {ev : Event} (hx : Good e.x)
    (hh : Happens (alma2 C alpha P) c s e r ev s') (hf : ev.fired = true) :
    (e.label : ℝ) * scoresOf (cell s.w) e.x 0 < s.margin := by
  obtain ⟨p, l, g, m, v, s2, h1, h2, h3, h4, n0, rfl⟩ := fired (.alma2 C alpha P) hh hf
  have hfe : Fit c (none' Int) (enter (alma2 C alpha P) s e.x) := enter_fit hs e.x
  have hmar : (enter (alma2 C alpha P) s e.x).margin = s.margin := by simp only [enter, updateDim]; split <;> rfl
  have hscore := scores_cell (G := alma2 C alpha P) hs hx h1
  have hpl : p.length = c.clf := by rw [(predict_eq hfe hx.1 h1).1, List.length_map, hfe.w.1]
  have hcm : costMargin c e.label (enter (alma2 C alpha P) s e.x).margin = s.margin := by simp [costMargin, hcost, hmar]
  rw [hcm, hkind] at h2
  obtain ⟨hl, -⟩ := hinge_grad (hclf ▸ hpl) (hclf ▸ hfe.g) h2
  rw [hlazy] at h3
  simp only [Bool.false_eq_true, if_false, flt_iff] at h3
  have hsc : p.getD 0 0 = scoresOf (cell s.w) e.x 0 := congrFun hscore 0
  rw [hl, lt_max_iff] at h3
  rcases h3 with h3 | h3
  · exact absurd h3 (lt_irrefl _)
  · rw [hsc, mul_comm] at h3; linarith

/-- One update of ALMA2: a step, then division by a number. -/
theorem alma_fired {c : Cfg ℝ} {C alpha P : ℝ} (hkind : c.kind = .hinge) (hclf : c.clf = 1) (hlazy : c.lazyUpdate = false)
    (hcost : c.cost = none) (hb : c.biasEta0 = 0 ∨ c.biasEta0 = 1) {D : Nat} (hD : 1 ≤ D) {R : ℝ} (hP : 0 < P) (hC : 0 < C)
    (ha : 0 < alpha) (ha1 : alpha ≤ 1) (U : Nat → Nat → ℝ) (hU : c.biasEta0 = 0 → U 0 0 = 0)
    {s s' : St ℝ Int} (hs : AlmaInv c alpha P D s) {e : Ex ℝ} {r : ℝ} {ev : Event} (hx : Good e.x) (hr : ∀ p ∈ e.x, 1 ≤ p.1 ∧ p.1 < D)
    (hR : sqnorm e.x + c.biasEta0 ≤ R ^ 2) (hlab : e.label = 1 ∨ e.label = -1)
    (hh : Happens (alma2 C alpha P) c s e r ev s') (hf : ev.fired = true) :
    AlmaInv c alpha P D s' ∧ s'.alg = s.alg + 1 ∧ ∃ n, 1 ≤ n ∧
      n ≤ 1 + (C / P * ((1 - alpha) / alpha * P) + (C / P) ^ 2 * R ^ 2 / 2) / (s.alg : ℝ) ∧
      ip 1 D c.biasEta0 (cell s'.w) U
        = (ip 1 D c.biasEta0 (cell s.w) U + C / P / √(s.alg : ℝ) * ((e.label : ℝ) * scoresOf U e.x 0)) / n := by
  have hk : Matches c.kind c.clf := by rw [hkind]; exact hclf
  have hfit : Fit c (none' Int) s' := fit_happens (safe_alma2 c C alpha P) hk hs.fit hx (.inl hclf) hh
  obtain ⟨p, l, g, m, v, s2, h1, h2, h3, h4, n0, rfl⟩ := fired (.alma2 C alpha P) hh hf
  have hfe : Fit c (none' Int) (enter (alma2 C alpha P) s e.x) := enter_fit hs.fit e.x
  have hmar : (enter (alma2 C alpha P) s e.x).margin = s.margin := by simp only [enter, updateDim]; split <;> rfl
  have halg : (enter (alma2 C alpha P) s e.x).alg = s.alg := by simp only [enter, updateDim]; split <;> rfl
  have hscore := scores_cell (G := alma2 C alpha P) hs.fit hx h1
  obtain ⟨hp, hpred⟩ := predict_eq hfe hx.1 h1
  have hpl : p.length = c.clf := by rw [hp, List.length_map, hfe.w.1]
  have hcm : costMargin c e.label (enter (alma2 C alpha P) s e.x).margin = s.margin := by simp [costMargin, hcost, hmar]
  rw [hcm] at h2
  obtain ⟨⟨p', pr'⟩, hh1, hh2, hr'⟩ := gives_predict (s := enter (alma2 C alpha P) s e.x) (by omega : 1 ≤ c.clf) hx.1 hfe.dim hfe.w
  rw [h1] at hh1
  obtain ⟨rfl, rfl⟩ := Prod.mk.inj (Res.ok.inj hh1)
  have hgl : g.length = c.clf := gradient_length hk hpl hfe.g (.inl hclf) hr' h2
  rw [hkind] at h2
  obtain ⟨hl, hg⟩ := hinge_grad (hclf ▸ hpl) (hclf ▸ hfe.g) h2
  rw [hlazy] at h3
  simp only [Bool.false_eq_true, if_false, flt_iff] at h3
  rw [if_pos h3] at hg
  have hsc : p.getD 0 0 = scoresOf (cell s.w) e.x 0 := congrFun hscore 0
  have hlow : (e.label : ℝ) * scoresOf (cell s.w) e.x 0 < s.margin := by
    rw [hl, lt_max_iff] at h3
    rcases h3 with h3 | h3
    · exact absurd h3 (lt_irrefl _)
    · rw [hsc, mul_comm] at h3; linarith
  -- the update
  generalize hst : ({ enter (alma2 C alpha P) s e.x with g := g, margin := m, vi := v, upd := (enter (alma2 C alpha P) s e.x).upd + 1 } : St ℝ Int)
    = st at h4
  have hdim : Sparse.dim e.x ≤ st.dim := by rw [← hst]; simp only; rw [enter_dim]; omega
  have hfs : Fit c (none' Int) st := by rw [← hst]; exact ⟨hfe.dim, hfe.w, hgl, trivial⟩
  have hsg : st.g = g := by rw [← hst]
  have hsa : st.alg = s.alg := by rw [← hst]; exact halg
  have hsw : ∀ i, cell st.w 0 i = cell s.w 0 i := by
    intro i
    rw [← hst]
    exact enter_cell hs.fit e.x 0 i (by omega)
  simp only [alma2] at h4
  rw [each1_closed (fun g v => project ((v.mapIdx (touch e.x fun _ a y => a - C / (P * FSqrt.sqrt ((st.alg : Int) : ℝ)) * g * y)).mapIdx
    (atZero (· - biasEta c { st with eta := C / (P * FSqrt.sqrt ((st.alg : Int) : ℝ)) } * g)))) _ _ (by rw [hfs.g, hfs.w.1]) (by
      intro g v hv
      rw [step_closed _ _ hx.1 (by rw [hfs.w.2 v hv]; exact hfs.dim)]
      rfl), Res.bind_ok] at h4
  obtain rfl := Res.ok.inj h4
  have hgne : st.g.getD 0 0 ≠ 0 := by
    rw [hsg, hg]
    rcases hlab with h | h <;> rw [h] <;> norm_num
  obtain ⟨η, hη⟩ : ∃ η, η = C / (P * FSqrt.sqrt ((st.alg : Int) : ℝ)) := ⟨_, rfl⟩
  have hη' : η = C / P / √(s.alg : ℝ) := by
    rw [hη, hsa]
    show C / (P * √(s.alg : ℝ)) = _
    rw [div_div]
  have hk1 : (1 : ℝ) ≤ (s.alg : ℝ) := by exact_mod_cast hs.count
  have hsk : 1 ≤ √(s.alg : ℝ) := Real.one_le_sqrt.2 hk1
  have hη0 : 0 < η := by rw [hη']; positivity
  rw [← hη] at hfit ⊢
  -- the vector before the projection
  obtain ⟨w1, hw1⟩ : ∃ w1, w1 = ((st.w.getD 0 []).mapIdx (touch e.x fun _ a y => a - η * st.g.getD 0 0 * y)).mapIdx
    (atZero (· - η * st.g.getD 0 0 * c.biasEta0)) := ⟨_, rfl⟩
  have hlen := hfs.w.2 _ (cell_mem hfs.w.1 (by omega : 0 < c.clf))
  have hc1 : ∀ i, coord w1 i = cell s.w 0 i - η * -(e.label : ℝ) * dir c.biasEta0 e.x i := by
    intro i
    rw [hw1, coord_step (η * st.g.getD 0 0) c.biasEta0 (x := e.x) (w := st.w.getD 0 [])
      (by rw [hlen]; exact hfs.dim) (by rw [hlen]; exact fun p hp => lt_of_lt_of_le (hx.lt_dim p hp) hdim) i, hsg, hg]
    have := hsw i
    unfold cell at this ⊢
    rw [this]
  have hx0 : feat e.x 0 = 0 := feat_eq_zero fun p hp => by have := (hr p hp).1; omega
  have h10 : c.biasEta0 = 0 → coord w1 0 = 0 := by
    intro hb0
    rw [hc1, hs.bias hb0]
    simp [dir, hb0, hx0]
  have h1D : ∀ i, D ≤ i → coord w1 i = 0 := by
    intro i hi
    have : feat e.x i = 0 := feat_eq_zero fun p hp => by have := (hr p hp).2; omega
    rw [hc1, hs.above i hi]
    simp [dir, this, show i ≠ 0 by omega]
  obtain ⟨n, hn1, hn2, hn3, hn4⟩ := project_coord w1
  have hcell : ∀ i, cell (List.zipWith (fun g v => if g =? 0 then v else project ((v.mapIdx (touch e.x fun _ a y => a - η * g * y)).mapIdx
      (atZero (· - biasEta c { st with eta := η } * g)))) st.g st.w) 0 i = coord w1 i / n := by
    intro i
    rw [cell_zipWith _ hfs.g hfs.w.1 0 i (by omega), if_neg (by simpa using hgne), ← hn4 i]
    rw [hw1]
    have : biasEta c { st with eta := η } * st.g.getD 0 0 = η * st.g.getD 0 0 * c.biasEta0 := by
      simp only [biasEta]; ring
    rw [this]
  obtain ⟨hu1, hu2⟩ := ip_update (n := 1) (b := c.biasEta0) hx.1 hr hD (fun _ => η * -(e.label : ℝ)) (cell s.w) (fun _ i => coord w1 i) U
    (by intro k hk' i; obtain rfl : k = 0 := by omega
        exact hc1 i) (fun hb0 k hk' => by obtain rfl : k = 0 := by omega
                                          exact hU hb0) (fun hb0 k hk' => by obtain rfl : k = 0 := by omega
                                                                             exact hs.bias hb0)
  rw [Finset.sum_range_one] at hu1
  rw [Finset.sum_range_one, Finset.sum_range_one] at hu2
  have hbn : 0 ≤ c.biasEta0 := by rcases hb with h | h <;> rw [h] <;> norm_num
  have hyy : (e.label : ℝ) * (e.label : ℝ) = 1 := by rcases hlab with h | h <;> rw [h] <;> norm_num
  have hnorm := dnorm2_ip hb h1D h10
  have hscale : ∀ V : Nat → Nat → ℝ, ip 1 D c.biasEta0 (fun k i => coord w1 i / n) V = ip 1 D c.biasEta0 (fun k i => coord w1 i) V / n := by
    intro V
    have := ip_smul 1 D c.biasEta0 n⁻¹ (fun _ i => coord w1 i) V
    rw [div_eq_inv_mul, ← this]
    exact ip_congr (fun k _ i => by rw [div_eq_inv_mul]) fun _ _ _ => rfl
  have hto : ∀ V : Nat → Nat → ℝ, ip 1 D c.biasEta0 (cell (List.zipWith (fun g v => if g =? 0 then v else project ((v.mapIdx (touch e.x fun _ a y => a - η * g * y)).mapIdx
      (atZero (· - biasEta c { st with eta := η } * g)))) st.g st.w)) V = ip 1 D c.biasEta0 (fun _ i => coord w1 i) V / n := by
    intro V
    rw [← hscale]
    exact ip_congr (fun k hk' i => by obtain rfl : k = 0 := by omega
                                      exact hcell i) fun _ _ _ => rfl
  refine ⟨⟨hfit, ?_, ?_, ?_, ?_, ?_⟩, ?_, n, hn1, ?_, ?_⟩
  · simp only [hsa]; have := hs.count; omega
  · simp only [almaMargin, hsa]
    show (1 - alpha) * (1 / alpha) * P / √((s.alg + 1 : Int) : ℝ) = _
    ring
  · simp only
    rw [hto, ip_comm, hto, ip_comm, div_div, div_le_one (by positivity), ← hnorm, ← pow_two]
    exact hn3
  · intro hb0
    simp only
    rw [hcell, h10 hb0, zero_div]
  · intro i hi
    simp only
    rw [hcell, h1D i hi, zero_div]
  · simp only [hsa]
  · have h5 : dnorm2 w1 ≤ 1 + 2 * ((C / P * ((1 - alpha) / alpha * P) + (C / P) ^ 2 * R ^ 2 / 2) / (s.alg : ℝ)) := by
      rw [hnorm, hu2]
      have h6 : η * ((e.label : ℝ) * scoresOf (cell s.w) e.x 0) ≤ η * s.margin := mul_le_mul_of_nonneg_left hlow.le hη0.le
      have h7 : η * s.margin = C / P * ((1 - alpha) / alpha * P) / (s.alg : ℝ) := by
        rw [hη', hs.margin, div_mul_div_comm, Real.mul_self_sqrt (by linarith)]
      have h8 : η ^ 2 * (sqnorm e.x + c.biasEta0) ≤ (C / P) ^ 2 * R ^ 2 / (s.alg : ℝ) := by
        have : η ^ 2 = (C / P) ^ 2 / (s.alg : ℝ) := by rw [hη', div_pow, Real.sq_sqrt (by linarith)]
        rw [this, div_mul_eq_mul_div]
        exact div_le_div_of_nonneg_right (mul_le_mul_of_nonneg_left hR (sq_nonneg _)) (by linarith)
      have h9 := hs.ball
      have e1 : η * -(e.label : ℝ) * (η * -(e.label : ℝ)) = η ^ 2 := by
        rw [show η * -(e.label : ℝ) * (η * -(e.label : ℝ)) = η ^ 2 * ((e.label : ℝ) * (e.label : ℝ)) by ring, hyy, mul_one]
      rw [e1]
      have e2 : η * -(e.label : ℝ) * (linear (cell s.w 0) e.x + cell s.w 0 0) = - (η * ((e.label : ℝ) * scoresOf (cell s.w) e.x 0)) := by
        unfold scoresOf; ring
      rw [e2, add_div]
      have e3 : 2 * ((C / P) ^ 2 * R ^ 2 / 2 / (s.alg : ℝ)) = (C / P) ^ 2 * R ^ 2 / (s.alg : ℝ) := by ring
      linarith
    have hA0 : 0 ≤ (C / P * ((1 - alpha) / alpha * P) + (C / P) ^ 2 * R ^ 2 / 2) / (s.alg : ℝ) := by
      have : 0 ≤ (1 - alpha) / alpha := div_nonneg (by linarith) ha.le
      positivity
    generalize (C / P * ((1 - alpha) / alpha * P) + (C / P) ^ 2 * R ^ 2 / 2) / (s.alg : ℝ) = X at h5 hA0 ⊢
    have h6 : n ^ 2 ≤ (1 + X) ^ 2 := by
      refine hn2.trans (max_le ?_ ?_)
      · nlinarith
      · nlinarith
    exact (pow_le_pow_iff_left₀ (by linarith) (by linarith) two_ne_zero).1 h6
  · simp only
    rw [hto, hu1, ← hη']
    unfold scoresOf
    ring

/-- By how much a linear function misses the margin `γ` on an example. -/
noncomputable def missing (γ : ℝ) (U : Nat → Nat → ℝ) (e : Ex ℝ) : ℝ := max 0 (γ - (e.label : ℝ) * scoresOf U e.x 0)

theorem alma_trace {c : Cfg ℝ} {C alpha P : ℝ} (hkind : c.kind = .hinge) (hclf : c.clf = 1) (hlazy : c.lazyUpdate = false)
    (hcost : c.cost = none) (hb : c.biasEta0 = 0 ∨ c.biasEta0 = 1) {D : Nat} (hD : 1 ≤ D) {R γ A : ℝ} (hP : 0 < P) (hC : 0 < C)
    (ha : 0 < alpha) (ha1 : alpha ≤ 1) (hγ : 0 < γ) (hA : A = C / P * ((1 - alpha) / alpha * P) + (C / P) ^ 2 * R ^ 2 / 2)
    (U : Nat → Nat → ℝ) (hU : c.biasEta0 = 0 → U 0 0 = 0)
    {s s' : St ℝ Int} {l : List (Ex ℝ × ℝ)} {evs : List Event} (hs : AlmaInv c alpha P D s)
    (hl : ∀ q ∈ l, Good q.1.x ∧ (∀ p ∈ q.1.x, 1 ≤ p.1 ∧ p.1 < D) ∧ sqnorm q.1.x + c.biasEta0 ≤ R ^ 2 ∧ (q.1.label = 1 ∨ q.1.label = -1))
    (ht : Trace (alma2 C alpha P) c s l evs s') {Q : ℝ} (hQ : 0 ≤ Q)
    (hv : C / P * γ / (A + 1 / 2) * (√(s.alg : ℝ) - 1) ≤ ip 1 D c.biasEta0 (cell s.w) U + Q) :
    AlmaInv c alpha P D s' ∧ s'.alg = s.alg + (evs.countP fun ev => ev.fired : Nat) ∧
      C / P * γ / (A + 1 / 2) * (√(s'.alg : ℝ) - 1) ≤ ip 1 D c.biasEta0 (cell s'.w) U
        + (Q + C / P * (l.map fun q => missing γ U q.1).sum) := by
  have hh0 : 0 < C / P := by positivity
  have hk : Matches c.kind c.clf := by rw [hkind]; exact hclf
  induction ht generalizing Q with
  | nil s => exact ⟨hs, by simp, by simpa using hv⟩
  | @cons s s1 s2 e r ev l evs hh ht ih =>
    obtain ⟨hx, hr, hR, hlab⟩ := hl (e, r) List.mem_cons_self
    have hl' := fun q hq => hl q (List.mem_cons_of_mem _ hq)
    have hmiss : 0 ≤ missing γ U e := le_max_left _ _
    cases hfi : ev.fired with
    | false =>
      obtain ⟨i1, i2, i3, i4, i5⟩ := idle (.alma2 C alpha P) hh hfi
      have halg : (enter (alma2 C alpha P) s e.x).alg = s.alg := by simp only [enter, updateDim]; split <;> rfl
      have hcell : ∀ k < 1, ∀ i, cell s1.w k i = cell s.w k i := by
        intro k hk' i
        rw [i1]
        exact enter_cell hs.fit e.x k i (by omega)
      have hinv : AlmaInv c alpha P D s1 :=
        ⟨fit_happens (safe_alma2 c C alpha P) hk hs.fit hx (.inl hclf) hh, by rw [i2, halg]; exact hs.count,
          by rw [i2, halg, idle_margin (.alma2 C alpha P) (fun _ _ _ => rfl) hkind hcost hh hfi]; exact hs.margin,
          by rw [ip_congr hcell hcell]; exact hs.ball, fun hb0 => by rw [hcell 0 (by omega)]; exact hs.bias hb0,
          fun i hi => by rw [hcell 0 (by omega)]; exact hs.above i hi⟩
      obtain ⟨h1, h2, h3⟩ := ih hinv hl' (Q := Q + C / P * missing γ U e) (by positivity) (by
        rw [i2, halg, ip_congr hcell fun _ _ _ => rfl]
        have := mul_nonneg hh0.le hmiss
        linarith)
      refine ⟨h1, ?_, ?_⟩
      · rw [h2, i2, halg, List.countP_cons_of_neg (by simp [hfi])]
      · rw [List.map_cons, List.sum_cons, mul_add, ← add_assoc Q]
        exact h3
    | true =>
      obtain ⟨h1, h2, n, h3, h4, h5⟩ := alma_fired hkind hclf hlazy hcost hb hD hP hC ha ha1 U hU hs hx hr hR hlab hh hfi
      have hk1 : (1 : ℝ) ≤ (s.alg : ℝ) := by exact_mod_cast hs.count
      have hA0 : 0 ≤ A := by
        rw [hA]
        have : 0 ≤ (1 - alpha) / alpha := div_nonneg (by linarith) ha.le
        positivity
      rw [← hA] at h4
      have h6 := alma_scalar hk1 hA0 hh0 hγ hmiss hQ h3 h4 hv
      obtain ⟨h7, h8, h9⟩ := ih h1 hl' (Q := Q + C / P * missing γ U e) (by positivity) (by
        rw [h2]
        push_cast
        refine h6.trans ?_
        rw [h5]
        have h10 : γ - missing γ U e ≤ (e.label : ℝ) * scoresOf U e.x 0 := by
          have := le_max_right 0 (γ - (e.label : ℝ) * scoresOf U e.x 0)
          unfold missing
          linarith
        have h11 : 0 ≤ C / P / √(s.alg : ℝ) := by positivity
        have h12 := div_le_div_of_nonneg_right (add_le_add_right (mul_le_mul_of_nonneg_left h10 h11)
          (ip 1 D c.biasEta0 (cell s.w) U)) (by linarith : 0 ≤ n)
        linarith)
      refine ⟨h7, ?_, ?_⟩
      · rw [h8, h2, List.countP_cons_of_pos (by simp [hfi])]
        push_cast
        ring
      · rw [List.map_cons, List.sum_cons, mul_add, ← add_assoc Q]
        exact h9

end Sol.Olm
