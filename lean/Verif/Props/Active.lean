import Verif.Proofs.Active
import Verif.Proofs.Regret
/-! C96: the expected number of mistakes of the perceptron with active learning. -/

set_option linter.unusedSectionVars false

namespace Sol.Props

open Sol.Online Sol.Olm Sol.Sparse Sol.Loss Sol.Spec

variable [FFun ℝ] [FSqrt ℝ]

/-- `F` gives the mistakes of a training for every sequence of random numbers. -/
def Mistakes (c : Cfg ℝ) (s : St ℝ Unit) (es : List (Ex ℝ)) (F : List ℝ → ℝ) : Prop :=
  ∀ rs : List ℝ, rs.length = es.length → (∀ r ∈ rs, 0 ≤ r ∧ r < 1) →
    ∃ s' rate, train perceptron c s (es.zip rs) = .ok (s', rate) ∧ F rs = (s'.err : ℝ) - s.err

theorem mistakes_all {c : Cfg ℝ} (hk : Matches c.kind c.clf) {s : St ℝ Unit} (hs : Fit c (none' Unit) s) {es : List (Ex ℝ)}
    (hes : ∀ e ∈ es, Good e.x ∧ LabelOk c.clf e.label) :
    ∃ F : List ℝ → ℝ, ∀ rs : List ℝ, rs.length = es.length →
      ∃ s', trainLoop perceptron c s (es.zip rs) = .ok s' ∧ F rs = (s'.err : ℝ) - s.err := by
  have : ∀ rs : List ℝ, ∃ v : ℝ, rs.length = es.length → ∃ s', trainLoop perceptron c s (es.zip rs) = .ok s' ∧ v = (s'.err : ℝ) - s.err := by
    intro rs
    obtain ⟨evs, s', -, h1, -⟩ := C29_counters .perceptron hk s hs (es.zip rs) fun q hq => hes q.1 (List.of_mem_zip hq).1
    unfold train at h1
    obtain ⟨s1, h2, -⟩ := Res.bind_eq_ok.1 h1
    exact ⟨_, fun _ => ⟨s1, h2, rfl⟩⟩
  exact ⟨fun rs => (this rs).choose, fun rs => (this rs).choose_spec⟩

theorem mistakes_agree {c : Cfg ℝ} {s : St ℝ Unit} {es : List (Ex ℝ)} {F G : List ℝ → ℝ} (hF : Mistakes c s es F)
    (hG : ∀ rs : List ℝ, rs.length = es.length → ∃ s', trainLoop perceptron c s (es.zip rs) = .ok s' ∧ G rs = (s'.err : ℝ) - s.err)
    (rs : List ℝ) (h : rs.length = es.length) (h1 : ∀ r ∈ rs, 0 ≤ r ∧ r < 1) : F rs = G rs := by
  obtain ⟨s', rate, h2, h3⟩ := hF rs h h1
  obtain ⟨s'', h4, h5⟩ := hG rs h
  unfold train at h2
  rw [h4] at h2
  have h2 := Res.ok.inj h2
  rw [h3, h5, ← (Prod.mk.inj h2).1]

/-- What the common part of C96 comes to for an untrained model. -/
theorem expected_of {c : Cfg ℝ} (hk : Matches c.kind c.clf) (hkind : c.kind = .bool ∨ c.kind = .maxBool) (hβ : 0 < c.smooth)
    (hb : 0 ≤ c.biasEta0) (Lab : Int → Prop) (L : Ex ℝ → (Nat → ℝ) → ℝ) (hL : ∀ e v, 0 ≤ L e v) (Γ R : ℝ) (D : Nat)
    (U : Nat → Nat → ℝ) (hΓ : 0 ≤ Γ) (hR : 0 < R) (hD : 1 ≤ D) (es : List (Ex ℝ))
    (hpull : ∀ e p pred, p.length = c.clf → labelOf c.clf p = .ok pred → Lab e.label →
      (∀ k < c.clf, p.getD k 0 ^ 2 ≤ (es.length : ℝ) * (Γ * R ^ 2) * R ^ 2) → ∃ m, activeMargin c p pred = .ok m ∧ 0 ≤ m ∧
        ∀ mm vi g l g' m' v', g.length = c.clf → gradient c.kind mm none vi e.label p pred g = .ok (l, g', m', v') →
          pred ≠ e.label → m ≤ ∑ k ∈ Finset.range c.clf, g'.getD k 0 * p.getD k 0 ∧
            ∑ k ∈ Finset.range c.clf, g'.getD k 0 * g'.getD k 0 ≤ Γ ∧
            ∀ v : Nat → ℝ, ∑ k ∈ Finset.range c.clf, g'.getD k 0 * v k ≤ L e v - 1)
    (hU0 : c.biasEta0 = 0 → ∀ k < c.clf, U k 0 = 0)
    (hes : ∀ e ∈ es, Tame c.biasEta0 D R e.x ∧ LabelOk c.clf e.label ∧ Lab e.label) (s : St ℝ Unit)
    (hs : Fit c (none' Unit) s) (h0 : Blank s) (F : List ℝ → ℝ) (hF : Mistakes c s es F) :
    ∃ v, Expected es.length F v ∧ (∀ v', Expected es.length F v' → v' = v) ∧
      v ≤ (1 + Γ * R ^ 2 / (2 * c.smooth)) * (es.map fun e => L e (scoresOf U e.x)).sum
        + (∑ k ∈ Finset.range c.clf, unorm D c.biasEta0 (U k)) * (2 * c.smooth + Γ * R ^ 2) ^ 2 / (8 * c.smooth) := by
  obtain ⟨G, hG⟩ := mistakes_all hk hs fun e he => ⟨(hes e he).1.1, (hes e he).2.1⟩
  have hz : ∀ V : Nat → Nat → ℝ, ip c.clf D c.biasEta0 (cell s.w) V = 0 := by
    intro V
    unfold ip
    refine Finset.sum_eq_zero fun k hk' => Finset.sum_eq_zero fun i _ => ?_
    rw [blank_cell hs h0 k i (Finset.mem_range.1 hk')]
    ring
  obtain ⟨v, h1, h2⟩ := mean_bound hk hkind hβ hb Lab L hL Γ R _ D U hΓ hR hD hpull hU0 es hes s hs
    (fun _ k hk' => blank_cell hs h0 k 0 hk') (by rw [hz, zero_add]) G hG
  have h3 := Expected.congr (mistakes_agree hF hG) h1
  refine ⟨v, h3, fun v' h => Expected.unique h h3, h2.trans (le_of_eq ?_)⟩
  rw [ip_diff, hz, hz, ip_self _ _ _ _ hD]
  field_simp
  ring

/-- C96, two classes: with active learning the perceptron makes, in the mean over the random numbers, at most as many mistakes
    as the bound says, for every linear function `u` and for every stream. -/
theorem C96_expected (c : Cfg ℝ) (hkind : c.kind = .bool) (hclf : c.clf = 1) (hβ : 0 < c.smooth) (hb : 0 ≤ c.biasEta0) (D : Nat)
    (hD : 1 ≤ D) (u : Nat → ℝ) (hu0 : c.biasEta0 = 0 → u 0 = 0) (R : ℝ) (hR : 0 < R) (es : List (Ex ℝ))
    (hes : ∀ e ∈ es, Tame c.biasEta0 D R e.x ∧ (e.label = 1 ∨ e.label = -1)) (s : St ℝ Unit) (hs : Fit c (none' Unit) s)
    (h0 : Blank s) (F : List ℝ → ℝ) (hF : Mistakes c s es F) :
    ∃ v, Expected es.length F v ∧ (∀ v', Expected es.length F v' → v' = v) ∧
      v ≤ (1 + R ^ 2 / (2 * c.smooth)) * (es.map fun e => hingeOf 1 e (scoresOf (fun _ => u) e.x)).sum
        + unorm D c.biasEta0 u * (2 * c.smooth + R ^ 2) ^ 2 / (8 * c.smooth) := by
  have := expected_of (c := c) (by rw [hkind, hclf]; rfl) (.inl hkind) hβ hb (fun l => l = 1 ∨ l = -1) (hingeOf 1)
    (fun e v => le_max_left _ _) 1 R D (fun _ => u) zero_le_one hR hD es (by
      intro e p pred hp hpred hlab _
      rw [hclf] at hp hpred ⊢
      obtain ⟨a, rfl⟩ := List.length_eq_one_iff.1 hp
      have hs : sign a = pred := by simpa [labelOf, lget] using hpred
      have hfa : fabs a = |a| := by
        unfold fabs
        split
        · rename_i h; rw [flt_iff] at h; rw [abs_of_neg h]
        · rename_i h; rw [flt_iff, not_lt] at h; rw [abs_of_nonneg h]
      refine ⟨|a|, by simp [activeMargin, hclf, lget, hfa], abs_nonneg a, ?_⟩
      intro mm vi g l g' m' v' hg hgr hne
      rw [hkind] at hgr
      obtain ⟨b, rfl⟩ := List.length_eq_one_iff.1 hg
      simp only [gradient, hne, if_false, lset_ok (w := [b]) (i := 0) _ (by simp), Res.bind_ok, Res.ok.injEq, Prod.mk.injEq] at hgr
      obtain ⟨-, rfl, -⟩ := hgr
      unfold sign at hs
      refine ⟨?_, ?_, ?_⟩
      · rcases hlab with h | h <;> rw [h] at hne ⊢
        · split at hs
          · exact absurd hs.symm hne
          · rename_i h; simp at h; rw [abs_of_neg h]; simp
        · split at hs
          · rename_i h; simp at h; rw [abs_of_nonneg h]; simp
          · exact absurd hs.symm hne
      · rcases hlab with h | h <;> rw [h] <;> simp
      · intro v
        have := le_max_right 0 (1 - (e.label : ℝ) * v 0)
        simp only [Finset.sum_range_one, hingeOf]
        simp
        linarith)
    (fun h k _ => hu0 h) (fun e he => ⟨(hes e he).1, .inl hclf, (hes e he).2⟩) s hs h0 F hF
  rw [hclf, Finset.sum_range_one] at this
  simpa using this

/-- C96, several classes with the max-score 0-1 loss.  `FLT_MAX` has to be larger than the scores can get. -/
theorem C96_expected_multi (c : Cfg ℝ) (hkind : c.kind = .maxBool) (hclf : 2 ≤ c.clf) (hβ : 0 < c.smooth) (hb : 0 ≤ c.biasEta0)
    (D : Nat) (hD : 1 ≤ D) (U : Nat → Nat → ℝ) (hU0 : c.biasEta0 = 0 → ∀ k < c.clf, U k 0 = 0) (R : ℝ) (hR : 0 < R)
    (es : List (Ex ℝ)) (hlow : FFun.lowest ≤ -(2 * es.length * R ^ 2))
    (hes : ∀ e ∈ es, Tame c.biasEta0 D R e.x ∧ 0 ≤ e.label ∧ e.label < c.clf) (s : St ℝ Unit) (hs : Fit c (none' Unit) s)
    (h0 : Blank s) (F : List ℝ → ℝ) (hF : Mistakes c s es F) :
    ∃ v, Expected es.length F v ∧ (∀ v', Expected es.length F v' → v' = v) ∧
      v ≤ (1 + R ^ 2 / c.smooth) * (es.map fun e => maxHingeOf c.clf 1 e (scoresOf U e.x)).sum
        + (∑ k ∈ Finset.range c.clf, unorm D c.biasEta0 (U k)) * (c.smooth + R ^ 2) ^ 2 / (2 * c.smooth) := by
  have := expected_of (c := c) (by rw [hkind]; exact hclf) (.inr hkind) hβ hb (fun l => 0 ≤ l ∧ l < c.clf) (maxHingeOf c.clf 1)
    (fun e v => (Finset.le_fold_max _).2 (.inl (le_refl _))) 2 R D U (by norm_num) hR hD es (by
      intro e p pred hp hpred hlab hsz
      obtain ⟨q, rfl, hq, hmax⟩ := label_multi hclf hp hpred
      have hqp : q < p.length := by omega
      have eq : ∀ j (hj : j < p.length), p.getD j 0 = p[j] := fun j hj => by simp [List.getD_eq_getElem?_getD, hj]
      have hne : p.set q FFun.lowest ≠ [] := by
        intro h
        have := congrArg List.length h
        rw [List.length_set] at this
        simp only [List.length_nil] at this
        omega
      obtain ⟨j, w, h1, h2, h3, -⟩ := maxElement_spec (p.set q FFun.lowest) hne
      obtain ⟨hj, hw⟩ := List.getElem?_eq_some_iff.1 h2
      have hR2 : 0 < R ^ 2 := by positivity
      have hlowq : FFun.lowest ≤ p[q] := by
        have h4 := hsz q hq
        rw [eq q hqp] at h4
        rcases Nat.eq_zero_or_pos es.length with hz | hz
        · rw [hz] at h4 hlow
          simp at h4 hlow
          rw [h4]
          exact hlow
        · have hn : (1 : ℝ) ≤ es.length := by exact_mod_cast hz
          have h5 : (es.length : ℝ) * (2 * R ^ 2) * R ^ 2 ≤ (2 * es.length * R ^ 2) ^ 2 := by
            nlinarith [mul_pos hR2 hR2, mul_le_mul_of_nonneg_right hn (mul_pos hR2 hR2).le,
              mul_le_mul hn hn zero_le_one (by linarith : (0 : ℝ) ≤ es.length)]
          have h6 := abs_le_of_sq_le_sq (h4.trans h5) (by positivity)
          linarith [(abs_le.1 h6).1]
      refine ⟨p[q] - w, ?_, ?_, ?_⟩
      · simp only [activeMargin]
        rw [if_neg (by omega), get_nat p q hqp, Res.bind_ok, set_nat p q _ hqp, Res.bind_ok, h1, get_nat _ j hj, Res.bind_ok, hw]
      · rw [← hw, List.getElem_set]
        split
        · linarith
        · have := hmax j (by rw [List.length_set] at hj; omega)
          rw [eq q hqp, eq j (by rw [List.length_set] at hj; omega)] at this
          linarith
      · intro mm vi g l g' m' v' hg hgr hne
        rw [hkind] at hgr
        obtain ⟨y, hy⟩ := Int.eq_ofNat_of_zero_le hlab.1
        have hyn : y < c.clf := by have := hlab.2; omega
        have hqy : q ≠ y := fun h => hne (by rw [h, hy])
        have hpull := pull_maxBool hclf hp hg hpred hlab hgr hne
        rw [hy] at hgr hne
        simp only [gradient, if_neg hne] at hgr
        obtain ⟨g2, h5, h6⟩ := Res.bind_eq_ok.1 hgr
        simp only [Res.ok.injEq, Prod.mk.injEq] at h6
        obtain ⟨-, rfl, -⟩ := h6
        have hget := pairGrad_get hg hq hyn hqy h5
        refine ⟨?_, hpull.size, ?_⟩
        · simp only [hget, sum_two hq hyn hqy]
          have h7 : p[y]'(by omega) ≤ w := by
            refine h3 _ (List.mem_of_getElem? (i := y) ?_)
            rw [List.getElem?_set_ne hqy]
            exact List.getElem?_eq_getElem (by omega)
          rw [eq q hqp, eq y (by omega)]
          linarith
        · intro v
          simp only [hget, sum_two hq hyn hqy]
          have hyt : e.label.toNat = y := by rw [hy]; rfl
          have := maxHingeOf_ge 1 e v hq (by rw [hyt]; exact hqy)
          rw [hyt] at this
          linarith)
    hU0 (fun e he => ⟨(hes e he).1, .inr (hes e he).2, (hes e he).2⟩) s hs h0 F hF
  obtain ⟨v, h1, h2, h3⟩ := this
  refine ⟨v, h1, h2, h3.trans (le_of_eq ?_)⟩
  field_simp
  ring

/-- Binary classification with active learning. -/
def asking : Cfg ℝ := { cfg1 with kind := .bool, smooth := 1 }

/-- One feature, the labels -1, 1 and 1. -/
def turned : List (Ex ℝ) := [⟨-1, [(1, 1)]⟩, ⟨1, [(1, 1)]⟩, ⟨1, [(1, 1)]⟩]

/-- The model after the first example. -/
def turned1 : St ℝ Unit := ⟨2, [[0, -1]], [1], 1, 1, 0, 1, 1, 1, 1, false, ()⟩

/-- The model after the second example, when it is passed over. -/
def turned2 : St ℝ Unit := ⟨2, [[0, -1]], [1], 1, 1, 0, 1, 2, 1, 2, false, ()⟩

/-- The model after the second example, when it is learnt from. -/
def turned2' : St ℝ Unit := ⟨2, [[0, 0]], [-1], 1, 1, 0, 2, 2, 2, 2, false, ()⟩

theorem turned_first {a : ℝ} (h : a < 1) : trainOne perceptron asking (model1 ()) ⟨-1, [(1, 1)]⟩ a = .ok turned1 := by
  have h : (1 <? a) = false := by rw [Bool.eq_false_iff, ne_eq, flt_iff]; linarith
  simp [asking, cfg1, trainOne, iterate, enter, updateDim, growTo, Sparse.dim, perceptron, plain, predict, scores, score, dotmul, dotOp, dotLoop, trim,
    labelOf, lget, sign, skipped, activeMargin, fabs, learn, gradient, lset, maybeUpdate, fires, each1, step, calcExp, calcLoop, atBias, biasEta,
    costMargin, flt_iff, h, model1, turned1]

theorem turned_skip {b : ℝ} (h : 1 / 2 < b) : trainOne perceptron asking turned1 ⟨1, [(1, 1)]⟩ b = .ok turned2 := by
  have h : (((1 : ℝ) + 1)⁻¹ <? b) = true := by rw [flt_iff]; norm_num at h ⊢; exact h
  simp [asking, cfg1, trainOne, iterate, enter, updateDim, Sparse.dim, perceptron, plain, predict, scores, score, dotmul, dotOp, dotLoop, trim,
    labelOf, lget, sign, skipped, activeMargin, fabs, learn, gradient, lset, maybeUpdate, fires, each1, step, calcExp, calcLoop, atBias, biasEta,
    costMargin, flt_iff, h, turned1, turned2]

theorem turned_asked {b : ℝ} (h : ¬ 1 / 2 < b) : trainOne perceptron asking turned1 ⟨1, [(1, 1)]⟩ b = .ok turned2' := by
  have h : (((1 : ℝ) + 1)⁻¹ <? b) = false := by rw [Bool.eq_false_iff, ne_eq, flt_iff]; norm_num at h ⊢; exact h
  simp [asking, cfg1, trainOne, iterate, enter, updateDim, Sparse.dim, perceptron, plain, predict, scores, score, dotmul, dotOp, dotLoop, trim,
    labelOf, lget, sign, skipped, activeMargin, fabs, learn, gradient, lset, maybeUpdate, fires, each1, step, calcExp, calcLoop, atBias, biasEta,
    costMargin, flt_iff, h, turned1, turned2']

theorem turned_third (d : ℝ) : ∃ s', trainOne perceptron asking turned2 ⟨1, [(1, 1)]⟩ d = .ok s' ∧ s'.err = 3 := by
  cases h : (((1 : ℝ) + 1)⁻¹ <? d)
  · refine ⟨⟨2, [[0, 0]], [-1], 1, 1, 0, 2, 3, 2, 3, false, ()⟩, ?_, rfl⟩
    simp [asking, cfg1, trainOne, iterate, enter, updateDim, Sparse.dim, perceptron, plain, predict, scores, score, dotmul, dotOp, dotLoop, trim,
      labelOf, lget, sign, skipped, activeMargin, fabs, learn, gradient, lset, maybeUpdate, fires, each1, step, calcExp, calcLoop, atBias, biasEta,
      costMargin, flt_iff, h, turned2]
  · refine ⟨⟨2, [[0, -1]], [1], 1, 1, 0, 1, 3, 1, 3, false, ()⟩, ?_, rfl⟩
    simp [asking, cfg1, trainOne, iterate, enter, updateDim, Sparse.dim, perceptron, plain, predict, scores, score, dotmul, dotOp, dotLoop, trim,
      labelOf, lget, sign, skipped, activeMargin, fabs, learn, gradient, lset, maybeUpdate, fires, each1, step, calcExp, calcLoop, atBias, biasEta,
      costMargin, flt_iff, h, turned2]

theorem turned_third' {d : ℝ} (h : d < 1) : ∃ s', trainOne perceptron asking turned2' ⟨1, [(1, 1)]⟩ d = .ok s' ∧ s'.err = 2 := by
  have h : (1 <? d) = false := by rw [Bool.eq_false_iff, ne_eq, flt_iff]; linarith
  refine ⟨⟨2, [[0, 0]], [0], 1, 1, 0, 3, 3, 2, 2, false, ()⟩, ?_, rfl⟩
  simp [asking, cfg1, trainOne, iterate, enter, updateDim, Sparse.dim, perceptron, plain, predict, scores, score, dotmul, dotOp, dotLoop, trim,
      labelOf, lget, sign, skipped, activeMargin, fabs, learn, gradient, lset, maybeUpdate, fires, each1, step, calcExp, calcLoop, atBias, biasEta,
      costMargin, flt_iff, h, turned2']

/-- The hypotheses are met and the mean is what one expects: the second example is asked for with probability 1/2, and only then
    is the third one predicted correctly. -/
theorem C96_instance : (∀ e ∈ turned, Tame asking.biasEta0 2 1 e.x ∧ (e.label = 1 ∨ e.label = -1)) ∧
    Fit asking (none' Unit) (model1 ()) ∧ Blank (model1 () : St ℝ Unit) ∧
    Mistakes asking (model1 ()) turned (fun rs => if 1 / 2 < rs.getD 1 0 then 3 else 2) ∧
    Expected turned.length (fun rs => if 1 / 2 < rs.getD 1 0 then 3 else 2) (5 / 2) := by
  refine ⟨?_, ⟨by simp [model1], ⟨rfl, by simp [model1]⟩, rfl, trivial⟩, by simp [Blank, model1], ?_, ?_⟩
  · intro e he
    simp only [turned, List.mem_cons, List.not_mem_nil, or_false] at he
    have : ∀ l : Int, l = 1 ∨ l = -1 → Tame asking.biasEta0 2 1 (⟨l, [(1, 1)]⟩ : Ex ℝ).x := fun l _ =>
      ⟨⟨by simp [Ascending], by simp⟩, by simp, by simp [sqnorm, asking, cfg1]⟩
    rcases he with rfl | rfl | rfl
    · exact ⟨this (-1) (.inr rfl), .inr rfl⟩
    · exact ⟨this 1 (.inl rfl), .inl rfl⟩
    · exact ⟨this 1 (.inl rfl), .inl rfl⟩
  · intro rs hrs hr
    obtain ⟨a, b, d, rfl⟩ := List.length_eq_three.1 hrs
    have ha := (hr a (by simp)).2
    have hd := (hr d (by simp)).2
    by_cases h : 1 / 2 < b
    · obtain ⟨s', h1, h2⟩ := turned_third d
      refine ⟨{ s' with fresh := true }, (((s'.err : Int) : ℝ)) / (((s'.data : Int) : ℝ)), ?_, ?_⟩
      · simp only [turned, List.zip_cons_cons, List.zip_nil_left, train, trainLoop, turned_first ha, turned_skip h, h1, Res.bind_ok]
      · simp only [List.getD_cons_succ, List.getD_cons_zero, h, if_true, h2, model1]
        norm_num
    · obtain ⟨s', h1, h2⟩ := turned_third' hd
      refine ⟨{ s' with fresh := true }, (((s'.err : Int) : ℝ)) / (((s'.data : Int) : ℝ)), ?_, ?_⟩
      · simp only [turned, List.zip_cons_cons, List.zip_nil_left, train, trainLoop, turned_first ha, turned_asked h, h1, Res.bind_ok]
      · simp only [List.getD_cons_succ, List.getD_cons_zero, h, if_false, h2, model1]
        norm_num
  · have hm := step_mean (q := (1 / 2 : ℝ)) (A := 3) (B := 2) (by norm_num) (by norm_num)
    refine ⟨fun _ => 5 / 2, fun a _ _ => ⟨fun b => if 1 / 2 < b then 3 else 2, fun b _ _ => ⟨fun _ => if 1 / 2 < b then 3 else 2,
      fun d _ _ => rfl, intervalIntegrable_const, by simp⟩, hm.1, ?_⟩, intervalIntegrable_const, by simp⟩
    rw [hm.2]
    norm_num

/-- The training always runs to its end, so there is such a function `F` to speak about. -/
theorem C96_runs (c : Cfg ℝ) (hk : Matches c.kind c.clf) (s : St ℝ Unit) (hs : Fit c (none' Unit) s) (es : List (Ex ℝ))
    (hes : ∀ e ∈ es, Good e.x ∧ LabelOk c.clf e.label) : ∃ F, Mistakes c s es F := by
  obtain ⟨F, hF⟩ := mistakes_all hk hs hes
  refine ⟨F, fun rs h _ => ?_⟩
  obtain ⟨s', h1, h2⟩ := hF rs h
  refine ⟨{ s' with fresh := true }, (((s'.err : Int) : ℝ)) / (((s'.data : Int) : ℝ)), ?_, h2⟩
  simp only [train, h1, Res.bind_ok]

/-- The hypotheses for several classes are met. -/
theorem C96_instance_multi : letI : FFun ℝ := ⟨fun a => a, fun a => a, -100, 0⟩
    let c : Cfg ℝ := { cfg3 with kind := .maxBool, smooth := 1 }
    let es : List (Ex ℝ) := [⟨2, [(1, 1)]⟩, ⟨1, [(1, 1 / 2)]⟩]
    (FFun.lowest : ℝ) ≤ -(2 * es.length * 1 ^ 2) ∧ (∀ e ∈ es, Tame c.biasEta0 2 1 e.x ∧ 0 ≤ e.label ∧ e.label < c.clf) ∧
    Fit c (none' Unit) (model3 ()) ∧ Blank (model3 () : St ℝ Unit) := by
  refine ⟨?_, ?_, ⟨by simp [model3], ⟨rfl, by simp [model3]⟩, rfl, trivial⟩, by simp [Blank, model3]⟩
  · show (-100 : ℝ) ≤ _
    norm_num
  · intro e he
    simp only [List.mem_cons, List.not_mem_nil, or_false] at he
    rcases he with rfl | rfl
    · exact ⟨⟨⟨by simp [Ascending], by simp⟩, by simp, by simp [sqnorm, cfg3]⟩, by decide, by decide⟩
    · exact ⟨⟨⟨by simp [Ascending], by simp⟩, by simp, by norm_num [sqnorm, cfg3]⟩, by decide, by decide⟩

end Sol.Props
