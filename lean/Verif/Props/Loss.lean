import Verif.Proofs.Loss
import Verif.Base.F32
/-! C26, C27, C28: the losses. -/

namespace Sol.Props

open Sol.Loss Sol.Spec

/-! ### C26 -/

section generic
variable {α : Type} [Zero α] [One α] [Add α] [Sub α] [Mul α] [Div α] [Neg α] [FCmp α] [IntCast α] [FFun α]

/-- C26: the loss reported together with the gradient is the loss reported by the loss function (with the margin the
    handler asked for), for every number type, NaN and infinities included.  `_partial`: not for the uniform hinge loss,
    see `C26_is_violated`. -/
theorem C26_reported_loss_partial (k : Kind) (hk : k ≠ .uniHinge) (margin : α) (handler : Option (List α → Res (α × α)))
    (v : α) (label : Int) (predict : List α) (pl : Int) (g : List α) (l : α) (g' : List α) (m' v' : α)
    (h : gradient k margin handler v label predict pl g = .ok (l, g', m', v')) : loss k m' label predict pl = .ok l := by
  cases k with
  | bool =>
    simp only [gradient, Res.bind_eq_ok, Res.ok.injEq, Prod.mk.injEq] at h
    obtain ⟨_, _, rfl, -, rfl, -⟩ := h
    rfl
  | maxBool =>
    simp only [gradient] at h
    simp only [loss]
    split_ifs at h with hp
    · simp only [Res.ok.injEq, Prod.mk.injEq] at h
      rw [if_pos hp, h.1]
    · simp only [Res.bind_eq_ok, Res.ok.injEq, Prod.mk.injEq] at h
      obtain ⟨_, _, rfl, -, rfl, -⟩ := h
      rw [if_neg hp]
  | uniBool =>
    simp only [gradient] at h
    simp only [loss]
    split_ifs at h with hp
    · simp only [Res.ok.injEq, Prod.mk.injEq] at h
      rw [if_pos hp, h.1]
    · simp only [Res.bind_eq_ok, Res.ok.injEq, Prod.mk.injEq] at h
      obtain ⟨_, _, _, _, rfl, -, rfl, -⟩ := h
      rw [if_neg hp]
  | hinge =>
    simp only [gradient, Res.bind_eq_ok, Res.ok.injEq, Prod.mk.injEq] at h
    obtain ⟨p, hp, ⟨m, w⟩, hm, g1, hg1, rfl, rfl, rfl, -⟩ := h
    simp only [loss, hp, Res.bind_ok]
  | maxHinge =>
    simp only [gradient, Res.bind_eq_ok] at h
    obtain ⟨q, hq, a, ha, b, hb, h⟩ := h
    simp only [loss, hq, ha, hb, Res.bind_ok]
    cases handler with
    | none =>
      dsimp only at h
      split_ifs at h
      · simp only [Res.bind_eq_ok, Res.ok.injEq, Prod.mk.injEq] at h
        obtain ⟨_, _, rfl, -, rfl, -⟩ := h
        rfl
      · simp only [Res.ok.injEq, Prod.mk.injEq] at h
        obtain ⟨rfl, -, rfl, -⟩ := h
        rfl
    | some f =>
      simp only [Res.bind_eq_ok] at h
      obtain ⟨g1, -, ⟨m, w⟩, -, h⟩ := h
      dsimp only at h
      split_ifs at h
      · simp only [Res.bind_eq_ok, Res.ok.injEq, Prod.mk.injEq] at h
        obtain ⟨_, _, _, _, rfl, -, rfl, -⟩ := h
        rfl
      · simp only [Res.ok.injEq, Prod.mk.injEq] at h
        obtain ⟨rfl, -, rfl, -⟩ := h
        rfl
  | uniHinge => exact absurd rfl hk
  | logistic =>
    simp only [gradient, Res.bind_eq_ok, Res.ok.injEq, Prod.mk.injEq] at h
    obtain ⟨p, hp, g1, hg1, rfl, -, rfl, -⟩ := h
    simp only [loss, hp, Res.bind_ok]
  | maxLogistic =>
    simp only [gradient, Res.bind_eq_ok, Res.ok.injEq, Prod.mk.injEq] at h
    obtain ⟨q, hq, a, ha, b, hb, g1, hg1, rfl, -, rfl, -⟩ := h
    simp only [loss, hq, ha, hb, Res.bind_ok]
  | uniLogistic =>
    simp only [gradient, Res.bind_eq_ok] at h
    obtain ⟨⟨fp, fn⟩, hf, a, ha, h⟩ := h
    simp only [loss, hf, ha, Res.bind_ok, softplus]
    split_ifs at h ⊢ with h1 h2
    · simp only [Res.bind_eq_ok, Res.ok.injEq, Prod.mk.injEq] at h
      obtain ⟨_, _, rfl, -, rfl, -⟩ := h
      rfl
    · simp only [Res.ok.injEq, Prod.mk.injEq] at h
      rw [h.1]
    · simp only [Res.bind_eq_ok, Res.ok.injEq, Prod.mk.injEq] at h
      obtain ⟨_, _, rfl, -, rfl, -⟩ := h
      rfl
  | square =>
    simp only [gradient, Res.bind_eq_ok, Res.ok.injEq, Prod.mk.injEq] at h
    obtain ⟨p, hp, g1, hg1, rfl, -, rfl, -⟩ := h
    simp only [loss, hp, Res.bind_ok]

end generic

/-- C26: no loss is negative (exact arithmetic). -/
theorem C26_nonnegative (k : Kind) (margin : ℝ) (label : Int) (predict : List ℝ) (pl : Int) (l : ℝ)
    (h : loss k margin label predict pl = .ok l) : 0 ≤ l := by
  have hmax : ∀ a : ℝ, 0 ≤ fmax 0 a := fun a => by rw [fmax_real]; exact le_max_left _ _
  have hb : (0 : ℝ) ≤ if pl = label then 0 else 1 := by split_ifs <;> norm_num
  cases k <;> simp only [loss, Res.bind_eq_ok, Res.ok.injEq] at h
  · rw [← h]; exact hb
  · rw [← h]; exact hb
  · rw [← h]; exact hb
  · obtain ⟨p, -, rfl⟩ := h; exact hmax _
  · obtain ⟨q, -, a, -, b, -, rfl⟩ := h; exact hmax _
  · obtain ⟨f, -, a, -, rfl⟩ := h; exact hmax _
  · obtain ⟨p, -, rfl⟩ := h; exact softplus_nonneg _
  · obtain ⟨q, -, a, -, b, -, rfl⟩ := h; exact softplus_nonneg _
  · obtain ⟨f, -, a, -, rfl⟩ := h; exact softplus_nonneg _
  · obtain ⟨p, -, rfl⟩ := h
    have := mul_self_nonneg (p - (label : ℝ))
    nlinarith

/-- C26: the binary losses are zero for an example classified with the required margin (for the logistic loss the
    margin is 100, the cut-off of the code; for the square loss the score is the label), and the boolean losses for a
    correct prediction. -/
theorem C26_zero_with_margin_binary (label : Int) (p margin : ℝ) (pl : Int) :
    (pl = label → ∀ k, k = .bool ∨ k = .maxBool ∨ k = .uniBool → loss k margin label [p] pl = .ok 0) ∧
    (margin ≤ p * label → loss .hinge margin label [p] pl = .ok 0) ∧
    (100 < p * label → loss .logistic margin label [p] pl = .ok 0) ∧
    (p = label → loss .square margin label [p] pl = .ok 0) := by
  refine ⟨?_, ?_, ?_, ?_⟩
  · rintro rfl k (rfl | rfl | rfl) <;> simp [loss]
  · intro h
    simp only [loss, lget]
    simp [fmax_real]
    linarith
  · intro h
    simp only [loss, lget]
    simp only [List.getElem?_cons_zero, Res.bind_ok, softplus_real]
    rw [if_neg (by nlinarith), if_pos (by nlinarith)]
  · intro h
    simp [loss, lget, h]

/-- C26: the max-score losses are zero for an example classified with the required margin (`pl` is the class with the
    highest score, as the code computes it; scores are above `-FLT_MAX`). -/
theorem C26_zero_with_margin_multi (predict : List ℝ) (label : Nat) (hl : label < predict.length)
    (h2 : 2 ≤ predict.length) (ha : Above predict) (pl : Int) (hpl : pl = maxElement predict) (margin : ℝ) :
    (Separated predict label margin → loss .maxHinge margin label predict pl = .ok 0) ∧
    (∀ m, 100 < m → Separated predict label m → loss .maxLogistic margin label predict pl = .ok 0) := by
  obtain ⟨q, hq, hr⟩ := rival_spec predict label hl h2 ha pl hpl
  have hql := hr.lt
  constructor
  · intro hs
    have := hs q predict[q] predict[label] hr.ne (by simp [hql]) (by simp [hl])
    simp only [loss, hq, get_nat _ _ hl, get_nat _ _ hql, Res.bind_ok, fmax_real]
    rw [max_eq_left (by linarith)]
  · intro m hm hs
    have := hs q predict[q] predict[label] hr.ne (by simp [hql]) (by simp [hl])
    simp only [loss, hq, get_nat _ _ hl, get_nat _ _ hql, Res.bind_ok, softplus_real]
    rw [if_neg (by linarith), if_pos (by linarith)]

theorem above_of (p : List ℝ) (h : ∀ v ∈ p, -1000 ≤ v) : Above p := by
  intro v hv
  have := h v hv
  show -((2 ^ 24 - 1) * 2 ^ 104) < v
  norm_num
  linarith

/-- Concrete instance: three classes, the true class ahead by 2. -/
theorem C26_instance : loss .maxHinge 1 1 [0, 3, (1 : ℝ)] 1 = .ok 0 := by
  have e : ([0, 3, 1] : List ℝ)[1]? = some 3 := rfl
  apply (C26_zero_with_margin_multi [0, 3, 1] 1 (by simp) (by simp) (above_of _ (by simp; norm_num)) 1 ?_ 1).1
  · intro j a b hj ha hb
    simp at hb
    subst hb
    match j, ha with
    | 0, ha => simp at ha; subst ha; norm_num
    | 1, ha => exact absurd rfl hj
    | 2, ha => simp at ha; subst ha; norm_num
    | j + 3, ha => simp at ha
  · have e1 : FCmp.lt (0 : ℝ) 3 = true := by simp
    have e2 : FCmp.lt (3 : ℝ) 1 = false := by simp
    simp only [maxElement, maxLoop, e1, e2]
    rfl

/-- C26 is violated by the uniform hinge loss: the loss reported with the gradient is always 0 (hinge_loss.cc:140 and
    :148 declare a second variable `loss`), here for a two-class tie, where the loss is the margin 1. -/
theorem C26_is_violated :
    loss .uniHinge 1 0 [0, (0 : ℝ)] 0 = .ok 1 ∧
      gradient .uniHinge 1 none 0 0 [0, (0 : ℝ)] 0 [0, 0] = .ok (0, [-1, 1], 1, 0) := by
  have h0 : (0 : Nat) < [0, (0 : ℝ)].length := by simp
  have e := falses_eq [0, 0] 0 h0
  have g := get_nat [0, (0 : ℝ)] 0 h0
  have n : notBelow [0, 0] ([0, (0 : ℝ)][0]) = 2 := by simp [notBelow]
  have s : notBelowSum [0, 0] ([0, (0 : ℝ)][0]) = 0 := by simp [notBelowSum]
  rw [n, s] at e
  have u := fun v w => uniGrad_eq [0, (0 : ℝ)] 0 v w h0
  simp only [Nat.cast_zero] at e g u
  constructor
  · simp only [loss, e, g, Res.bind_ok, fmax_real]
    norm_num
  · simp only [gradient, e, g, Res.bind_ok, fmax_real, u]
    norm_num

/-- C26 is violated by the uniform logistic loss: with float arithmetic it is NaN whenever the true class is ahead of
    all others (0 divided by 0, logistic_loss.cc:108-109), here two classes with scores 1 and 0. -/
theorem C26_uniform_logistic_is_violated (F : FFun F32) (he : F.exp .nan = .nan) (hlog : F.log .nan = .nan)
    (ht : F.tiny = F32.tiny) (m : F32) : loss .uniLogistic m 0 [1, 0] 0 = .ok .nan := by
  have e : falses ([1, 0] : List F32) 0 = .ok (0, 0) := by
    unfold falses
    rw [ht]
    decide +kernel
  have g : get ([1, 0] : List F32) 0 = .ok 1 := by decide +kernel
  have d : (0 : F32) / 0 - 1 = .nan := by decide +kernel
  simp only [loss, e, g, Res.bind_ok, d, softplus, he]
  have a : (1 : F32) + .nan = .nan := by decide +kernel
  rw [a, hlog]
  have c1 : FCmp.lt (((100 : Int) : F32)) .nan = false := by decide +kernel
  have c2 : FCmp.lt F32.nan (((-100 : Int) : F32)) = false := by decide +kernel
  simp [c1, c2]

/-! ### C27 -/

/-- C27 for the binary losses: the reported gradient is a subgradient of the hinge loss and of the square loss. -/
theorem C27_subgradient_binary (k : Kind) (hk : k = .hinge ∨ k = .square) (margin : ℝ) (v0 v1 : ℝ) (label : Int) (p p' : ℝ) (pl pl' : Int)
    (g0 l g l' m : ℝ) (hg : gradient k margin none v0 label [p] pl [g0] = .ok (l, [g], m, v1))
    (hl : loss k margin label [p'] pl' = .ok l') : l + g * (p' - p) ≤ l' := by
  rcases hk with rfl | rfl
  · simp only [gradient, loss, lget, lset, List.getElem?_cons_zero, Res.bind_ok, Res.ok.injEq, fmax_real,
      flt_iff] at hg hl
    simp at hg
    obtain ⟨rfl, hg, -⟩ := hg
    subst hl
    split_ifs at hg with hc
    · subst hg
      rw [max_eq_right (by linarith)]
      refine le_trans (le_of_eq ?_) (le_max_right _ _)
      ring
    · subst hg
      rw [max_eq_left (by linarith)]
      simp
  · simp only [gradient, loss, lget, lset, List.getElem?_cons_zero, Res.bind_ok, Res.ok.injEq] at hg hl
    simp at hg
    obtain ⟨rfl, rfl, -⟩ := hg
    subst hl
    nlinarith [mul_self_nonneg (p' - p)]

theorem logistic_gradient (margin : ℝ) (v0 : ℝ) (label : Int) (p : ℝ) (pl : Int) (g0 : ℝ) :
    gradient .logistic margin none v0 label [p] pl [g0] =
      .ok (softplus (-p * label), [-(label : ℝ) * slope (-p * label)], margin, v0) := by
  simp only [gradient, lget, lset, List.getElem?_cons_zero, Res.bind_ok]
  simp only [flt_iff, FFun.exp, slope, σ]
  have e1 : (((100 : Int) : ℝ)) = 100 := by norm_num
  have e2 : (((-100 : Int) : ℝ)) = -100 := by norm_num
  rw [e1, e2]
  simp
  split_ifs
  · ring
  · ring
  · rw [div_eq_mul_inv]; ring

/-- C27 for the logistic loss: the reported gradient is a subgradient up to `exp(-100)`; it is an exact subgradient
    when the new score is inside the cut-offs ±100 or the old one outside. -/
theorem C27_subgradient_logistic_partial (margin : ℝ) (v0 v1 : ℝ) (label : Int) (p p' : ℝ) (pl pl' : Int) (g0 l g l' m : ℝ)
    (hg : gradient .logistic margin none v0 label [p] pl [g0] = .ok (l, [g], m, v1))
    (hl : loss .logistic margin label [p'] pl' = .ok l') :
    l + g * (p' - p) ≤ l' + Real.exp (-100) ∧ (|p' * label| ≤ 100 ∨ 100 < |p * label| → l + g * (p' - p) ≤ l') := by
  rw [logistic_gradient] at hg
  simp only [Res.ok.injEq, Prod.mk.injEq, List.cons.injEq, and_true] at hg
  obtain ⟨rfl, rfl, -⟩ := hg
  simp only [loss, lget, List.getElem?_cons_zero, Res.bind_ok, Res.ok.injEq] at hl
  subst hl
  have e : -(label : ℝ) * slope (-p * label) * (p' - p) = slope (-p * label) * (-p' * label - -p * label) := by ring
  rw [e]
  refine ⟨softplus_tangent _ _, fun h => softplus_tangent_exact _ _ ?_⟩
  rcases h with h | h
  · right
    rw [abs_le] at h
    constructor <;> linarith [h.1, h.2]
  · left
    rcases lt_abs.1 h with h | h
    · right; linarith
    · left; linarith

/-- C27 for the multi-class max-score losses, hinge: whenever the loss is positive the reported gradient is a
    subgradient.  (When the loss is 0 the code leaves the gradient array as it was and the caller does not use it.) -/
theorem C27_subgradient_maxHinge (margin : ℝ) (v0 v1 : ℝ) (label : Nat) (p p' : List ℝ) (hl : label < p.length) (h2 : 2 ≤ p.length)
    (hlen : p'.length = p.length) (ha : Above p) (ha' : Above p') (g0 : List ℝ) (h0 : g0.length = p.length)
    (l : ℝ) (g : List ℝ) (m l' : ℝ)
    (hg : gradient .maxHinge margin none v0 label p (maxElement p) g0 = .ok (l, g, m, v1)) (hpos : 0 < l)
    (hl' : loss .maxHinge margin label p' (maxElement p') = .ok l') : l + dot g (diff p' p) ≤ l' := by
  obtain ⟨q, hq, hr⟩ := rival_spec p label hl h2 ha _ rfl
  have hql := hr.lt
  obtain ⟨q', hq', hr'⟩ := rival_spec p' label (by omega) (by omega) ha' _ rfl
  have hql' := hr'.lt
  have hll' : label < p'.length := by omega
  simp only [gradient, hq, get_nat _ _ hl, get_nat _ _ hql, Res.bind_ok, fmax_real] at hg
  simp only [loss, hq', get_nat _ _ hll', get_nat _ _ hql', Res.bind_ok, fmax_real, Res.ok.injEq] at hl'
  rw [pairGrad_eq g0 q label _ _ (by omega) (by omega), Res.bind_ok] at hg
  split_ifs at hg with hc
  · simp only [Res.ok.injEq, Prod.mk.injEq] at hg
    obtain ⟨rfl, rfl, -⟩ := hg
    have hd : (diff p' p).length = g0.length := by simp [diff, hlen, h0]
    rw [pair_dot g0.length q label 1 (-1) (diff p' p) hd (by omega) (by omega) hr.ne]
    have hb := hr'.best q p'[q] p'[q'] hr.ne (by simp [hlen, hql]) (by simp [hql'])
    rw [flt_iff] at hc
    rw [max_eq_right (by
      rcases le_total 0 (margin - p[label] + p[q]) with h | h
      · exact h
      · rw [max_eq_left h] at hc; exact absurd hc (lt_irrefl _)), ← hl']
    refine le_trans ?_ (le_max_right _ _)
    simp only [diff, List.getElem_zipWith]
    linarith
  · simp only [Res.ok.injEq, Prod.mk.injEq] at hg
    rw [flt_iff, hg.1] at hc
    exact absurd hpos hc

/-- C27 for the max-score logistic loss: subgradient up to `exp(-100)`. -/
theorem C27_subgradient_maxLogistic_partial (margin : ℝ) (v0 v1 : ℝ) (label : Nat) (p p' : List ℝ) (hl : label < p.length)
    (h2 : 2 ≤ p.length) (hlen : p'.length = p.length) (ha : Above p) (ha' : Above p') (g0 : List ℝ)
    (h0 : g0.length = p.length) (l : ℝ) (g : List ℝ) (m l' : ℝ)
    (hg : gradient .maxLogistic margin none v0 label p (maxElement p) g0 = .ok (l, g, m, v1))
    (hl' : loss .maxLogistic margin label p' (maxElement p') = .ok l') :
    l + dot g (diff p' p) ≤ l' + 2 * Real.exp (-100) := by
  obtain ⟨q, hq, hr⟩ := rival_spec p label hl h2 ha _ rfl
  have hql := hr.lt
  obtain ⟨q', hq', hr'⟩ := rival_spec p' label (by omega) (by omega) ha' _ rfl
  have hql' := hr'.lt
  have hll' : label < p'.length := by omega
  simp only [gradient, hq, get_nat _ _ hl, get_nat _ _ hql, Res.bind_ok] at hg
  simp only [loss, hq', get_nat _ _ hll', get_nat _ _ hql', Res.bind_ok, Res.ok.injEq] at hl'
  rw [pairGrad_eq g0 q label _ _ (by omega) (by omega), Res.bind_ok] at hg
  simp only [Res.ok.injEq, Prod.mk.injEq] at hg
  obtain ⟨rfl, rfl, -⟩ := hg
  have hd : (diff p' p).length = g0.length := by simp [diff, hlen, h0]
  rw [pair_dot g0.length q label _ _ (diff p' p) hd (by omega) (by omega) hr.ne]
  have hb := hr'.best q p'[q] p'[q'] hr.ne (by simp [hlen, hql]) (by simp [hql'])
  have t := softplus_tangent (p[q] - p[label]) (p'[q] - p'[label])
  have e1 : (((100 : Int) : ℝ)) = 100 := by norm_num
  have e2 : (((-100 : Int) : ℝ)) = -100 := by norm_num
  have mono : softplus (p'[q] - p'[label]) ≤ softplus (p'[q'] - p'[label]) + Real.exp (-100) :=
    le_trans (softplus_le_f _) (le_trans (f_mono (by linarith)) (f_le_softplus _))
  have hs : (diff p' p)[q] = p'[q] - p[q] := by simp [diff]
  have hs' : (diff p' p)[label] = p'[label] - p[label] := by simp [diff]
  rw [hs, hs', e1, e2, ← hl']
  have ev : ((if FCmp.lt (100 : ℝ) (p[q] - p[label]) = true then (1 : ℝ)
      else if FCmp.lt (p[q] - p[label]) (-100) = true then 0
      else 1 / (1 + FFun.exp (-(p[q] - p[label])))) * (p'[q] - p[q]) +
      (if FCmp.lt (100 : ℝ) (p[q] - p[label]) = true then (-1 : ℝ)
      else if FCmp.lt (p[q] - p[label]) (-100) = true then 0
      else -(1 / (1 + FFun.exp (-(p[q] - p[label]))))) * (p'[label] - p[label])) =
      slope (p[q] - p[label]) * (p'[q] - p'[label] - (p[q] - p[label])) := by
    simp only [flt_iff, slope, σ, FFun.exp]
    split_ifs <;> ring
  rw [ev]
  linarith

/-- C27, limit of the max-score hinge loss: when the reported loss is 0 the gradient array is left as the previous example
    wrote it, so it is then not a subgradient in general; the training loop does not use it in that case. -/
theorem C27_maxHinge_stale (margin : ℝ) (v0 v1 : ℝ) (label : Int) (p : List ℝ) (pl : Int) (g0 : List ℝ) (g : List ℝ) (m : ℝ)
    (hg : gradient .maxHinge margin none v0 label p pl g0 = .ok (0, g, m, v1)) : g = g0 := by
  simp only [gradient, Res.bind_eq_ok] at hg
  obtain ⟨q, -, a, -, b, -, hg⟩ := hg
  split_ifs at hg with hc
  · simp only [Res.bind_eq_ok, Res.ok.injEq, Prod.mk.injEq] at hg
    obtain ⟨_, -, h, -⟩ := hg
    rw [h] at hc
    simp at hc
  · simp only [Res.ok.injEq, Prod.mk.injEq] at hg
    exact hg.2.1.symm

/-- C27 is violated (by a hair) by the logistic loss: at the upper cut-off the loss falls below its own tangent, here
    moving the margin `-p*y` from 100 to 101. -/
theorem C27_is_violated : ∃ (l g l' m v1 : ℝ), gradient .logistic 0 none 0 1 [-100] 1 [0] = .ok (l, [g], m, v1) ∧
    loss .logistic (0 : ℝ) 1 [-101] 1 = .ok l' ∧ l' < l + g * (-101 - -100) := by
  refine ⟨_, _, _, _, _, logistic_gradient 0 0 1 (-100) 1 0, rfl, ?_⟩
  norm_num
  rw [softplus_real, softplus_real]
  norm_num [slope]
  -- log (1 + e^100) + σ 100 > 101
  have hx := Real.exp_pos (-100 : ℝ)
  have e : f 100 = 100 + Real.log (1 + Real.exp (-100)) := by
    unfold f
    have : (1 : ℝ) + Real.exp 100 = Real.exp 100 * (1 + Real.exp (-100)) := by
      rw [mul_add, ← Real.exp_add]
      norm_num
      ring
    rw [this, Real.log_mul (ne_of_gt (Real.exp_pos _)) (by positivity), Real.log_exp]
  have hs : σ 100 = 1 - Real.exp (-100) / (1 + Real.exp (-100)) := by
    unfold σ
    field_simp
    ring
  have hl : Real.exp (-100) / (1 + Real.exp (-100)) < Real.log (1 + Real.exp (-100)) := by
    have h1 : (0 : ℝ) < 1 + Real.exp (-100) := by positivity
    have := Real.log_lt_sub_one_of_pos (inv_pos.2 h1) (by
      intro h
      have := inv_eq_one.1 h
      linarith)
    rw [Real.log_inv] at this
    have e : Real.exp (-100) / (1 + Real.exp (-100)) = 1 - (1 + Real.exp (-100))⁻¹ := by field_simp; ring
    rw [e]
    linarith
  rw [e, hs]
  linarith

/-! ### C28 -/

/-- What C28 asks of a gradient array. -/
structure MultiGrad (n label : Nat) (g : List ℝ) : Prop where
  len : g.length = n
  down : ∀ v, g[label]? = some v → v ≤ 0
  up : ∀ (j : Nat) (v : ℝ), j ≠ label → g[j]? = some v → 0 ≤ v
  sum : g.sum = 0

theorem multi_pair (n q label : Nat) (u : ℝ) (hu : 0 ≤ u) (hq : q < n) (hl : label < n) (hne : q ≠ label) :
    MultiGrad n label (pair n q u label (-u)) := by
  refine ⟨pair_length .., ?_, ?_, by rw [pair_sum _ _ _ _ _ hq hl hne]; ring⟩
  · intro v hv
    rw [pair_get n q label u (-u) hq hl hne label hl] at hv
    simp at hv
    linarith
  · intro j v hj hv
    have hjn : j < n := by
      have := (List.getElem?_eq_some_iff.1 hv).1
      rwa [pair_length] at this
    rw [pair_get n q label u (-u) hq hl hne j hjn] at hv
    simp only [Option.some.injEq, if_neg hj] at hv
    split_ifs at hv <;> linarith

theorem multi_uni (p : List ℝ) (label : Nat) (hl : label < p.length) (hc : Contested p label) (u : ℝ) (hu : 0 ≤ u) :
    MultiGrad p.length label ((p.map fun x => if p[label] ≤ x then u / ((notBelow p p[label] : ℝ) - 1) else 0).set label (-u)) := by
  have hn := contested_count p label hl hc
  have hn' : (2 : ℝ) ≤ (notBelow p p[label] : ℝ) := by exact_mod_cast hn
  refine ⟨by simp, ?_, ?_, ?_⟩
  · intro v hv
    simp [hl] at hv
    linarith
  · intro j v hj hv
    rw [List.getElem?_set_ne (Ne.symm hj), List.getElem?_map] at hv
    obtain ⟨x, -, rfl⟩ := Option.map_eq_some_iff.1 hv
    split_ifs
    · apply div_nonneg hu; linarith
    · exact le_refl _
  · rw [uni_total p label _ _ hl]
    have : (notBelow p p[label] : ℝ) - 1 ≠ 0 := by linarith
    field_simp
    ring

/-- C28: gradients of the multi-class losses when the loss is positive: at most 0 on the true class, at least 0 on the
    others, sum 0.  For the max-score losses the scores are above `-FLT_MAX`; for the uniform losses some wrong class is
    not below the true class (otherwise their divisor is 0); for the uniform hinge loss `l` is what `loss` says. -/
theorem C28_gradient_shape (k : Kind) (margin : ℝ) (v0 v1 : ℝ) (label : Nat) (p : List ℝ) (hl : label < p.length)
    (h2 : 2 ≤ p.length) (pl : Int) (hpl : pl = maxElement p) (g0 : List ℝ) (h0 : g0.length = p.length)
    (l : ℝ) (g : List ℝ) (m l0 : ℝ)
    (hk : (Above p ∧ (k = .maxBool ∨ k = .maxHinge ∨ k = .maxLogistic)) ∨
      (Contested p label ∧ (k = .uniBool ∨ k = .uniHinge ∨ k = .uniLogistic)))
    (hl0 : loss k margin label p pl = .ok l0) (hpos : 0 < l0)
    (hg : gradient k margin none v0 label p pl g0 = .ok (l, g, m, v1)) : MultiGrad p.length label g := by
  have e1 : (((100 : Int) : ℝ)) = 100 := by norm_num
  have e2 : (((-100 : Int) : ℝ)) = -100 := by norm_num
  rcases hk with ⟨ha, hk⟩ | ⟨hc, hk⟩
  · obtain ⟨q, hq, hr⟩ := rival_spec p label hl h2 ha _ hpl
    have hql := hr.lt
    rcases hk with rfl | rfl | rfl
    · simp only [gradient] at hg
      simp only [loss, Res.ok.injEq] at hl0
      by_cases he : pl = label
      · rw [if_pos he] at hl0; linarith
      · rw [if_neg he] at hg
        have hqp : pl = (q : Int) := by
          unfold rival at hq
          rw [if_neg he] at hq
          simpa using hq
        rw [hqp, pairGrad_eq g0 q label _ _ (by omega) (by omega)] at hg
        simp only [Res.bind_ok, Res.ok.injEq, Prod.mk.injEq] at hg
        rw [← hg.2.1, h0]
        exact multi_pair _ _ _ 1 (by norm_num) hql hl hr.ne
    · simp only [gradient, hq, get_nat _ _ hl, get_nat _ _ hql, Res.bind_ok] at hg
      simp only [loss, hq, get_nat _ _ hl, get_nat _ _ hql, Res.bind_ok, Res.ok.injEq] at hl0
      rw [hl0, if_pos (by simpa using hpos), pairGrad_eq g0 q label _ _ (by omega) (by omega)] at hg
      simp only [Res.bind_ok, Res.ok.injEq, Prod.mk.injEq] at hg
      rw [← hg.2.1, h0]
      exact multi_pair _ _ _ 1 (by norm_num) hql hl hr.ne
    · simp only [gradient, hq, get_nat _ _ hl, get_nat _ _ hql, Res.bind_ok] at hg
      rw [pairGrad_eq g0 q label _ _ (by omega) (by omega)] at hg
      simp only [Res.bind_ok, Res.ok.injEq, Prod.mk.injEq] at hg
      rw [← hg.2.1, h0, e1, e2]
      have hs := σ_pos (p[q] - p[label])
      have ev : (if FCmp.lt (100 : ℝ) (p[q] - p[label]) = true then (-1 : ℝ)
          else if FCmp.lt (p[q] - p[label]) (-100) = true then 0
          else -(1 / (1 + FFun.exp (-(p[q] - p[label]))))) = - (if FCmp.lt (100 : ℝ) (p[q] - p[label]) = true then (1 : ℝ)
          else if FCmp.lt (p[q] - p[label]) (-100) = true then 0
          else 1 / (1 + FFun.exp (-(p[q] - p[label])))) := by
        split_ifs <;> simp
      rw [ev]
      apply multi_pair _ _ _ _ _ hql hl hr.ne
      split_ifs
      · norm_num
      · exact le_refl _
      · exact hs.le
  · rcases hk with rfl | rfl | rfl
    · simp only [gradient] at hg
      simp only [loss, Res.ok.injEq] at hl0
      by_cases he : pl = label
      · rw [if_pos he] at hl0; linarith
      · rw [if_neg he] at hg
        have hn := contested_count p label hl hc
        simp only [falseCount, get_nat _ _ hl, Res.bind_ok, uniGrad_eq _ _ _ _ hl, Res.ok.injEq, Prod.mk.injEq] at hg
        rw [← hg.2.1]
        have := multi_uni p label hl hc 1 (by norm_num)
        have ec : (List.countP (fun v => FCmp.le p[label] v) p) = notBelow p p[label] := by
          unfold notBelow
          congr 1
        rw [ec]
        have : (((((notBelow p p[label]) - 1 : Nat) : Int) : ℝ)) = (notBelow p p[label] : ℝ) - 1 := by
          rw [Int.cast_natCast, Nat.cast_sub (by omega)]
          simp
        rw [this]
        assumption
    · simp only [gradient, falses_eq _ _ hl, get_nat _ _ hl, Res.bind_ok] at hg
      simp only [loss, falses_eq _ _ hl, get_nat _ _ hl, Res.bind_ok, Res.ok.injEq] at hl0
      rw [mul_one_div, hl0, if_pos (by simpa using hpos), uniGrad_eq _ _ _ _ hl] at hg
      simp only [Res.bind_ok, Res.ok.injEq, Prod.mk.injEq] at hg
      rw [← hg.2.1]
      exact multi_uni p label hl hc 1 (by norm_num)
    · simp only [gradient, falses_eq _ _ hl, get_nat _ _ hl, Res.bind_ok, uniGrad_eq _ _ _ _ hl] at hg
      split_ifs at hg with c1 c2
      · simp only [Res.ok.injEq, Prod.mk.injEq] at hg
        rw [← hg.2.1]
        exact multi_uni p label hl hc 1 (by norm_num)
      · simp only [Res.ok.injEq, Prod.mk.injEq] at hg
        rw [← hg.2.1]
        refine ⟨by simp [h0], ?_, ?_, by simp⟩
        · intro v hv
          have := List.mem_of_getElem? hv
          simp at this
          exact le_of_eq this.2
        · intro j v _ hv
          have := List.mem_of_getElem? hv
          simp at this
          exact le_of_eq this.2.symm
      · simp only [Res.ok.injEq, Prod.mk.injEq] at hg
        rw [← hg.2.1]
        exact multi_uni p label hl hc _ (σ_pos _).le

/-- C28: adding a constant to all scores does not change the class with the highest score, the loss and the gradient. -/
theorem C28_shift_invariant (k : Kind) (margin : ℝ) (v0 : ℝ) (label : Nat) (p : List ℝ)
    (hk : k = .maxBool ∨ k = .maxHinge ∨ k = .maxLogistic ∨
      ((k = .uniBool ∨ k = .uniHinge ∨ k = .uniLogistic) ∧ Contested p label)) (hl : label < p.length) (h2 : 2 ≤ p.length) (c : ℝ)
    (ha : Above p) (ha' : Above (p.map (· + c))) (g0 : List ℝ) :
    maxElement (p.map (· + c)) = maxElement p ∧
    loss k margin label (p.map (· + c)) (maxElement (p.map (· + c))) = loss k margin label p (maxElement p) ∧
    gradient k margin none v0 label (p.map (· + c)) (maxElement (p.map (· + c))) g0 =
      gradient k margin none v0 label p (maxElement p) g0 := by
  have hm := maxElement_shift p c
  have hls : label < (p.map (· + c)).length := by simpa using hl
  refine ⟨hm, ?_⟩
  obtain ⟨q, hq, hr⟩ := rival_spec p label hl h2 ha _ rfl
  obtain ⟨q', hq', hr'⟩ := rival_spec (p.map (· + c)) label hls (by simpa using h2) ha' _ rfl
  have hql := hr.lt
  have := (hr.shift c).unique hr'
  subst this
  have hql' := hr'.lt
  have s1 : ∀ i (h : i < (p.map (· + c)).length), (p.map (· + c))[i] = p[i]'(by simpa using h) + c := by simp
  have a1 : margin - (p[label] + c) + (p[q] + c) = margin - p[label] + p[q] := by ring
  have a2 : (p[q] + c) - (p[label] + c) = p[q] - p[label] := by ring
  rcases hk with rfl | rfl | rfl | ⟨hk, hc⟩
  · rw [hm]; exact ⟨rfl, rfl⟩
  · constructor
    · simp only [loss, hq, hq', Res.bind_ok, get_nat _ _ hl, get_nat _ _ hql, get_nat _ _ hls, get_nat _ _ hql', s1, a1]
    · simp only [gradient, hq, hq', Res.bind_ok, get_nat _ _ hl, get_nat _ _ hql, get_nat _ _ hls, get_nat _ _ hql', s1, a1]
  · constructor
    · simp only [loss, hq, hq', Res.bind_ok, get_nat _ _ hl, get_nat _ _ hql, get_nat _ _ hls, get_nat _ _ hql', s1, a2]
    · simp only [gradient, hq, hq', Res.bind_ok, get_nat _ _ hl, get_nat _ _ hql, get_nat _ _ hls, get_nat _ _ hql', s1, a2]
  · have hn := contested_count p label hl hc
    have hn' : (2 : ℝ) ≤ (notBelow p p[label] : ℝ) := by exact_mod_cast hn
    have hne : (notBelow p p[label] : ℝ) - 1 ≠ 0 := by linarith
    have b1 : (notBelowSum p p[label] + notBelow p p[label] * c - (p[label] + c)) / ((notBelow p p[label] : ℝ) - 1)
        = (notBelowSum p p[label] - p[label]) / ((notBelow p p[label] : ℝ) - 1) + c := by
      field_simp; ring
    have b2 : (notBelowSum p p[label] + notBelow p p[label] * c - (p[label] + c)) * (1 / ((notBelow p p[label] : ℝ) - 1))
        = (notBelowSum p p[label] - p[label]) * (1 / ((notBelow p p[label] : ℝ) - 1)) + c := by
      field_simp; ring
    have f1 : ∀ x : ℝ, margin - (p[label] + c) + (x + c) = margin - p[label] + x := fun x => by ring
    have f2 : ∀ x : ℝ, (x + c) - (p[label] + c) = x - p[label] := fun x => by ring
    have u1 : ∀ v w, uniGrad (p.map (· + c)) label v w = uniGrad p label v w := by
      intro v w
      rw [uniGrad_eq _ _ _ _ hl, uniGrad_eq _ _ _ _ hls]
      simp [Function.comp_def]
    have u2 : falseCount (p.map (· + c)) label = falseCount p label := by
      unfold falseCount
      rw [get_nat _ _ hl, get_nat _ _ hls]
      simp only [Res.bind_ok, s1, List.countP_map]
      congr 3
      funext v
      rw [Bool.eq_iff_iff]
      simp
    rcases hk with rfl | rfl | rfl
    · rw [hm]
      constructor
      · rfl
      · simp only [gradient, u1, u2]
    · constructor
      · simp only [loss, falses_eq _ _ hl, falses_eq _ _ hls, Res.bind_ok, get_nat _ _ hl, get_nat _ _ hls, s1,
          notBelow_shift, notBelowSum_shift, b1, f1]
      · simp only [gradient, falses_eq _ _ hl, falses_eq _ _ hls, Res.bind_ok, get_nat _ _ hl, get_nat _ _ hls, s1,
          notBelow_shift, notBelowSum_shift, b2, f1, u1]
    · constructor
      · simp only [loss, falses_eq _ _ hl, falses_eq _ _ hls, Res.bind_ok, get_nat _ _ hl, get_nat _ _ hls, s1,
          notBelow_shift, notBelowSum_shift, b1, f2]
      · simp only [gradient, falses_eq _ _ hl, falses_eq _ _ hls, Res.bind_ok, get_nat _ _ hl, get_nat _ _ hls, s1,
          notBelow_shift, notBelowSum_shift, b1, f2, u1]

/-- Concrete instance: two wrong classes tie with the true class; all hypotheses hold. -/
example : Contested [1, 1, 1, 0] 0 ∧ Above ([1, 1, 1, 0] : List ℝ) := by
  refine ⟨⟨1, 1, 1, by decide, rfl, rfl, le_refl _⟩, above_of _ ?_⟩
  simp
  norm_num

end Sol.Props
