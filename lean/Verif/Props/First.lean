import Verif.Proofs.First
import Verif.Base.F32Sqrt
import Verif.Props.Online
/-! C103: the first example of dual averaging, in binary32. -/

namespace Sol.Props

open Sol.Online Sol.Olm Sol.Sparse Sol.Loss Sol.Spec Sol.F32

section
variable [FFun F32] [FSqrt F32]

/-- C103, the part that holds: RDA gives every first example the scores 0, if its step size is a finite number. -/
theorem C103_rda_partial (c : Cfg F32) (sigma eps : F32) (s : St F32 (List (List F32))) (hs : Fit c (vecs c.clf) s) (hu : Unseen s)
    (x : SVec F32) (hx : Good x) (hv : ∀ q ∈ x, Fl q.2) (he : Fl (1 / ((0 + eps) * sigma))) (hb : Fl (c.biasEta0 * (1 / ((0 + eps) * sigma))))
    (p : List F32) (hp : Computes (rda sigma eps) c s x p) : p = List.replicate c.clf 0 := by
  obtain ⟨s0, s1, pred, h0, h1, h2⟩ := hp
  obtain ⟨ht, ha⟩ := enter_unseen (G := rda sigma eps) rfl hu x
  have hfe : Fit c (vecs c.clf) (enter (rda sigma eps) s x) := by
    obtain ⟨t, ht, hft, -⟩ := (safe_rda c sigma eps).start s x hs hx
    obtain rfl := Res.ok.inj ht
    exact hft
  obtain rfl := Res.ok.inj h0
  simp only [rda, Res.bind_eq_ok] at h1
  obtain ⟨W, hW, h3⟩ := h1
  obtain rfl := Res.ok.inj h3
  have e : (((enter (rda sigma eps) s x).t - 1 : Int) : F32) = 0 := by rw [ht]; rfl
  simp only [rda] at e
  simp only [e] at hW h2
  have := (first_scores hfe ha hx hW h2).2 (by simp only [biasEta]; exact hb.neg.mul_zero) he.neg.mul_zero hv
  exact List.eq_replicate_iff.2 this

/-- C103, the part that holds: ERDA_L1 gives every first example the scores 0, if its step size is a finite number and its threshold
    is not negative. -/
theorem C103_erda_partial (c : Cfg F32) (sigma eps lambda rou thresh : F32) (s : St F32 (List (List F32))) (hs : Fit c (vecs c.clf) s)
    (hu : Unseen s) (x : SVec F32) (hx : Good x) (hv : ∀ q ∈ x, Fl q.2) (he : Fl (1 / (FSqrt.sqrt (0 + eps) * sigma)))
    (hb : Fl (c.biasEta0 * (1 / (FSqrt.sqrt (0 + eps) * sigma))))
    (hth : (lambda * (0 + eps) + sigma * rou * FSqrt.sqrt (0 + eps) <? 0) = false)
    (p : List F32) (hp : Computes (erdaL1 sigma eps lambda rou thresh) c s x p) : p = List.replicate c.clf 0 := by
  obtain ⟨s0, s1, pred, h0, h1, h2⟩ := hp
  obtain ⟨ht, ha⟩ := enter_unseen (G := erdaL1 sigma eps lambda rou thresh) rfl hu x
  have hfe : Fit c (vecs c.clf) (enter (erdaL1 sigma eps lambda rou thresh) s x) := by
    obtain ⟨t, ht, hft, -⟩ := (safe_erdaL1 c sigma eps lambda rou thresh).start s x hs hx
    obtain rfl := Res.ok.inj ht
    exact hft
  obtain rfl := Res.ok.inj h0
  simp only [erdaL1, Res.bind_eq_ok] at h1
  obtain ⟨W, hW, h3⟩ := h1
  obtain rfl := Res.ok.inj h3
  have e : (((enter (erdaL1 sigma eps lambda rou thresh) s x).t - 1 : Int) : F32) = 0 := by rw [ht]; rfl
  simp only [erdaL1] at e
  simp only [e] at hW h2
  have := (first_scores hfe ha hx hW h2).2 (by simp only [biasEta]; rw [trunc_zero hth]; exact hb.neg.mul_zero)
    (by rw [trunc_zero hth]; exact he.neg.mul_zero) hv
  exact List.eq_replicate_iff.2 this

/-- C103 fails for RDA_L1: whatever the first example is and whatever the settings are, all its scores are NaN. -/
theorem C103_is_violated (c : Cfg F32) (sigma eps lambda thresh : F32) (hsigma : Fl sigma) (hlambda : Fl lambda)
    (s : St F32 (List (List F32))) (hs : Fit c (vecs c.clf) s) (hu : Unseen s) (x : SVec F32) (hx : Good x) (p : List F32)
    (hp : Computes (rdaL1 sigma eps lambda thresh) c s x p) : p = List.replicate c.clf nan := by
  obtain ⟨s0, s1, pred, h0, h1, h2⟩ := hp
  obtain ⟨ht, ha⟩ := enter_unseen (G := rdaL1 sigma eps lambda thresh) rfl hu x
  have hfe : Fit c (vecs c.clf) (enter (rdaL1 sigma eps lambda thresh) s x) := by
    obtain ⟨t, ht, hft, -⟩ := (safe_rdaL1 c sigma eps lambda thresh).start s x hs hx
    obtain rfl := Res.ok.inj ht
    exact hft
  obtain rfl := Res.ok.inj h0
  simp only [rdaL1, Res.bind_eq_ok] at h1
  obtain ⟨W, hW, h3⟩ := h1
  obtain rfl := Res.ok.inj h3
  have e : (((enter (rdaL1 sigma eps lambda thresh) s x).t - 1 : Int) : F32) = 0 := by rw [ht]; rfl
  have e2 : (1 : F32) / (0 * sigma) = pinf := by rw [hsigma.zero_mul]; decide +kernel
  simp only [rdaL1] at e
  simp only [e, e2, hlambda.mul_zero] at hW h2
  have := (first_scores hfe ha hx hW h2).1 (by simp only [biasEta]; rw [trunc_zero rfl]; exact rate_zero _)
  exact List.eq_replicate_iff.2 this

/-- So RDA_L1 learns nothing from its first example with a loss that looks at the scores: it makes no update and its sums stay 0.  For the
    logistic losses `exp` and `log` give NaN for NaN. -/
theorem C103_learns_nothing (c : Cfg F32) (hkind : c.kind ≠ .bool ∧ c.kind ≠ .maxBool ∧ c.kind ≠ .uniBool)
    (hkeep : c.kind = .logistic ∨ c.kind = .maxLogistic ∨ c.kind = .uniLogistic → KeepsNan) (hlazy : c.lazyUpdate = false)
    (sigma eps lambda thresh : F32) (hsigma : Fl sigma) (hlambda : Fl lambda) (s s' : St F32 (List (List F32)))
    (hs : Fit c (vecs c.clf) s) (hu : Unseen s) (e : Ex F32) (hx : Good e.x) (r : F32) (ev : Event)
    (h : Happens (rdaL1 sigma eps lambda thresh) c s e r ev s') :
    ev.fired = false ∧ s'.upd = s.upd ∧ ∀ u ∈ s'.alg, ∀ v ∈ u, v = 0 := by
  obtain ⟨s0, s1, p, h0, h1, h2, h3, h4, h5⟩ := h
  have hnan := C103_is_violated c sigma eps lambda thresh hsigma hlambda s hs hu e.x hx p ⟨s0, s1, _, h0, h1, h2⟩
  have hall : ∀ a ∈ p, a = nan := by rw [hnan]; exact fun a ha => (List.mem_replicate.1 ha).2
  obtain ⟨-, ha⟩ := enter_unseen (G := rdaL1 sigma eps lambda thresh) rfl hu e.x
  have hupd : (enter (rdaL1 sigma eps lambda thresh) s e.x).upd = s.upd := by simp only [enter, updateDim]; split <;> rfl
  have hs1 : s1.alg = s0.alg ∧ s1.upd = s0.upd := by
    simp only [rdaL1, Res.bind_eq_ok] at h1
    obtain ⟨W, -, h6⟩ := h1
    obtain rfl := Res.ok.inj h6
    exact ⟨rfl, rfl⟩
  have hs0 := Res.ok.inj h0
  rw [← hs0] at hs1
  rw [hupd] at hs1
  constructor
  · cases hf : ev.fired with
    | false => rfl
    | true =>
      obtain ⟨-, l, g, m, v, h6, h7⟩ := h4.1 hf
      simp only [hlazy, Bool.false_eq_true, if_false] at h7
      rw [nan_loss hkind hkeep hall h6] at h7
      exact Bool.noConfusion h7
  · simp only [trainOne, iterate, h0, h1, h2, h3, Res.bind_ok, Res.bind_eq_ok] at h5
    obtain ⟨⟨s2, pr⟩, h6, h7⟩ := h5
    have hs' : s'.upd = s2.upd ∧ s'.alg = s2.alg := by
      have := Res.ok.inj h7
      rw [← this]
      dsimp only
      split <;> exact ⟨rfl, rfl⟩
    have h8 : s2.upd = s.upd ∧ s2.alg = s1.alg := by
      cases hsk : ev.skip with
      | true =>
        simp only [hsk, if_true] at h6
        obtain ⟨rfl, -⟩ := Prod.mk.inj (Res.ok.inj h6)
        exact ⟨hs1.2, rfl⟩
      | false =>
        simp only [hsk, Bool.false_eq_true, if_false, Res.bind_eq_ok, learn] at h6
        obtain ⟨s3, ⟨⟨l, g, m, v⟩, h9, s4, h10, h11⟩, h12⟩ := h6
        obtain ⟨rfl, -⟩ := Prod.mk.inj (Res.ok.inj h12)
        have hl := nan_loss hkind hkeep hall h9
        have hfire : fires c ev.pred e.label l = false := by
          unfold fires
          rw [hlazy]
          exact hl
        simp only [maybeUpdate, hfire, Bool.false_eq_true, if_false] at h10
        obtain rfl := Res.ok.inj h10
        obtain rfl := Res.ok.inj h11
        exact ⟨hs1.2, rfl⟩
    rw [hs'.1, hs'.2, h8.1, h8.2, hs1.1]
    exact ⟨rfl, ha⟩

/-- Training always computes scores, so the statements above are about something. -/
theorem C103_runs {A : Type} (c : Cfg F32) (G : Alg F32 A) (inv : Nat → A → Prop) (mid : SVec F32 → Nat → A → Prop) (hG : Safe c G inv mid)
    (hk : Matches c.kind c.clf) (s : St F32 A) (hs : Fit c inv s) (e : Ex F32) (hx : Good e.x) (hl : LabelOk c.clf e.label) :
    ∃ p, Computes G c s e.x p := by
  obtain ⟨ev, s', ⟨s0, s1, p, h0, h1, h2, -⟩, -⟩ := happens hG hk s hs e 0 hx hl
  exact ⟨p, s0, s1, _, h0, h1, h2⟩

/-- RDA, in contrast, learns from its first example with the hinge loss, unless active learning skips it. -/
theorem C103_rda_learns_partial (c : Cfg F32) (hkind : c.kind = .hinge) (hclf : c.clf = 1) (hlazy : c.lazyUpdate = false) (hcost : c.cost = none)
    (sigma eps : F32) (s s' : St F32 (List (List F32))) (hs : Fit c (vecs c.clf) s) (hm : s.margin = 1) (hu : Unseen s) (e : Ex F32)
    (hx : Good e.x) (hy : e.label = 1 ∨ e.label = -1) (hv : ∀ q ∈ e.x, Fl q.2) (he : Fl (1 / ((0 + eps) * sigma)))
    (hb : Fl (c.biasEta0 * (1 / ((0 + eps) * sigma)))) (r : F32) (ev : Event) (hskip : ev.skip = false)
    (h : Happens (rda sigma eps) c s e r ev s') : ev.fired = true := by
  obtain ⟨s0, s1, p, h0, h1, h2, h3, h4, h5⟩ := h
  have hz := C103_rda_partial c sigma eps s hs hu e.x hx hv he hb p ⟨s0, s1, _, h0, h1, h2⟩
  rw [hclf] at hz
  subst hz
  have hs1 : s1.g = s.g ∧ s1.margin = 1 := by
    have hs0 := Res.ok.inj h0
    simp only [rda, Res.bind_eq_ok] at h1
    obtain ⟨W, -, h6⟩ := h1
    obtain rfl := Res.ok.inj h6
    subst hs0
    simp only [enter, updateDim]
    split <;> exact ⟨rfl, hm⟩
  have hg : s1.g.length = 1 := by rw [hs1.1, hs.g, hclf]
  have hh : (rda sigma eps).handler c s1 e.x = none := rfl
  refine h4.2 ⟨hskip, 1, s1.g.set 0 ((-e.label : Int) : F32), 1, s1.vi, ?_, ?_⟩
  · have hcm : costMargin c e.label s1.margin = 1 := by unfold costMargin; rw [hcost]; exact hs1.2
    have hl : fmax (0 : F32) (1 - 0 * ((e.label : Int) : F32)) = 1 := by rcases hy with h | h <;> rw [h] <;> decide +kernel
    have hpos : ((0 : F32) <? 1) = true := by decide +kernel
    have hget : lget (List.replicate 1 (0 : F32)) 0 = .ok 0 := rfl
    simp only [hkind, gradient, hh, hcm, hget, Res.bind_ok, hl, hpos, if_true]
    rw [lset_ok _ (by omega), Res.bind_ok]
  · simp only [hlazy, Bool.false_eq_true, if_false]
    decide +kernel

end

/-! ### Instances -/

/-- A test for finite numbers. -/
theorem fl_of {v : F32} (h : (match v with | fin q => decide (F32.round q = fin q) | _ => false) = true) : Fl v := by
  cases v with
  | fin q => exact ⟨q, rfl, of_decide_eq_true h⟩
  | pinf => exact Bool.noConfusion h
  | ninf => exact Bool.noConfusion h
  | nan => exact Bool.noConfusion h

/-- A fresh model meets the hypotheses; with `sigma = 1` and `1e-20` the step sizes of RDA and ERDA_L1 are finite, also times a rate of
    the bias. -/
theorem C103_hypotheses :
    letI : FSqrt F32 := ⟨F32.sqrt⟩
    let eps : F32 := F32.round (1 / 10 ^ 20)
    Fit (cfg1 : Cfg F32) (vecs 1) (model1 [[0]]) ∧ Unseen (model1 [[0]]) ∧
    Fl (1 / ((0 + eps) * 1)) ∧ Fl (fin (1 / 2) * (1 / ((0 + eps) * 1))) ∧
    Fl (1 / (FSqrt.sqrt (0 + eps) * 1)) ∧ Fl (fin (1 / 2) * (1 / (FSqrt.sqrt (0 + eps) * 1))) ∧
    (fin (1 / 8) * (0 + eps) + 1 * fin (1 / 4) * FSqrt.sqrt (0 + eps) <? 0) = false ∧
    Good ([(1, fin (1 / 2)), (3, 1)] : SVec F32) ∧ (∀ q ∈ ([(1, fin (1 / 2)), (3, 1)] : SVec F32), Fl q.2) := by
  refine ⟨⟨by decide, ⟨rfl, by simp [model1]⟩, rfl, ⟨rfl, by simp [model1]⟩⟩, ⟨rfl, by simp [model1]⟩,
    fl_of (by decide +kernel), fl_of (by decide +kernel), fl_of (by decide +kernel), fl_of (by decide +kernel), by decide +kernel,
    ⟨by simp [Ascending], by simp⟩, ?_⟩
  intro q hq
  simp only [List.mem_cons, List.not_mem_nil, or_false] at hq
  rcases hq with rfl | rfl <;> exact fl_of (by decide +kernel)

/-- Trained on one example of label 1 with the feature 1 at index 1, RDA has a positive weight there and RDA_L1 has the weight 0,
    with `lambda = 0`, where the two should agree. -/
theorem C103_instance :
    letI : FFun F32 := unusedFun
    letI : FSqrt F32 := ⟨fun a => a⟩
    let eps : F32 := F32.round (1 / 10 ^ 20)
    (Yields (trainOne (rda 1 eps) (cfg1 : Cfg F32) (model1 [[0]]) ⟨1, [(1, 1)]⟩ 0) fun r => r.upd = 1 ∧ r.alg = [[-1, -1]] ∧
      Yields ((rda 1 eps).endTrain cfg1 r) fun m => m.w = [[0, 1]]) ∧
    Yields (trainOne (rdaL1 1 eps 0 0) (cfg1 : Cfg F32) (model1 [[0]]) ⟨1, [(1, 1)]⟩ 0) fun r =>
      r.upd = 0 ∧ r.w = [[nan, nan]] ∧ r.alg = [[0, 0]] ∧
      Yields ((rdaL1 1 eps 0 0).endTrain cfg1 r) fun m => m.w = [[0, 0]] := by
  decide +kernel

/-- Functions that keep NaN, and a model with the logistic loss that learns nothing from its first example. -/
theorem C103_instance_logistic :
    letI : FFun F32 := unusedFun
    letI : FSqrt F32 := ⟨fun a => a⟩
    let c : Cfg F32 := { (cfg1 : Cfg F32) with kind := .logistic }
    KeepsNan ∧ Yields (trainOne (rdaL1 1 0 0 0) c (model1 [[0]]) ⟨1, [(1, 1)]⟩ 0) fun r => r.upd = 0 ∧ r.alg = [[0, 0]] := by
  unfold KeepsNan
  decide +kernel

end Sol.Props
