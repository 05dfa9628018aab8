import Verif.Spec.First
import Verif.Proofs.Dual
import Verif.Proofs.F32
/-! The first example of dual averaging, in binary32. -/

set_option linter.unusedSectionVars false
set_option linter.unusedVariables false

namespace Sol.F32

theorem add_nan (a : F32) : a + nan = nan := by cases a <;> rfl

theorem nan_add (a : F32) : nan + a = nan := by cases a <;> rfl

theorem sub_nan (a : F32) : a - nan = nan := by
  show a + -nan = nan
  exact add_nan a

theorem nan_mul (a : F32) : nan * a = nan := by cases a <;> rfl

theorem infOf_zero (s : Int) : -infOf s * 0 = nan := by
  unfold infOf
  split_ifs <;> rfl

/-- An infinite rate times 0 is NaN, also when a factor 0 precedes. -/
theorem rate_zero (b : F32) : -(b * pinf) * 0 = nan := by
  cases b with
  | fin q => exact infOf_zero _
  | pinf => rfl
  | ninf => rfl
  | nan => rfl

theorem first_eta {sigma : F32} (h : Fl sigma) : 1 / (((1 - 1 : Int) : F32) * sigma) = pinf := by
  have e : ((1 - 1 : Int) : F32) = 0 := rfl
  rw [e, h.zero_mul]
  decide +kernel

end Sol.F32

namespace Sol.Olm

open Sol.Online Sol.Sparse Sol.Loss Sol.Spec Sol.F32

variable [FFun F32] [FSqrt F32]

theorem trunc_zero {th : F32} (h : (th <? 0) = false) : trunc (0 : F32) th = 0 := by
  unfold trunc
  have e : ((0 : F32) ≤? 0) = true := rfl
  simp only [e, if_true, h, Bool.false_eq_true, if_false]

/-- Weights computed from blank sums. -/
theorem dual_zero {f b : F32 → F32} {x : SVec F32} (hx : Ascending x) {n d : Nat} (hd : 1 ≤ d) {W U W' : List (List F32)} (hW : Vecs n d W)
    (hU : Vecs n d U) (h0 : ∀ u ∈ U, ∀ v ∈ u, v = 0) (h : eachWith (fromDual f b x) W U = .ok W') :
    Vecs n d W' ∧ ∀ w ∈ W', w[0]? = some (b 0) ∧ ∀ p ∈ x, p.1 ≠ 0 → p.1 < d → w[p.1]? = some (f 0) := by
  rw [eachWith_closed _ _ _ (hW.1.trans hU.1.symm) fun v hv u hu => fromDual_closed _ _ hx (by rw [hW.2 v hv]; exact hd)
    (by rw [hU.2 u hu, hW.2 v hv])] at h
  obtain rfl := Res.ok.inj h
  have hz : ∀ u ∈ U, ∀ i, u.getD i 0 = 0 := by
    intro u hu i
    rw [List.getD_eq_getElem?_getD]
    cases hi : u[i]? with
    | none => rfl
    | some v => exact h0 u hu v (List.mem_of_getElem? hi)
  refine ⟨⟨by simp [hW.1, hU.1], fun v hv => ?_⟩, fun v hv => ?_⟩
  · obtain ⟨i, hi, rfl⟩ := List.getElem_of_mem hv
    simp only [List.getElem_zipWith, List.length_mapIdx]
    exact hW.2 _ (List.getElem_mem _)
  · obtain ⟨i, hi, rfl⟩ := List.getElem_of_mem hv
    simp only [List.getElem_zipWith]
    have hlw : (W[i]'(by simp at hi; omega)).length = d := hW.2 _ (List.getElem_mem _)
    have hu := hz (U[i]'(by simp at hi; omega)) (List.getElem_mem _)
    constructor
    · simp only [List.getElem?_mapIdx]
      rw [List.getElem?_eq_getElem (by omega)]
      simp only [Option.map_some, atZero, if_true, hu]
    · intro p hp hp0 hpd
      simp only [List.getElem?_mapIdx]
      rw [List.getElem?_eq_getElem (by omega)]
      simp only [Option.map_some, atZero, hp0, if_false, touch, featureAt_mem hx (show (p.1, p.2) ∈ x from hp), hu]

theorem scores_all {z : F32} {W : List (List F32)} {x : SVec F32} (h : ∀ w ∈ W, ∀ a, score w x = .ok a → a = z) {p : List F32}
    (hp : scores W x = .ok p) : p.length = W.length ∧ ∀ v ∈ p, v = z := by
  induction W generalizing p with
  | nil => obtain rfl := Res.ok.inj hp; exact ⟨rfl, by simp⟩
  | cons w W ih =>
    simp only [scores, Res.bind_eq_ok] at hp
    obtain ⟨a, h1, q, h2, h3⟩ := hp
    obtain rfl := Res.ok.inj h3
    obtain ⟨h4, h5⟩ := ih (fun w hw => h w (List.mem_cons_of_mem _ hw)) h2
    refine ⟨by simp [h4], fun v hv => ?_⟩
    rcases List.mem_cons.1 hv with rfl | hv
    · exact h w List.mem_cons_self _ h1
    · exact h5 v hv

theorem score_nan {w : List F32} {x : SVec F32} (h : w[0]? = some nan) {a : F32} (ha : score w x = .ok a) : a = nan := by
  simp only [score, Res.bind_eq_ok] at ha
  obtain ⟨v, -, b, hb, h3⟩ := ha
  rw [lget_eq_ok, h] at hb
  obtain rfl := Option.some.inj hb
  rw [← Res.ok.inj h3, add_nan]

theorem dotLoop_zero {w : List F32} {x : SVec F32} (hf : ∀ p ∈ x, Fl p.2) (h : ∀ p ∈ x, p.1 < w.length → w[p.1]? = some 0) {a : F32}
    (ha : dotLoop (· * ·) w x 0 = .ok a) : a = 0 := by
  induction x with
  | nil => exact (Res.ok.inj ha).symm
  | cons p x ih =>
    obtain ⟨i, y⟩ := p
    simp only [dotLoop, Res.bind_eq_ok] at ha
    obtain ⟨v, h1, h2⟩ := ha
    rw [lget_eq_ok] at h1
    have hi : i < w.length := (List.getElem?_eq_some_iff.1 h1).1
    rw [h (i, y) List.mem_cons_self hi] at h1
    obtain rfl := Option.some.inj h1
    rw [Fl.zero_mul (hf (i, y) List.mem_cons_self), Fl.zero.add_zero] at h2
    exact ih (fun p hp => hf p (List.mem_cons_of_mem _ hp)) (fun p hp => h p (List.mem_cons_of_mem _ hp)) h2

theorem score_zero {w : List F32} {x : SVec F32} (hf : ∀ p ∈ x, Fl p.2) (h0 : w[0]? = some 0)
    (h : ∀ p ∈ x, p.1 < w.length → w[p.1]? = some 0) {a : F32} (ha : score w x = .ok a) : a = 0 := by
  simp only [score, Res.bind_eq_ok] at ha
  obtain ⟨v, h1, b, hb, h3⟩ := ha
  rw [lget_eq_ok, h0] at hb
  obtain rfl := Option.some.inj hb
  rw [← Res.ok.inj h3, dotLoop_zero (fun p hp => hf p (List.mem_of_mem_take hp)) (fun p hp => h p (List.mem_of_mem_take hp)) h1,
    Fl.zero.add_zero]

theorem grow_blank {d n : Nat} {U : List (List F32)} (h : ∀ u ∈ U, ∀ v ∈ u, v = 0) : ∀ u ∈ growSig 0 d n U, ∀ v ∈ u, v = 0 := by
  intro u hu v hv
  obtain ⟨a, ha, rfl⟩ := List.mem_map.1 hu
  rcases List.mem_append.1 hv with h1 | h1
  · exact h a ha v (List.mem_of_mem_take h1)
  · exact (List.mem_replicate.1 h1).2

theorem enter_unseen {G : Alg F32 (List (List F32))} (hg : G.grow = growSig 0) {s : St F32 (List (List F32))} (hu : Unseen s) (x : SVec F32) :
    (enter G s x).t = 1 ∧ ∀ u ∈ (enter G s x).alg, ∀ v ∈ u, v = 0 := by
  simp only [enter, updateDim]
  split
  · refine ⟨by simp [hu.t], ?_⟩
    simp only [hg]
    exact grow_blank hu.sums
  · exact ⟨by simp [hu.t], hu.sums⟩

/-- The first scores when the weights come from blank sums by `f` and `b`. -/
theorem first_scores {c : Cfg F32} {f b : F32 → F32} {s : St F32 (List (List F32))} (hs : Fit c (vecs c.clf) s)
    (h0 : ∀ u ∈ s.alg, ∀ v ∈ u, v = 0) {x : SVec F32} (hx : Good x) {W : List (List F32)} (hW : eachWith (fromDual f b x) s.w s.alg = .ok W)
    {eta : F32} {p : List F32} {pred : Int} (hp : predict c { s with eta := eta, w := W } x = .ok (p, pred)) :
    (b 0 = nan → p.length = c.clf ∧ ∀ v ∈ p, v = nan) ∧
    (b 0 = 0 → f 0 = 0 → (∀ q ∈ x, Fl q.2) → p.length = c.clf ∧ ∀ v ∈ p, v = 0) := by
  obtain ⟨h1, h2⟩ := dual_zero hx.1 hs.dim hs.w hs.alg h0 hW
  simp only [predict, Res.bind_eq_ok] at hp
  obtain ⟨q, h3, l, -, h4⟩ := hp
  obtain ⟨rfl, -⟩ := Prod.mk.inj (Res.ok.inj h4)
  constructor
  · intro hb
    have := scores_all (z := nan) (fun w hw a ha => score_nan (by rw [(h2 w hw).1, hb]) ha) h3
    rw [h1.1] at this
    exact this
  · intro hb hf hfl
    have := scores_all (z := 0) (fun w hw a ha => score_zero hfl (by rw [(h2 w hw).1, hb]) (fun p hp hlt => by
      by_cases hp0 : p.1 = 0
      · rw [hp0, (h2 w hw).1, hb]
      · rw [(h2 w hw).2 p hp hp0 (by rw [h1.2 w hw] at hlt; exact hlt), hf]) ha) h3
    rw [h1.1] at this
    exact this

/-- The functions keep NaN. -/
def KeepsNan [FFun F32] : Prop := FFun.exp (nan : F32) = nan ∧ FFun.log (nan : F32) = nan

theorem lt_nan (a : F32) : (a <? nan) = false := by cases a <;> rfl

theorem nan_lt (a : F32) : (nan <? a) = false := by cases a <;> rfl

theorem softplus_nan (h : KeepsNan) : softplus (nan : F32) = nan := by
  unfold softplus
  rw [lt_nan, nan_lt, h.1, add_nan, h.2]
  rfl

theorem get_nan {p : List F32} (hp : ∀ a ∈ p, a = nan) {i : Int} {a : F32} (h : Loss.get p i = .ok a) : a = nan := by
  unfold Loss.get at h
  split at h
  · rw [lget_eq_ok] at h
    exact hp a (List.mem_of_getElem? h)
  · cases h

theorem falses_nan {p : List F32} (hp : ∀ a ∈ p, a = nan) {label : Int} {fp fn : F32} (h : falses p label = .ok (fp, fn)) : fp = nan := by
  simp only [falses, Res.bind_eq_ok] at h
  obtain ⟨a, h1, h2⟩ := h
  obtain rfl := get_nan hp h1
  rw [← (Prod.mk.inj (Res.ok.inj h2)).1, sub_nan]

theorem nan_div (a : F32) : nan / a = nan := by cases a <;> rfl

theorem nan_sub (a : F32) : nan - a = nan := by cases a <;> rfl

/-- Scores that are all NaN give no positive loss, if the loss looks at the scores. -/
theorem nan_loss {k : Kind} (hk : k ≠ .bool ∧ k ≠ .maxBool ∧ k ≠ .uniBool)
    (hf : k = .logistic ∨ k = .maxLogistic ∨ k = .uniLogistic → KeepsNan) {m v : F32} {label pred : Int} {p g : List F32}
    (hp : ∀ a ∈ p, a = nan) {l m' v' : F32} {g' : List F32} (h : gradient k m none v label p pred g = .ok (l, g', m', v')) :
    (0 <? l) = false := by
  have hl0 : ∀ {a}, lget p 0 = .ok a → a = nan := fun h => by rw [lget_eq_ok] at h; exact hp _ (List.mem_of_getElem? h)
  cases k with
  | bool => exact absurd rfl hk.1
  | maxBool => exact absurd rfl hk.2.1
  | uniBool => exact absurd rfl hk.2.2
  | hinge =>
    simp only [gradient, Res.bind_eq_ok, Res.bind_ok] at h
    obtain ⟨a, h1, g1, h2, h3⟩ := h
    obtain rfl := hl0 h1
    rw [nan_mul, sub_nan] at h3
    rw [← (Prod.mk.inj (Res.ok.inj h3)).1]
    rfl
  | maxHinge =>
    simp only [gradient, Res.bind_eq_ok, Res.bind_ok] at h
    obtain ⟨q, -, a, h1, b, h2, h3⟩ := h
    obtain rfl := get_nan hp h1
    rw [sub_nan, nan_add] at h3
    have e : ((0 : F32) <? fmax 0 nan) = false := rfl
    simp only [e, Bool.false_eq_true, if_false] at h3
    rw [← (Prod.mk.inj (Res.ok.inj h3)).1]
    rfl
  | uniHinge =>
    simp only [gradient, Res.bind_eq_ok] at h
    obtain ⟨⟨fp, fn⟩, h1, a, h2, h3⟩ := h
    dsimp only at h3
    split at h3
    · simp only [Res.bind_eq_ok] at h3
      obtain ⟨g1, -, h4⟩ := h3
      rw [← (Prod.mk.inj (Res.ok.inj h4)).1]
      rfl
    · rw [← (Prod.mk.inj (Res.ok.inj h3)).1]
      rfl
  | logistic =>
    simp only [gradient, Res.bind_eq_ok] at h
    obtain ⟨a, h1, g1, h2, h3⟩ := h
    obtain rfl := hl0 h1
    have e : -(nan : F32) = nan := rfl
    rw [e, nan_mul, softplus_nan (hf (.inl rfl))] at h3
    rw [← (Prod.mk.inj (Res.ok.inj h3)).1]
    rfl
  | maxLogistic =>
    simp only [gradient, Res.bind_eq_ok] at h
    obtain ⟨q, -, a, h1, b, h2, g1, h4, h3⟩ := h
    obtain rfl := get_nan hp h1
    rw [sub_nan, softplus_nan (hf (.inr (.inl rfl)))] at h3
    rw [← (Prod.mk.inj (Res.ok.inj h3)).1]
    rfl
  | uniLogistic =>
    simp only [gradient, Res.bind_eq_ok] at h
    obtain ⟨⟨fp, fn⟩, h1, a, h2, h3⟩ := h
    obtain rfl := get_nan hp h2
    dsimp only at h3
    rw [sub_nan, lt_nan, nan_lt] at h3
    simp only [Bool.false_eq_true, if_false, Res.bind_eq_ok] at h3
    obtain ⟨g1, -, h4⟩ := h3
    have hkn := hf (.inr (.inr rfl))
    rw [hkn.1, add_nan, hkn.2] at h4
    rw [← (Prod.mk.inj (Res.ok.inj h4)).1]
    rfl
  | square =>
    simp only [gradient, Res.bind_eq_ok] at h
    obtain ⟨a, h1, g1, h2, h3⟩ := h
    obtain rfl := hl0 h1
    rw [nan_sub, nan_mul, nan_mul] at h3
    rw [← (Prod.mk.inj (Res.ok.inj h3)).1]
    rfl

end Sol.Olm
