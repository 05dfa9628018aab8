import Verif.Proofs.Novikoff
/-! One update of the algorithms with a scalar step size, in exact arithmetic. -/

set_option linter.unusedSectionVars false
set_option linter.unusedVariables false

namespace Sol.Olm

open Sol.Online Sol.Sparse Sol.Loss Sol.Spec

variable {α A : Type} [Field α] [LinearOrder α] [IsStrictOrderedRing α] [FFun α] [FSqrt α]

/-- What is known about an example that led to an update of a scalar-step algorithm. -/
structure Moved (c : Cfg α) (s s' : St α A) (e : Ex α) (pred : Int) (E : α → α) (p : List α) (l : α) (g : List α) (m : α) : Prop where
  plen : p.length = c.clf
  glen : g.length = c.clf
  label : labelOf c.clf p = .ok pred
  score : ∀ k < c.clf, p.getD k 0 = linear (cell s.w k) e.x + cell s.w k 0
  grad : ∃ g0 vi m' v', g0.length = c.clf ∧ gradient c.kind m none vi e.label p pred g0 = .ok (l, g, m', v')
  rule : if c.lazyUpdate then pred ≠ e.label else 0 < l
  move : ∀ k < c.clf, ∀ i, cell s'.w k i = cell s.w k i - E l * g.getD k 0 * dir c.biasEta0 e.x i
  eta : s'.eta = E l

theorem moved {c : Cfg α} {G : Alg α A} {inv : Nat → A → Prop} {mid : SVec α → Nat → A → Prop} (hG : Safe c G inv mid)
    (hm : Margin G) (hk : Matches c.kind c.clf)
    (E : St α A → SVec α → α → α) (hupd : ∀ c s x l, G.update c s x l = etaStep c { s with eta := E s x l } x)
    (hhand : ∀ c s x, G.handler c s x = none) (x : SVec α)
    {s s' : St α A} (hs : Fit c inv s) {e : Ex α} {r : α} {ev : Event} (hx : Good e.x) (hl : LabelOk c.clf e.label)
    (hh : Happens G c s e r ev s') (hf : ev.fired = true) :
    ∃ p l g st, st.t = s.t + 1 ∧ Moved c s s' e ev.pred (fun l => E st e.x l) p l g (costMargin c e.label s.margin) := by
  obtain ⟨p, l, g, m, v, s2, h1, h2, h3, h4, n, rfl⟩ := fired hm hh hf
  have hfe : Fit c (none' A) (enter G s e.x) := enter_fit hs e.x
  obtain ⟨hp, hlab⟩ := predict_eq hfe hx.1 h1
  have hpl : p.length = c.clf := by rw [hp, List.length_map, hfe.w.1]
  have hc : 1 ≤ c.clf := by
    unfold Matches at hk
    split at hk <;> omega
  obtain ⟨⟨p', pr'⟩, hh1, hh2, hr⟩ := gives_predict (s := enter G s e.x) hc hx.1 hfe.dim hfe.w
  rw [h1] at hh1
  obtain ⟨rfl, rfl⟩ := Prod.mk.inj (Res.ok.inj hh1)
  rw [hhand] at h2
  have hgl : g.length = c.clf := gradient_length hk hpl hfe.g hl hr h2
  have hmar : (enter G s e.x).margin = s.margin := by simp only [enter, updateDim]; split <;> rfl
  have htt : (enter G s e.x).t = s.t + 1 := by simp only [enter, updateDim]; split <;> rfl
  rw [hmar] at h2
  rw [hupd] at h4
  generalize hst : ({ enter G s e.x with g := g, margin := m, vi := v, upd := (enter G s e.x).upd + 1 } : St α A) = st at h4
  have hdim : Sparse.dim e.x ≤ st.dim := by
    rw [← hst]
    simp only
    rw [enter_dim]
    omega
  have hfe' : Fit c (none' A) { st with eta := E st e.x l } := by
    rw [← hst]
    exact ⟨hfe.dim, hfe.w, hgl, trivial⟩
  obtain ⟨w', h5, -, h6⟩ := etaStep_cell hfe' hx hdim
  rw [h5] at h4
  obtain rfl := Res.ok.inj h4
  refine ⟨p, l, g, st, by rw [← hst]; exact htt, hpl, hgl, hlab, ?_, ⟨_, _, _, _, hfe.g, h2⟩, ?_, ?_, rfl⟩
  · intro k hk'
    rw [predict_get hfe hx.1 h1 k hk']
    have : ∀ i, cell (enter G s e.x).w k i = cell s.w k i := fun i => enter_cell hs e.x k i hk'
    rw [funext this]
  · split at h3
    · rename_i hz; rw [if_pos hz]; exact h3
    · rename_i hz; rw [if_neg hz]; simpa using h3
  · intro k hk' i
    rw [← enter_cell (G := G) hs e.x k i hk']
    have := h6 k hk' i
    simp only at this
    simp only
    rw [this, ← hst]

/-- The score after a step in the direction of the example. -/
theorem score_after {x : SVec α} (hx : Ascending x) (h1 : ∀ p ∈ x, 1 ≤ p.1) (b t : α) (w w' : Nat → α)
    (h : ∀ i, w' i = w i - t * dir b x i) :
    linear w' x + w' 0 = linear w x + w 0 - t * (sqnorm x + b) := by
  have h0 : feat x 0 = 0 := feat_eq_zero fun p hp => by have := h1 p hp; omega
  have h2 : ∀ y : SVec α, (∀ p ∈ y, 1 ≤ p.1) → linear w' y = linear w y - t * linear (feat x) y := by
    intro y hy
    unfold linear
    induction y with
    | nil => simp
    | cons p y ih =>
      have hp := hy p List.mem_cons_self
      simp only [List.map_cons, List.sum_cons]
      rw [ih fun q hq => hy q (List.mem_cons_of_mem _ hq), h p.1]
      simp only [dir, show p.1 ≠ 0 by omega, if_false, add_zero]
      ring
  rw [h2 x h1, h 0, sqnorm_linear hx]
  simp only [dir, h0, if_true, zero_add]
  ring

theorem sqnorm_nonneg (x : SVec α) : 0 ≤ sqnorm x := List.sum_nonneg (by
  intro a ha
  obtain ⟨p, -, rfl⟩ := List.mem_map.1 ha
  exact mul_self_nonneg _)

/-- The reported loss and the gradient of the hinge loss. -/
theorem hinge_grad {m vi l m' v' : α} {label pl : Int} {p g g' : List α} (hp : p.length = 1) (hg : g.length = 1)
    (h : gradient .hinge m none vi label p pl g = .ok (l, g', m', v')) :
    l = max 0 (m - p.getD 0 0 * (label : α)) ∧ g'.getD 0 0 = if 0 < l then -(label : α) else 0 := by
  obtain ⟨a, rfl⟩ := List.length_eq_one_iff.1 hp
  obtain ⟨b, rfl⟩ := List.length_eq_one_iff.1 hg
  simp only [gradient, lget_ok (w := [a]) (i := 0) (by simp), lset_ok (w := [b]) (i := 0) _ (by simp), Res.bind_ok,
    Res.ok.injEq, Prod.mk.injEq] at h
  obtain ⟨rfl, rfl, -⟩ := h
  constructor
  · simp only [fmax, List.getElem_cons_zero, List.getD_cons_zero]
    split
    · rename_i h; simp at h; rw [max_eq_right (by linarith)]
    · rename_i h; simp at h; rw [max_eq_left (by linarith)]
  · simp only [List.set_cons_zero, List.getD_cons_zero, flt_iff, Int.cast_neg]

/-- The reported loss and the gradient of the max-score hinge loss. -/
theorem maxHinge_grad {n y : Nat} {m vi l m' v' : α} {pl : Int} {p g g' : List α} (hn : 2 ≤ n) (hp : p.length = n)
    (hg : g.length = n) (hy : y < n) (hpl : labelOf n p = .ok pl) (ha : ∀ k < n, FFun.lowest < p.getD k 0)
    (h : gradient .maxHinge m none vi (y : Int) p pl g = .ok (l, g', m', v')) :
    ∃ q < n, q ≠ y ∧ (∀ k < n, k ≠ y → p.getD k 0 ≤ p.getD q 0) ∧ l = max 0 (m - p.getD y 0 + p.getD q 0) ∧
      (0 < l → ∀ k, g'.getD k 0 = if k = y then -1 else if k = q then 1 else 0) := by
  have e : ∀ j (hj : j < p.length), p.getD j 0 = p[j] := fun j hj => by simp [List.getD_eq_getElem?_getD, hj]
  have hab : Above p := by
    intro v hv
    obtain ⟨k, hk, rfl⟩ := List.mem_iff_getElem.1 hv
    rw [← e k hk]
    exact ha k (by omega)
  have hpl' : pl = maxElement p := by
    unfold labelOf at hpl
    rw [if_neg (by omega)] at hpl
    exact (Res.ok.inj hpl).symm
  obtain ⟨q, h1, h2⟩ := rival_spec p y (by omega) (by omega) hab pl hpl'
  have hq := h2.lt
  have hyp : y < p.length := by omega
  refine ⟨q, by omega, h2.ne, fun k hk hne => ?_, ?_⟩
  · have hkp : k < p.length := by omega
    rw [e k hkp, e q hq]
    exact h2.best k _ _ hne (List.getElem?_eq_getElem hkp) (List.getElem?_eq_getElem hq)
  · rw [e y hyp, e q hq]
    simp only [gradient, h1, Res.bind_ok, get_nat p y hyp, get_nat p q hq] at h
    have hmax : fmax 0 (m - p[y] + p[q]) = max 0 (m - p[y] + p[q]) := by
      simp only [fmax]
      split
      · rename_i h; simp at h; rw [max_eq_right (by linarith)]
      · rename_i h; simp at h; rw [max_eq_left (by linarith)]
    rw [hmax] at h
    split at h
    · obtain ⟨g2, h3, h4⟩ := Res.bind_eq_ok.1 h
      simp only [Res.ok.injEq, Prod.mk.injEq] at h4
      obtain ⟨rfl, rfl, -⟩ := h4
      exact ⟨rfl, fun _ => pairGrad_get hg (by omega) hy h2.ne h3⟩
    · rename_i hz
      simp only [Res.ok.injEq, Prod.mk.injEq] at h
      obtain ⟨rfl, -⟩ := h
      exact ⟨rfl, fun h0 => absurd (by simpa using h0) hz⟩

end Sol.Olm
