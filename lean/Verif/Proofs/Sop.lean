import Verif.Spec.Sop
import Verif.Proofs.DualRegret
import Verif.Proofs.Novikoff
import Mathlib.Analysis.SpecialFunctions.Log.Deriv
import Mathlib.Algebra.Order.BigOperators.Ring.Finset
/-! The mistake bound of the second order perceptron. -/

set_option linter.unusedSectionVars false

namespace Sol.Olm

open Sol.Online Sol.Sparse Sol.Loss Sol.Spec

section
variable {α A : Type} [Zero α] [One α] [Add α] [Sub α] [Mul α] [Div α] [Neg α] [FCmp α] [IntCast α] [FFun α] [FSqrt α]

/-- One example of an algorithm that prepares its weights. -/
theorem prep_happens {c : Cfg α} {G : Alg α A} (hb : ∀ s x, G.beginIter s x = .ok s) (he : ∀ s x, G.endIter s x = .ok s)
    (hhand : ∀ c s x, G.handler c s x = none) {s s' : St α A} {e : Ex α} {r : α} {ev : Event} (hh : Happens G c s e r ev s') :
    ∃ s1 p, G.prep c (enter G s e.x) e.x = .ok s1 ∧ predict c s1 e.x = .ok (p, ev.pred) ∧ skipped c p ev.pred r = .ok ev.skip ∧
      (ev.fired = false → ∃ g m v n t, s' = { s1 with g := g, margin := m, vi := v, err := n, t := t }) ∧
      (ev.fired = true → ∃ l g m v s2 n,
        gradient c.kind (costMargin c e.label s1.margin) none s1.vi e.label p ev.pred s1.g = .ok (l, g, m, v) ∧
        (if c.lazyUpdate then ev.pred ≠ e.label else (0 <? l) = true) ∧
        G.update c { s1 with g := g, margin := m, vi := v, upd := s1.upd + 1 } e.x l = .ok s2 ∧ s' = { s2 with err := n }) := by
  obtain ⟨s0, s1, p, h0, h1, h2, h3, h4, h5⟩ := hh
  rw [hb] at h0
  obtain rfl := Res.ok.inj h0
  rw [hhand] at h4
  refine ⟨s1, p, h1, h2, h3, fun hf => ?_, fun hf => ?_⟩
  · simp only [trainOne, iterate, hb, h1, Res.bind_ok, h2, h3] at h5
    cases hsk : ev.skip with
    | true =>
      simp only [hsk, if_true, Res.bind_ok, Res.ok.injEq] at h5
      rw [← h5]
      split
      · exact ⟨_, _, _, _, _, rfl⟩
      · exact ⟨s1.g, s1.margin, s1.vi, s1.err, _, rfl⟩
    | false =>
      simp only [hsk, Bool.false_eq_true, if_false] at h5
      obtain ⟨⟨s2, pred⟩, h6, h7⟩ := Res.bind_eq_ok.1 h5
      obtain ⟨s3, h8, h9⟩ := Res.bind_eq_ok.1 h6
      simp only [Res.ok.injEq, Prod.mk.injEq] at h9
      obtain ⟨rfl, rfl⟩ := h9
      simp only [learn, hhand] at h8
      obtain ⟨⟨l, g, m, v⟩, h10, h11⟩ := Res.bind_eq_ok.1 h8
      obtain ⟨s4, h12, h13⟩ := Res.bind_eq_ok.1 h11
      rw [he] at h13
      obtain rfl := Res.ok.inj h13
      have hnf : fires c ev.pred e.label l = false := by
        by_contra hcon
        have : ev.fired = true := h4.2 ⟨hsk, l, g, m, v, h10, by
          simp only [Bool.not_eq_false] at hcon
          unfold fires at hcon
          split at hcon
          · rename_i hz; simpa [hz] using hcon
          · rename_i hz; simpa [hz] using hcon⟩
        simp [hf] at this
      simp only [maybeUpdate, hnf, Bool.false_eq_true, if_false, Res.ok.injEq] at h12
      rw [← Res.ok.inj h7, ← h12]
      split
      · exact ⟨g, m, v, _, _, rfl⟩
      · exact ⟨g, m, v, s1.err, s1.t, rfl⟩
  · obtain ⟨hsk, l, g, m, v, hg, hr⟩ := h4.1 hf
    have hfi : fires c ev.pred e.label l = true := by
      unfold fires
      split
      · rename_i hz; simpa [hz] using hr
      · rename_i hz; simpa [hz] using hr
    simp only [trainOne, iterate, hb, h1, Res.bind_ok, h2, h3, hsk, Bool.false_eq_true, if_false] at h5
    obtain ⟨⟨s2, pred⟩, h6, h7⟩ := Res.bind_eq_ok.1 h5
    obtain ⟨s3, h8, h9⟩ := Res.bind_eq_ok.1 h6
    simp only [Res.ok.injEq, Prod.mk.injEq] at h9
    obtain ⟨rfl, rfl⟩ := h9
    simp only [learn, hhand, hg, Res.bind_ok, maybeUpdate, hfi, if_true, he] at h8
    obtain ⟨s4, h10, h11⟩ := Res.bind_eq_ok.1 h8
    obtain rfl := Res.ok.inj h11
    simp only [Res.ok.injEq] at h7
    rw [← h7]
    by_cases hpr : ev.pred ≠ e.label
    · exact ⟨l, g, m, v, s4, _, hg, hr, h10, if_pos hpr⟩
    · exact ⟨l, g, m, v, s4, s4.err, hg, hr, h10, if_neg hpr⟩

end

section
variable {α : Type} [Field α] [LinearOrder α] [IsStrictOrderedRing α] [FFun α] [FSqrt α]

theorem sop_prep_cell {c : Cfg α} {a : α} {s s' : St α (SopSt α)} (hf : Fit c (sopInv c.clf) s) {x : SVec α} (hx : Good x)
    (h1 : ∀ p ∈ x, 1 ≤ p.1) (hd : Sparse.dim x ≤ s.dim) (h : (sop a).prep c s x = .ok s') :
    ∃ w, s' = { s with w := w } ∧ Vecs c.clf s.dim w ∧ ∀ k < c.clf, cell w k 0 = cell s.w k 0 ∧
      linear (cell w k) x = linear (fun i => cell s.alg.v k i / (a + coord s.alg.X i + feat x i ^ 2)) x := by
  have hlw : ∀ v ∈ s.w, v.length = s.dim := hf.w.2
  have hlv : ∀ v ∈ s.alg.v, v.length = s.dim := hf.alg.2.2
  have hlX : s.alg.X.length = s.dim := hf.alg.1
  have hd1 := hf.dim
  simp only [sop] at h
  rw [eachWith_closed (fun w v => w.mapIdx (touch x fun i _ y => v.getD i 0 / (a + s.alg.X.getD i 0 + y * y))) _ _
    (hf.w.1.trans hf.alg.2.1.symm) fun w hw v hv => by
      rw [calcExp_closed (fun i _ y => v.getD i 0 / (a + s.alg.X.getD i 0 + y * y)) hx.1 fun w' i y b _ hi _ _ => by
        have h2 : i < v.length := by rw [hlv v hv, ← hlw w hw]; exact hi
        have h3 : i < s.alg.X.length := by rw [hlX, ← hlw w hw]; exact hi
        rw [lget_ok h2, Res.bind_ok, lget_ok h3, Res.bind_ok]
        simp [List.getD_eq_getElem?_getD, h2, h3]], Res.bind_ok] at h
  refine ⟨_, (Res.ok.inj h).symm, ⟨by simp [hf.w.1, hf.alg.2.1], fun v hv => ?_⟩, fun k hk => ?_⟩
  · obtain ⟨i, hi, rfl⟩ := List.getElem_of_mem hv
    simp only [List.getElem_zipWith, List.length_mapIdx]
    exact hlw _ (List.getElem_mem _)
  · have hvl : (s.w.getD k []).length = s.dim := hlw _ (cell_mem hf.w.1 hk)
    constructor
    · rw [cell_with _ hf.w.1 hf.alg.2.1 k 0 hk, coord_mapIdx _ (by rw [hvl]; exact hd1)]
      have : featureAt x 0 = none := by
        cases hz : featureAt x 0 with
        | none => rfl
        | some y => have := h1 _ (featureAt_some hz); simp at this
      simp only [touch, this]
      rfl
    · unfold linear
      congr 1
      refine List.map_congr_left fun p hp => ?_
      have hi : p.1 < s.dim := lt_of_lt_of_le (hx.lt_dim p hp) hd
      rw [cell_with _ hf.w.1 hf.alg.2.1 k p.1 hk, coord_mapIdx _ (by rw [hvl]; exact hi)]
      simp only [touch, featureAt_mem hx.1 (show (p.1, p.2) ∈ x from hp), feat_of_mem hx.1 (show (p.1, p.2) ∈ x from hp), cell, coord, sq]

theorem sop_update_cell {c : Cfg α} {a : α} {s s' : St α (SopSt α)} (hf : Fit c (sopInv c.clf) s) {x : SVec α} (hx : Good x)
    (hd : Sparse.dim x ≤ s.dim) {l : α} (h : (sop a).update c s x l = .ok s') :
    s'.w = s.w ∧ (∀ k < c.clf, ∀ i, cell s'.alg.v k i = cell s.alg.v k i - s.g.getD k 0 * dir c.biasEta0 x i) ∧
      ∀ i, coord s'.alg.X i = coord s.alg.X i + feat x i ^ 2 := by
  have hlv : ∀ v ∈ s.alg.v, v.length = s.dim := hf.alg.2.2
  have hlX : s.alg.X.length = s.dim := hf.alg.1
  simp only [sop] at h
  rw [each1_closed _ _ _ (by rw [hf.g, hf.alg.2.1]) fun g v hv => step_closed _ _ hx.1 (by rw [hlv v hv]; exact hf.dim),
    Res.bind_ok, calcExp_closed (fun _ _ y => y * y) hx.1 (fun _ _ _ _ _ _ _ _ => rfl), Res.bind_ok] at h
  obtain rfl := Res.ok.inj h
  refine ⟨rfl, fun k hk i => ?_, fun i => ?_⟩
  · show cell (List.zipWith _ s.g s.alg.v) k i = _
    rw [cell_zipWith _ hf.g hf.alg.2.1 k i hk]
    have hv := hlv _ (cell_mem hf.alg.2.1 hk)
    by_cases hg : s.g.getD k 0 = 0
    · rw [if_pos (by simpa using hg), hg]
      simp [cell]
    · rw [if_neg (by simpa using hg)]
      have := coord_step (s.g.getD k 0) c.biasEta0 (x := x) (w := s.alg.v.getD k [])
        (by rw [hv]; exact hf.dim) (by rw [hv]; exact fun p hp => lt_of_lt_of_le (hx.lt_dim p hp) hd) i
      simp only [biasEta, mul_comm c.biasEta0, one_mul]
      exact this
  · show coord (s.alg.X.mapIdx _) i = _
    by_cases hi : i < s.alg.X.length
    · rw [coord_mapIdx _ hi]
      simp only [touch, feat]
      cases featureAt x i <;> simp [sq]
    · rw [coord_eq_zero (by simpa using hi), coord_eq_zero (by omega), feat_eq_zero fun p hp h => hi (by
        rw [← h, hlX]; exact lt_of_lt_of_le (hx.lt_dim p hp) hd)]
      simp

theorem sop_enter {c : Cfg α} {a : α} {s : St α (SopSt α)} (hs : Fit c (sopInv c.clf) s) (x : SVec α) :
    Fit c (sopInv c.clf) (enter (sop a) s x) ∧ Sparse.dim x ≤ (enter (sop a) s x).dim ∧
      (∀ k < c.clf, ∀ i, cell (enter (sop a) s x).w k i = cell s.w k i) ∧
      (∀ k < c.clf, ∀ i, cell (enter (sop a) s x).alg.v k i = cell s.alg.v k i) ∧
      ∀ i, coord (enter (sop a) s x).alg.X i = coord s.alg.X i := by
  refine ⟨fit_enter x hs fun d n t h ht => ⟨growTo_length d n 0 _ ht.1 (by omega), ht.2.grow 0 (by omega)⟩, by rw [enter_dim]; omega,
    fun k hk i => enter_cell hs x k i hk, fun k hk i => ?_, fun i => ?_⟩
  · simp only [enter, updateDim]
    split
    · exact grow_cell hs.alg.2 k i hk
    · rfl
  · simp only [enter, updateDim]
    split
    · exact coord_grow _ _ _ hs.alg.1 i
    · rfl

/-- One example of the second order perceptron. -/
theorem sop_happens {c : Cfg α} {a : α} (hk : Matches c.kind c.clf) {s s' : St α (SopSt α)} (hs : Fit c (sopInv c.clf) s) {e : Ex α} {r : α}
    {ev : Event} (hx : Good e.x) (h1 : ∀ p ∈ e.x, 1 ≤ p.1) (hl : LabelOk c.clf e.label) (hh : Happens (sop a) c s e r ev s') :
    ∃ p : List α, p.length = c.clf ∧ labelOf c.clf p = .ok ev.pred ∧ skipped c p ev.pred r = .ok ev.skip ∧
      (∀ k < c.clf, p.getD k 0 = linear (fun i => cell s.alg.v k i / (a + coord s.alg.X i + feat e.x i ^ 2)) e.x + cell s.w k 0) ∧
      (∀ k < c.clf, cell s'.w k 0 = cell s.w k 0) ∧
      (ev.fired = false → (∀ k < c.clf, ∀ i, cell s'.alg.v k i = cell s.alg.v k i) ∧ ∀ i, coord s'.alg.X i = coord s.alg.X i) ∧
      (ev.fired = true → ∃ l mm vi g0 g m v, g0.length = c.clf ∧
        gradient c.kind mm none vi e.label p ev.pred g0 = .ok (l, g, m, v) ∧
        (if c.lazyUpdate then ev.pred ≠ e.label else 0 < l) ∧
        (∀ k < c.clf, ∀ i, cell s'.alg.v k i = cell s.alg.v k i - g.getD k 0 * dir c.biasEta0 e.x i) ∧
        ∀ i, coord s'.alg.X i = coord s.alg.X i + feat e.x i ^ 2) := by
  obtain ⟨s1, p, q1, q2, q3, q4, q5⟩ := prep_happens (G := sop a) (fun _ _ => rfl) (fun _ _ => rfl) (fun _ _ _ => rfl) hh
  obtain ⟨e1, e2, e3, e4, e5⟩ := sop_enter (a := a) hs e.x
  obtain ⟨w, rfl, hw, hc⟩ := sop_prep_cell e1 hx h1 e2 q1
  have hf1 : Fit c (sopInv c.clf) { enter (sop a) s e.x with w := w } := ⟨e1.dim, hw, e1.g, e1.alg⟩
  obtain ⟨hp, hlab⟩ := predict_eq hf1 hx.1 q2
  have hpl : p.length = c.clf := by rw [hp, List.length_map, hf1.w.1]
  have hclf : 1 ≤ c.clf := by
    unfold Matches at hk
    split at hk <;> omega
  refine ⟨p, hpl, hlab, q3, fun k hk' => ?_, ?_, fun hfi => ?_, fun hfi => ?_⟩
  · rw [predict_get hf1 hx.1 q2 k hk']
    show linear (cell w k) e.x + cell w k 0 = _
    rw [(hc k hk').1, (hc k hk').2, e3 k hk']
    congr 2
    funext i
    rw [e4 k hk', e5]
  · intro k hk'
    rw [← e3 k hk' 0, ← (hc k hk').1]
    cases hfi : ev.fired with
    | false =>
      obtain ⟨g, m, v, n, t, rfl⟩ := q4 hfi
      rfl
    | true =>
      obtain ⟨l, g, m, v, s2, n, h2, h3, h4, rfl⟩ := q5 hfi
      have hgl : g.length = c.clf := by
        obtain ⟨⟨p', pr'⟩, hh1, hh2, hr⟩ := gives_predict (s := { enter (sop a) s e.x with w := w }) hclf hx.1 hf1.dim hf1.w
        rw [q2] at hh1
        obtain ⟨rfl, rfl⟩ := Prod.mk.inj (Res.ok.inj hh1)
        exact gradient_length hk hpl hf1.g hl hr h2
      rw [(sop_update_cell (s := { enter (sop a) s e.x with w := w, g := g, margin := m, vi := v, upd := (enter (sop a) s e.x).upd + 1 })
        ⟨hf1.dim, hf1.w, hgl, hf1.alg⟩ hx e2 h4).1]
  · obtain ⟨g, m, v, n, t, rfl⟩ := q4 hfi
    exact ⟨e4, e5⟩
  · obtain ⟨l, g, m, v, s2, n, h2, h3, h4, rfl⟩ := q5 hfi
    have hgl : g.length = c.clf := by
      obtain ⟨⟨p', pr'⟩, hh1, hh2, hr⟩ := gives_predict (s := { enter (sop a) s e.x with w := w }) hclf hx.1 hf1.dim hf1.w
      rw [q2] at hh1
      obtain ⟨rfl, rfl⟩ := Prod.mk.inj (Res.ok.inj hh1)
      exact gradient_length hk hpl hf1.g hl hr h2
    obtain ⟨-, u1, u2⟩ := sop_update_cell (s := { enter (sop a) s e.x with w := w, g := g, margin := m, vi := v, upd := (enter (sop a) s e.x).upd + 1 })
        ⟨hf1.dim, hf1.w, hgl, hf1.alg⟩ hx e2 h4
    refine ⟨l, _, _, _, g, m, v, hf1.g, h2, ?_, fun k hk' i => ?_, fun i => ?_⟩
    · split at h3
      · rename_i hz; rw [if_pos hz]; exact h3
      · rename_i hz; rw [if_neg hz]; simpa using h3
    · rw [← e4 k hk' i]; exact u1 k hk' i
    · rw [← e5 i]; exact u2 i

end

/-! ### The potential -/

theorem ratio_le_log {A x : ℝ} (hA : 0 < A) : x ^ 2 / (A + x ^ 2) ≤ Real.log (A + x ^ 2) - Real.log A := by
  have hp : 0 < A + x ^ 2 := by positivity
  rw [← Real.log_div hp.ne' hA.ne']
  refine le_trans (le_of_eq ?_) (Real.one_sub_inv_le_log_of_pos (div_pos hp hA))
  rw [inv_div]
  field_simp
  ring

/-- How an update changes the potential. -/
theorem second_order_step (n : Nat) (S : Finset Nat) (B x : Nat → ℝ) (v : Nat → Nat → ℝ) (g : Nat → ℝ) (Γ : ℝ) (hB : ∀ i ∈ S, 0 < B i)
    (hw : 0 ≤ ∑ k ∈ Finset.range n, g k * ∑ i ∈ S, v k i / (B i + x i ^ 2) * x i) (hs : ∑ k ∈ Finset.range n, g k * g k ≤ Γ) :
    ∑ k ∈ Finset.range n, ∑ i ∈ S, (v k i - g k * x i) ^ 2 / (B i + x i ^ 2) ≤
      ∑ k ∈ Finset.range n, ∑ i ∈ S, v k i ^ 2 / B i + Γ * ∑ i ∈ S, (Real.log (B i + x i ^ 2) - Real.log (B i)) := by
  have h1 : ∑ k ∈ Finset.range n, ∑ i ∈ S, (v k i - g k * x i) ^ 2 / (B i + x i ^ 2) =
      ∑ k ∈ Finset.range n, ∑ i ∈ S, v k i ^ 2 / (B i + x i ^ 2)
        - 2 * ∑ k ∈ Finset.range n, g k * ∑ i ∈ S, v k i / (B i + x i ^ 2) * x i
        + (∑ k ∈ Finset.range n, g k * g k) * ∑ i ∈ S, x i ^ 2 / (B i + x i ^ 2) := by
    rw [Finset.mul_sum, Finset.sum_mul, ← Finset.sum_sub_distrib, ← Finset.sum_add_distrib]
    refine Finset.sum_congr rfl fun k _ => ?_
    rw [Finset.mul_sum, Finset.mul_sum, Finset.mul_sum, ← Finset.sum_sub_distrib, ← Finset.sum_add_distrib]
    exact Finset.sum_congr rfl fun i _ => by ring
  have h2 : ∑ k ∈ Finset.range n, ∑ i ∈ S, v k i ^ 2 / (B i + x i ^ 2) ≤ ∑ k ∈ Finset.range n, ∑ i ∈ S, v k i ^ 2 / B i :=
    Finset.sum_le_sum fun k _ => Finset.sum_le_sum fun i hi =>
      div_le_div_of_nonneg_left (sq_nonneg _) (hB i hi) (by have := sq_nonneg (x i); linarith)
  have h3 : 0 ≤ ∑ i ∈ S, x i ^ 2 / (B i + x i ^ 2) :=
    Finset.sum_nonneg fun i hi => div_nonneg (sq_nonneg _) (by have := sq_nonneg (x i); have := hB i hi; linarith)
  have h4 : ∑ i ∈ S, x i ^ 2 / (B i + x i ^ 2) ≤ ∑ i ∈ S, (Real.log (B i + x i ^ 2) - Real.log (B i)) :=
    Finset.sum_le_sum fun i hi => ratio_le_log (hB i hi)
  have h5 : 0 ≤ Γ := le_trans (Finset.sum_nonneg fun k _ => mul_self_nonneg (g k)) hs
  have h6 := mul_le_mul_of_nonneg_right hs h3
  have h7 := mul_le_mul_of_nonneg_left h4 h5
  rw [h1]
  linarith

/-- The inequality of Cauchy and Schwarz with weights. -/
theorem cauchy_weighted (n : Nat) (S : Finset Nat) (B : Nat → ℝ) (U v : Nat → Nat → ℝ) (hB : ∀ i ∈ S, 0 < B i) :
    ∑ k ∈ Finset.range n, ∑ i ∈ S, U k i * v k i ≤
      √(∑ k ∈ Finset.range n, ∑ i ∈ S, U k i ^ 2 * B i) * √(∑ k ∈ Finset.range n, ∑ i ∈ S, v k i ^ 2 / B i) := by
  have h := Real.sum_mul_le_sqrt_mul_sqrt (Finset.range n ×ˢ S) (fun q => U q.1 q.2 * √(B q.2)) (fun q => v q.1 q.2 / √(B q.2))
  rw [Finset.sum_product, Finset.sum_product, Finset.sum_product] at h
  refine le_trans (le_of_eq ?_) (le_trans h (le_of_eq ?_))
  · refine Finset.sum_congr rfl fun k _ => Finset.sum_congr rfl fun i hi => ?_
    have := (Real.sqrt_pos.2 (hB i hi)).ne'
    field_simp
  · congr 2
    · refine Finset.sum_congr rfl fun k _ => Finset.sum_congr rfl fun i hi => ?_
      rw [mul_pow, Real.sq_sqrt (hB i hi).le]
    · refine Finset.sum_congr rfl fun k _ => Finset.sum_congr rfl fun i hi => ?_
      rw [div_pow, Real.sq_sqrt (hB i hi).le]

section
variable [FFun ℝ] [FSqrt ℝ]

theorem linear_Ico {x : SVec ℝ} (hx : Ascending x) {D : Nat} (hD : ∀ p ∈ x, 1 ≤ p.1 ∧ p.1 < D) (u : Nat → ℝ) :
    linear u x = ∑ i ∈ Finset.Ico 1 D, u i * feat x i := by
  rw [linear_sum hx (fun p hp => (hD p hp).2)]
  refine (Finset.sum_subset (fun i hi => Finset.mem_range.2 (Finset.mem_Ico.1 hi).2) fun i hi hn => ?_).symm
  rw [feat_eq_zero (i := i) fun p hp h => hn (Finset.mem_Ico.2 (h ▸ hD p hp)), mul_zero]

/-- What a training of the second order perceptron does to its potentials. -/
theorem sop_trace {c : Cfg ℝ} {a : ℝ} (ha : 0 < a) (hk : Matches c.kind c.clf) (Lab : Int → Prop) (Sep : Int → (Nat → ℝ) → ℝ → Prop)
    (L : Ex ℝ → (Nat → ℝ) → ℝ) (Γ γ : ℝ) (D : Nat) (U : Nat → Nat → ℝ) (hΓ : 0 ≤ Γ)
    (hpull : ∀ label p pred m vi g l g' m' v', p.length = c.clf → g.length = c.clf → labelOf c.clf p = .ok pred →
      Lab label → gradient c.kind m none vi label p pred g = .ok (l, g', m', v') →
      (if c.lazyUpdate then pred ≠ label else 0 < l) → Pull c.clf (fun k => p.getD k 0) Γ (Sep label) (fun k => g'.getD k 0))
    (hsep : ∀ (e : Ex ℝ) v, Lab e.label → Sep e.label v (γ - L e v)) {s s' : St ℝ (SopSt ℝ)} {l : List (Ex ℝ × ℝ)} {evs : List Event}
    (ht : Trace (sop a) c s l evs s') (hl : ∀ q ∈ l, Good q.1.x ∧ (∀ p ∈ q.1.x, 1 ≤ p.1 ∧ p.1 < D) ∧ LabelOk c.clf q.1.label ∧ Lab q.1.label)
    (hs : Fit c (sopInv c.clf) s) (h0 : ∀ k < c.clf, cell s.w k 0 = 0) (hX : ∀ i, 0 ≤ coord s.alg.X i) :
    (∀ i, coord s'.alg.X i = coord s.alg.X i + squares (learnt l evs) i) ∧
    ∑ k ∈ Finset.range c.clf, ∑ i ∈ Finset.Ico 1 D, U k i * cell s.alg.v k i
        + ((learnt l evs).map fun e => γ - L e (fun k => linear (U k) e.x)).sum ≤
      ∑ k ∈ Finset.range c.clf, ∑ i ∈ Finset.Ico 1 D, U k i * cell s'.alg.v k i ∧
    ∑ k ∈ Finset.range c.clf, ∑ i ∈ Finset.Ico 1 D, cell s'.alg.v k i ^ 2 / (a + coord s'.alg.X i) ≤
      ∑ k ∈ Finset.range c.clf, ∑ i ∈ Finset.Ico 1 D, cell s.alg.v k i ^ 2 / (a + coord s.alg.X i)
        + Γ * ∑ i ∈ Finset.Ico 1 D, (Real.log (a + coord s'.alg.X i) - Real.log (a + coord s.alg.X i)) := by
  induction ht with
  | nil s => simp [learnt, squares]
  | @cons s s1 s2 e r ev l evs hh ht ih =>
    obtain ⟨hx, hx1, hle, hlab⟩ := hl (e, r) (by simp)
    obtain ⟨p, hpl, hpred, -, hsc, hw, hno, hyes⟩ := sop_happens hk hs hx (fun p hp => (hx1 p hp).1) hle hh
    have hs1 := fit_happens (safe_sop c a) hk hs hx hle hh
    cases hfi : ev.fired with
    | false =>
      obtain ⟨hv, hc⟩ := hno hfi
      obtain ⟨j1, j2, j3⟩ := ih (fun q hq => hl q (List.mem_cons_of_mem _ hq)) hs1 (fun k hk' => by rw [hw k hk', h0 k hk']) (fun i => by rw [hc]; exact hX i)
      simp only [learnt, hfi, Bool.false_eq_true, if_false]
      simp only [hc] at j1 j3
      refine ⟨j1, le_trans (le_of_eq ?_) j2, j3.trans (le_of_eq ?_)⟩
      · congr 1
        exact Finset.sum_congr rfl fun k hk' => Finset.sum_congr rfl fun i _ => by rw [hv k (Finset.mem_range.1 hk')]
      · congr 1
        exact Finset.sum_congr rfl fun k hk' => Finset.sum_congr rfl fun i _ => by rw [hv k (Finset.mem_range.1 hk')]
    | true =>
      obtain ⟨ll, mm, vi, g0, g, m, v, hg0, hgr, hrule, hv, hc⟩ := hyes hfi
      have hP := hpull _ _ _ _ _ _ _ _ _ _ hpl hg0 hpred hlab hgr hrule
      obtain ⟨j1, j2, j3⟩ := ih (fun q hq => hl q (List.mem_cons_of_mem _ hq)) hs1 (fun k hk' => by rw [hw k hk', h0 k hk'])
        (fun i => by rw [hc]; have := hX i; positivity)
      have hvI : ∀ k ∈ Finset.range c.clf, ∀ i ∈ Finset.Ico 1 D, cell s1.alg.v k i = cell s.alg.v k i - g.getD k 0 * feat e.x i := by
        intro k hk' i hi
        rw [hv k (Finset.mem_range.1 hk')]
        unfold dir
        rw [if_neg (by have := (Finset.mem_Ico.1 hi).1; omega), add_zero]
      simp only [learnt, hfi, if_true]
      refine ⟨fun i => ?_, ?_, ?_⟩
      · rw [j1, hc]
        simp only [squares, List.map_cons, List.sum_cons]
        ring
      · refine le_trans ?_ j2
        rw [List.map_cons, List.sum_cons, ← add_assoc]
        gcongr
        have hgain := hP.gain _ _ (hsep e (fun k => linear (U k) e.x) hlab)
        have : ∑ k ∈ Finset.range c.clf, ∑ i ∈ Finset.Ico 1 D, U k i * cell s1.alg.v k i =
            ∑ k ∈ Finset.range c.clf, ∑ i ∈ Finset.Ico 1 D, U k i * cell s.alg.v k i
              - ∑ k ∈ Finset.range c.clf, g.getD k 0 * linear (U k) e.x := by
          rw [← Finset.sum_sub_distrib]
          refine Finset.sum_congr rfl fun k hk' => ?_
          rw [linear_Ico hx.1 hx1, Finset.mul_sum, ← Finset.sum_sub_distrib]
          refine Finset.sum_congr rfl fun i hi => ?_
          rw [hvI k hk' i hi]
          ring
        rw [this]
        linarith
      · refine j3.trans ?_
        have hst := second_order_step c.clf (Finset.Ico 1 D) (fun i => a + coord s.alg.X i) (feat e.x) (cell s.alg.v) (fun k => g.getD k 0) Γ
          (fun i _ => by have := hX i; positivity) (by
            refine hP.wrong.trans (le_of_eq (Finset.sum_congr rfl fun k hk' => ?_))
            rw [hsc k (Finset.mem_range.1 hk'), h0 k (Finset.mem_range.1 hk'), add_zero, linear_Ico hx.1 hx1]) hP.size
        have e1 : ∑ k ∈ Finset.range c.clf, ∑ i ∈ Finset.Ico 1 D, cell s1.alg.v k i ^ 2 / (a + coord s1.alg.X i) =
            ∑ k ∈ Finset.range c.clf, ∑ i ∈ Finset.Ico 1 D, (cell s.alg.v k i - g.getD k 0 * feat e.x i) ^ 2 / (a + coord s.alg.X i + feat e.x i ^ 2) :=
          Finset.sum_congr rfl fun k hk' => Finset.sum_congr rfl fun i hi => by rw [hvI k hk' i hi, hc, add_assoc]
        have e2 : ∑ i ∈ Finset.Ico 1 D, (Real.log (a + coord s2.alg.X i) - Real.log (a + coord s.alg.X i)) =
            ∑ i ∈ Finset.Ico 1 D, (Real.log (a + coord s2.alg.X i) - Real.log (a + coord s1.alg.X i))
            + ∑ i ∈ Finset.Ico 1 D, (Real.log (a + coord s.alg.X i + feat e.x i ^ 2) - Real.log (a + coord s.alg.X i)) := by
          rw [← Finset.sum_add_distrib]
          exact Finset.sum_congr rfl fun i _ => by rw [hc i, ← add_assoc]; ring
        rw [e1, e2, mul_add]
        linarith

end

end Sol.Olm
