import Verif.Spec.Confidence
import Verif.Proofs.Eta
import Verif.Proofs.Dual
import Mathlib.Tactic.Set
/-! One update of AROW, CW and ECCW for two classes. -/

set_option linter.unusedSectionVars false

namespace Sol.Olm

open Sol.Online Sol.Sparse Sol.Loss Sol.Spec

section
variable {α : Type} [Field α]

theorem spread_linear {x : SVec α} (hx : Ascending x) (bias : Bool) (σ : Nat → α) :
    spread bias σ x = linear (fun i => σ i * feat x i) x + if bias then σ 0 else 0 := by
  unfold spread linear
  congr 2
  exact List.map_congr_left fun p hp => by dsimp only; rw [feat_of_mem hx (show (p.1, p.2) ∈ x from hp)]; ring

/-- Over all coordinates, the bias being one with value 0 or 1. -/
theorem spread_sum {x : SVec α} (hx : Ascending x) {D : Nat} (hD : ∀ p ∈ x, 1 ≤ p.1 ∧ p.1 < D) (h1 : 1 ≤ D) (b : α)
    (bias : Bool) (hb : (bias = false ∧ b = 0) ∨ (bias = true ∧ b = 1)) (σ : Nat → α) :
    spread bias σ x = ∑ i ∈ Finset.range D, σ i * dir b x i ^ 2 := by
  have h0 : feat x 0 = 0 := feat_eq_zero fun p hp => by have := (hD p hp).1; omega
  rw [spread_linear hx, linear_sum hx fun p hp => (hD p hp).2, Finset.range_eq_Ico, Finset.sum_eq_sum_Ico_succ_bot h1,
    Finset.sum_eq_sum_Ico_succ_bot h1]
  have : ∑ i ∈ Finset.Ico (0 + 1) D, σ i * dir b x i ^ 2 = ∑ i ∈ Finset.Ico (0 + 1) D, σ i * feat x i * feat x i :=
    Finset.sum_congr rfl fun i hi => by
      have := (Finset.mem_Ico.1 hi).1
      unfold dir
      rw [if_neg (by omega)]
      ring
  rw [this]
  unfold dir
  rw [h0]
  rcases hb with ⟨rfl, rfl⟩ | ⟨rfl, rfl⟩ <;> simp <;> ring

theorem score_sum {x : SVec α} (hx : Ascending x) {D : Nat} (hD : ∀ p ∈ x, 1 ≤ p.1 ∧ p.1 < D) (h1 : 1 ≤ D) (z : Nat → α) :
    linear z x + z 0 = ∑ i ∈ Finset.range D, z i * dir 1 x i := by
  have h0 : feat x 0 = 0 := feat_eq_zero fun p hp => by have := (hD p hp).1; omega
  rw [linear_sum hx fun p hp => (hD p hp).2, Finset.range_eq_Ico, Finset.sum_eq_sum_Ico_succ_bot h1,
    Finset.sum_eq_sum_Ico_succ_bot h1]
  have : ∑ i ∈ Finset.Ico (0 + 1) D, z i * dir 1 x i = ∑ i ∈ Finset.Ico (0 + 1) D, z i * feat x i :=
    Finset.sum_congr rfl fun i hi => by
      have := (Finset.mem_Ico.1 hi).1
      unfold dir
      rw [if_neg (by omega)]
      ring
  rw [this]
  unfold dir
  rw [h0]
  simp
  ring

/-- The change of a score between weights whose biases agree if none is learnt. -/
theorem score_change {x : SVec α} (hx : Ascending x) {D : Nat} (hD : ∀ p ∈ x, 1 ≤ p.1 ∧ p.1 < D) (h1 : 1 ≤ D) {b : α}
    (hb : b = 0 ∨ b = 1) (z w : Nat → α) (hz : b = 0 → z 0 = w 0) :
    linear z x + z 0 = linear w x + w 0 + ∑ i ∈ Finset.range D, (z i - w i) * dir b x i := by
  rw [score_sum hx hD h1, score_sum hx hD h1, ← Finset.sum_add_distrib]
  refine Finset.sum_congr rfl fun i _ => ?_
  unfold dir
  by_cases hi : i = 0
  · subst hi
    rcases hb with rfl | rfl
    · rw [hz rfl]; ring
    · simp; ring
  · simp only [if_neg hi]; ring

end

section
variable {α : Type} [Field α] [LinearOrder α] [IsStrictOrderedRing α] [FFun α] [FSqrt α]

theorem dotOp_sq {w : List α} {x : SVec α} (hx : Ascending x) :
    dotOp (fun s y => s * (y * y)) w x = .ok (x.map fun p => coord w p.1 * p.2 ^ 2).sum := by
  unfold dotOp
  rw [dotLoop_ok _ _ _ (take_lt hx _), take_trim x hx]
  congr 1
  have : ∀ (v : α), (x.filter fun p => decide (p.1 < w.length)).foldl (fun v p => v + w.getD p.1 0 * (p.2 * p.2)) v
      = v + (x.map fun p => coord w p.1 * p.2 ^ 2).sum := by
    clear hx
    induction x with
    | nil => intro v; simp
    | cons p x ih =>
      intro v
      by_cases h : p.1 < w.length
      · rw [List.filter_cons_of_pos (by simpa using h), List.foldl_cons, ih]
        simp [coord, add_assoc, sq]
      · rw [List.filter_cons_of_neg (by simpa using h), ih, List.map_cons, List.sum_cons, coord_eq_zero (by omega)]
        simp
  simpa using this 0

theorem conf_one {bias : Bool} {x : SVec α} (hx : Ascending x) {g : α} (hg : g * g = 1) {sig : List α} (hs : 1 ≤ sig.length) :
    confLoop bias x [g] [sig] 0 = .ok (spread bias (coord sig) x) := by
  have hg0 : ¬ g = 0 := fun h => by rw [h] at hg; simp at hg
  simp only [confLoop, confOne]
  rw [if_neg (by simpa using hg0), dotOp_sq hx, Res.bind_ok, hg]
  cases bias
  · simp [spread, confLoop]
  · rw [if_pos rfl, lget_ok hs, Res.bind_ok, Res.bind_ok]
    simp [spread, confLoop, coord_lt hs]

theorem sigStep_coord (k b : α) {x : SVec α} {w sig : List α} (hx : Ascending x) (hl : sig.length = w.length) (h1 : 1 ≤ w.length)
    (hd : ∀ p ∈ x, p.1 < w.length) :
    ∃ w', sigStep k b x w sig = .ok w' ∧ w'.length = w.length ∧
      ∀ i, coord w' i = coord w i - coord sig i * (k * feat x i + if i = 0 then b else 0) := by
  refine ⟨(w.mapIdx (touch x fun i a y => a - k * coord sig i * y)).mapIdx (atZero (· - b * coord sig 0)), ?_, by simp, fun i => ?_⟩
  · unfold sigStep
    rw [calcExp_closed (fun i _ y => k * coord sig i * y) hx fun w' i y a _ hi _ _ => by
        have h2 : i < sig.length := by omega
        rw [lget_ok h2, Res.bind_ok, coord_lt h2],
      Res.bind_ok, lget_ok (by omega : 0 < sig.length), Res.bind_ok, atBias_closed _ (by simpa using h1), coord_lt (by omega : 0 < sig.length)]
  · by_cases hi : i < w.length
    · rw [coord_mapIdx _ (by simpa using hi), coord_mapIdx _ hi]
      simp only [atZero, touch, feat]
      by_cases hi0 : i = 0
      · subst hi0
        cases featureAt x 0 <;> simp only [Option.getD_some, Option.getD_none, if_true] <;> ring
      · cases featureAt x i <;> simp only [Option.getD_some, Option.getD_none, hi0, if_false] <;> ring
    · rw [coord_eq_zero (by simpa using hi), coord_eq_zero (by omega), coord_eq_zero (w := sig) (by omega)]
      ring

theorem cwSig_coord (t : α) {x : SVec α} {sig : List α} (hx : Ascending x) (h1 : 1 ≤ sig.length) (hf : ∀ p ∈ x, 1 ≤ p.1) :
    ∃ sig', cwSig t x sig = .ok sig' ∧ sig'.length = sig.length ∧
      ∀ i < sig.length, coord sig' i = coord sig i / (1 + t * coord sig i * dir 1 x i ^ 2) := by
  have h0 : featureAt x 0 = none := by
    cases hz : featureAt x 0 with
    | none => rfl
    | some y => have := hf _ (featureAt_some hz); simp at this
  refine ⟨(sig.mapIdx (touch x fun _ a y => a / (1 + t * a * (y * y)))).mapIdx (atZero fun s => s / (1 + t * s)), ?_, by simp, fun i hi => ?_⟩
  · unfold cwSig
    rw [calcExp_closed (fun _ a y => 1 + t * a * (y * y)) hx fun w' i y a hl hi hw _ => by
        have h2 : i < w'.length := by omega
        have h3 : w'[i] = a := by rw [List.getElem?_eq_getElem h2] at hw; exact Option.some.inj hw
        rw [lget_ok h2, Res.bind_ok, h3],
      Res.bind_ok, atBias_closed _ (by simpa using h1)]
  · rw [coord_mapIdx _ (by simpa using hi), coord_mapIdx _ hi]
    simp only [atZero, touch, dir, feat]
    by_cases hi0 : i = 0
    · subst hi0
      simp [h0]
    · simp only [if_neg hi0]
      cases featureAt x i <;> simp [sq]

/-- The model after `update_dim`. -/
theorem sig_enter {c : Cfg α} {G : Alg α (List (List α))} {a : α} (hG : G.grow = growSig a) (hclf : c.clf = 1)
    {s : St α (List (List α))} (hs : Fit c (vecs c.clf) s) (x : SVec α) :
    ∃ w sig, (enter G s x).w = [w] ∧ (enter G s x).alg = [sig] ∧ (enter G s x).g.length = 1 ∧ w.length = (enter G s x).dim ∧
      sig.length = (enter G s x).dim ∧ 1 ≤ (enter G s x).dim ∧ Sparse.dim x ≤ (enter G s x).dim ∧
      (∀ i, coord w i = cell s.w 0 i) ∧ ∀ i < (enter G s x).dim, coord sig i = varianceOf a s.alg i := by
  have hf : Fit c (vecs c.clf) (enter G s x) := fit_enter x hs fun d n v h hv => by
    rw [hG]
    exact (Vecs.grow (m := n) hv a (Nat.le_of_lt h) : _)
  obtain ⟨w, hw⟩ := List.length_eq_one_iff.1 (hf.w.1.trans hclf)
  obtain ⟨sig, hsig⟩ := List.length_eq_one_iff.1 (hf.alg.1.trans hclf)
  obtain ⟨sg, hsg⟩ := List.length_eq_one_iff.1 (hs.alg.1.trans hclf)
  refine ⟨w, sig, hw, hsig, hf.g.trans hclf, hf.w.2 w (by rw [hw]; simp), hf.alg.2 sig (by rw [hsig]; simp), hf.dim,
    by rw [enter_dim]; omega, fun i => ?_, fun i hi => ?_⟩
  · rw [← enter_cell (G := G) hs x 0 i (by omega)]
    simp [cell, hw]
  · have hlen : sg.length = s.dim := hs.alg.2 sg (by rw [hsg]; simp)
    simp only [enter, updateDim] at hsig hi
    unfold varianceOf
    rw [hsg]
    split at hsig
    · rename_i hd
      rw [if_pos hd] at hi
      simp only [hG, growSig, hsg, List.map_cons, List.map_nil, List.cons.injEq, and_true] at hsig
      rw [← hsig]
      simp only at hi
      unfold coord
      simp only [growTo, List.getD_eq_getElem?_getD, List.getElem?_append, List.length_take, List.getElem?_take,
        List.getElem?_replicate, List.getElem?_cons_zero, Option.getD_some, hlen]
      by_cases h : i < s.dim
      · rw [if_pos (by omega), if_pos h, List.getElem?_eq_getElem (by omega)]
        rfl
      · rw [if_neg (by omega), if_pos (by omega), List.getElem?_eq_none (by omega)]
        rfl
    · rename_i hd
      rw [if_neg hd] at hi
      simp only [hsg, List.cons.injEq, and_true] at hsig
      rw [← hsig]
      unfold coord
      simp only [List.getD_eq_getElem?_getD, List.getElem?_cons_zero, Option.getD_some]
      rw [List.getElem?_eq_getElem (by omega)]
      rfl

/-! ### One example -/

theorem spread_congr {bias : Bool} {σ τ : Nat → α} {x : SVec α} (h : ∀ p ∈ x, σ p.1 = τ p.1) (h0 : σ 0 = τ 0) :
    spread bias σ x = spread bias τ x := by
  unfold spread
  rw [h0]
  congr 2
  exact List.map_congr_left fun p hp => by rw [h p hp]

theorem sign_sq {y : Int} (h : y = 1 ∨ y = -1) : (y : α) * (y : α) = 1 := by
  rcases h with rfl | rfl <;> simp

theorem arow_happens {c : Cfg α} {r : α} {s s' : St α (List (List α))} {e : Ex α} {rr : α} {ev : Event} (hB : TwoClass c s e)
    (hh : Happens (arow r) c s e rr ev s') (hf : ev.fired = true) :
    ∃ l, l = max 0 (costMargin c e.label s.margin - (e.label : α) * (linear (cell s.w 0) e.x + cell s.w 0 0)) ∧
      ∀ i, cell s'.w 0 i = cell s.w 0 i + (if 0 < l then
        (e.label : α) * (l / (spread (!(c.biasEta0 =? 0)) (varianceOf 1 s.alg) e.x + r)) * (varianceOf 1 s.alg i * dir c.biasEta0 e.x i) else 0) := by
  have hx := hB.good.1
  obtain ⟨p, l, g, m, v, s2, h1, h2, h3, h4, n, rfl⟩ := Olm.fired (.arow r) hh hf
  obtain ⟨w, sig, ew, esig, eg, lw, lsig, ld, hd, cw, cs⟩ := sig_enter (G := arow r) (a := 1) rfl hB.clf hB.fit e.x
  have hfit : Fit c (vecs c.clf) (enter (arow r) s e.x) := fit_enter e.x hB.fit fun d n v h hv => (Vecs.grow (m := n) hv 1 (Nat.le_of_lt h) : _)
  have hp := (predict_eq hfit hx h1).1
  rw [ew] at hp
  obtain ⟨g0, hg0⟩ := List.length_eq_one_iff.1 eg
  have hmar : (enter (arow r) s e.x).margin = s.margin := by simp only [enter, updateDim]; split <;> rfl
  rw [hB.kind, hmar] at h2
  obtain ⟨hl, hg⟩ := hinge_grad (by rw [hp]; rfl) eg h2
  have hgl : ∃ gv, g = [gv] := by
    rw [hg0, hp] at h2
    simp only [gradient, arow, List.map_cons, List.map_nil, lget_ok (w := [linear (coord w) e.x + coord w 0]) (i := 0) (by simp),
      lset_ok (w := [g0]) (i := 0) _ (by simp), Res.bind_ok, Res.ok.injEq, Prod.mk.injEq] at h2
    exact ⟨_, h2.2.1.symm⟩
  obtain ⟨gv, rfl⟩ := hgl
  have hgv : gv = if 0 < l then -(e.label : α) else 0 := by simpa using hg
  have hsc : p.getD 0 0 = linear (cell s.w 0) e.x + cell s.w 0 0 := by
    rw [hp]
    simp only [List.map_cons, List.getD_cons_zero]
    rw [funext cw]
  refine ⟨l, by rw [hl, hsc, mul_comm], fun i => ?_⟩
  generalize enter (arow r) s e.x = E at *
  simp only [arow, ew, esig, List.zip_cons_cons, List.zip_nil_right, each1] at h4
  by_cases hpos : 0 < l
  · rw [if_pos hpos] at hgv ⊢
    have hgg : gv * gv = 1 := by rw [hgv]; have := sign_sq (α := α) hB.label; linear_combination this
    have hgne : ¬ gv = 0 := fun h => by rw [h] at hgg; simp at hgg
    rw [conf_one hx hgg (by omega), Res.bind_ok, if_neg (by simpa using hgne)] at h4
    have hspread : spread (!(c.biasEta0 =? 0)) (coord sig) e.x = spread (!(c.biasEta0 =? 0)) (varianceOf 1 s.alg) e.x :=
      spread_congr (fun q hq => cs _ (lt_of_lt_of_le (hB.good.lt_dim q hq) hd)) (cs _ ld)
    rw [hspread] at h4
    obtain ⟨w', hw', -, hc'⟩ := sigStep_coord
      (l * (1 / (spread (!(c.biasEta0 =? 0)) (varianceOf 1 s.alg) e.x + r)) * gv)
      (biasEta c { E with g := [gv], margin := m, vi := v, upd := E.upd + 1, eta := l * (1 / (spread (!(c.biasEta0 =? 0)) (varianceOf 1 s.alg) e.x + r)) } * gv)
      (x := e.x) (w := w) (sig := sig) hx (by omega) (by omega) (fun q hq => by rw [lw]; exact lt_of_lt_of_le (hB.good.lt_dim q hq) hd)
    obtain ⟨ws, q1, q2⟩ := Res.bind_eq_ok.1 h4
    obtain ⟨r1, q3, q4⟩ := Res.bind_eq_ok.1 q1
    simp only [biasEta] at hw' hc'
    simp only [biasEta] at q3
    rw [hw', Res.bind_ok] at q3
    obtain ⟨sg, q5, q6⟩ := Res.bind_eq_ok.1 q3
    simp only [Res.bind_ok] at q4
    obtain rfl := Res.ok.inj q4
    obtain rfl := Res.ok.inj q6
    obtain rfl := Res.ok.inj q2
    show cell [w'] 0 i = _
    have : cell [w'] 0 i = coord w' i := by simp [cell]
    rw [this, hc' i, cw i]
    have hcs : coord sig i * dir c.biasEta0 e.x i = varianceOf 1 s.alg i * dir c.biasEta0 e.x i := by
      by_cases hi : i < E.dim
      · rw [cs i hi]
      · have h0 : feat e.x i = 0 := feat_eq_zero fun q hq h => hi (by
          rw [← h]; exact lt_of_lt_of_le (hB.good.lt_dim q hq) hd)
        simp [dir, h0, show i ≠ 0 by omega]
    rw [mul_comm (coord sig i), hgv]
    have hring : ((l * (1 / (spread (!(c.biasEta0 =? 0)) (varianceOf 1 s.alg) e.x + r)) * -(e.label : α)) * feat e.x i
          + if i = 0 then c.biasEta0 * (l * (1 / (spread (!(c.biasEta0 =? 0)) (varianceOf 1 s.alg) e.x + r))) * -(e.label : α) else 0) * coord sig i
        = -((e.label : α) * (l / (spread (!(c.biasEta0 =? 0)) (varianceOf 1 s.alg) e.x + r)) * (coord sig i * dir c.biasEta0 e.x i)) := by
      unfold dir
      split <;> ring
    rw [← hcs]
    rw [hring]
    ring
  · rw [if_neg hpos] at hgv ⊢
    obtain ⟨beta, -, q0⟩ := Res.bind_eq_ok.1 h4
    rw [if_pos (by simpa using hgv)] at q0
    simp only [Res.bind_ok] at q0
    obtain rfl := Res.ok.inj q0
    show cell [w] 0 i = _
    rw [add_zero, ← cw i]
    simp [cell]

/-- CW and ECCW, with step size `A` and factor `T` of the variances. -/
theorem cw_happens {c : Cfg α} {a phi : α} {bias : Bool} {G : Alg α (List (List α))} (A T : α → α → α) (hgrow : G.grow = growSig a)
    (hhand : ∀ c s x, G.handler c s x = some (cwHandler phi bias s.alg x)) (hm : Margin G)
    (hupd : ∀ c s x l, G.update c s x l = do
      let ws ← cwStep c { s with eta := A s.vi l } s.alg (T s.vi l) x
      .ok { s with eta := A s.vi l, w := ws.map (·.1), alg := ws.map (·.2) })
    {s s' : St α (List (List α))} {e : Ex α} {rr : α} {ev : Event} (hB : TwoClass c s e) (hh : Happens G c s e rr ev s') (hf : ev.fired = true) :
    ∃ l V, V = spread bias (varianceOf a s.alg) e.x ∧ l = max 0 (phi * V - (e.label : α) * (linear (cell s.w 0) e.x + cell s.w 0 0)) ∧
      labelOf 1 [linear (cell s.w 0) e.x + cell s.w 0 0] = .ok ev.pred ∧ (c.lazyUpdate = false → 0 < l) ∧
      (c.lazyUpdate = true → ev.pred ≠ e.label) ∧ s'.eta = A V l ∧
      (0 < l → (∀ i, cell s'.w 0 i = cell s.w 0 i + (e.label : α) * A V l * (varianceOf a s.alg i * dir c.biasEta0 e.x i)) ∧
        ∀ i, (i = 0 ∨ ∃ q ∈ e.x, q.1 = i) →
          varianceOf a s'.alg i = varianceOf a s.alg i / (1 + T V l * varianceOf a s.alg i * dir 1 e.x i ^ 2)) := by
  have hx := hB.good.1
  obtain ⟨p, l, g, m, v, s2, h1, h2, h3, h4, n, rfl⟩ := Olm.fired hm hh hf
  obtain ⟨w, sig, ew, esig, eg, lw, lsig, ld, hd, cw, cs⟩ := sig_enter (G := G) (a := a) hgrow hB.clf hB.fit e.x
  have hfit : Fit c (vecs c.clf) (enter G s e.x) := fit_enter e.x hB.fit fun d n v h hv => by
    rw [hgrow]; exact (Vecs.grow (m := n) hv a (Nat.le_of_lt h) : _)
  obtain ⟨hp, hlab⟩ := predict_eq hfit hx h1
  rw [ew] at hp
  obtain ⟨g0, hg0⟩ := List.length_eq_one_iff.1 eg
  have hp' : p = [linear (cell s.w 0) e.x + cell s.w 0 0] := by
    rw [hp]
    simp only [List.map_cons, List.map_nil]
    rw [funext cw]
  have hspread : spread bias (coord sig) e.x = spread bias (varianceOf a s.alg) e.x :=
    spread_congr (fun q hq => cs _ (lt_of_lt_of_le (hB.good.lt_dim q hq) hd)) (cs _ ld)
  rw [hB.kind, hhand, hg0, hp', esig] at h2
  simp only [gradient, cwHandler, lget_ok (w := [linear (cell s.w 0) e.x + cell s.w 0 0]) (i := 0) (by simp), Res.bind_ok,
    lset_ok (w := [g0]) (i := 0) _ (by simp : 0 < [g0].length), List.set_cons_zero, conf_one hx (one_mul (1 : α)) (show 1 ≤ sig.length by omega),
    hspread, Res.ok.injEq, Prod.mk.injEq, List.getElem_cons_zero] at h2
  obtain ⟨hl, rfl, rfl, rfl⟩ := h2
  set V := spread bias (varianceOf a s.alg) e.x with hV
  set sc := linear (cell s.w 0) e.x + cell s.w 0 0 with hsc
  have hl' : l = max 0 (phi * V - (e.label : α) * sc) := by
    rw [← hl, mul_comm sc]
    unfold Loss.fmax
    split
    · rename_i h; rw [flt_iff] at h; rw [max_eq_right h.le]
    · rename_i h; rw [flt_iff, not_lt] at h; rw [max_eq_left h]
  rw [hl] at h4
  rw [hB.clf, hp'] at hlab
  rw [hupd] at h4
  obtain ⟨ws, q1, q2⟩ := Res.bind_eq_ok.1 h4
  refine ⟨l, V, rfl, hl', hlab, fun hz => ?_, fun hz => ?_, ?_, fun hpos => ?_⟩
  · simpa [hz] using h3
  · simpa [hz] using h3
  · obtain rfl := Res.ok.inj q2
    rfl
  · have hgv : (if (0 : α) <? l then ((-e.label : Int) : α) else 0) = -(e.label : α) := by rw [if_pos (by simpa using hpos)]; simp
    have hgg : -(e.label : α) * -(e.label : α) = 1 := by have := sign_sq (α := α) hB.label; linear_combination this
    have hgne : ¬ -(e.label : α) = 0 := fun h => by rw [h] at hgg; simp at hgg
    rw [hgv] at q1 q2
    simp only [cwStep, ew, esig, List.zip_cons_cons, List.zip_nil_right, each1] at q1
    rw [if_neg (by simpa using hgne)] at q1
    obtain ⟨w', hw', -, hc'⟩ := sigStep_coord (A V l * -(e.label : α)) (c.biasEta0 * A V l * -(e.label : α))
      (x := e.x) (w := w) (sig := sig) hx (by omega) (by omega) (fun q hq => by rw [lw]; exact lt_of_lt_of_le (hB.good.lt_dim q hq) hd)
    obtain ⟨sig', hsig', lsig', hsc'⟩ := cwSig_coord (T V l) (x := e.x) (sig := sig) hx (by omega) hB.feats
    obtain ⟨r1, q3, q4⟩ := Res.bind_eq_ok.1 q1
    simp only [biasEta] at q3
    rw [hw', Res.bind_ok, hsig', Res.bind_ok] at q3
    simp only [Res.bind_ok] at q4
    obtain rfl := Res.ok.inj q4
    obtain rfl := Res.ok.inj q3
    obtain rfl := Res.ok.inj q2
    constructor
    · intro i
      show cell [w'] 0 i = _
      have : cell [w'] 0 i = coord w' i := by simp [cell]
      rw [this, hc' i, cw i]
      have hcs : coord sig i * dir c.biasEta0 e.x i = varianceOf a s.alg i * dir c.biasEta0 e.x i := by
        by_cases hi : i < (enter G s e.x).dim
        · rw [cs i hi]
        · have h0 : feat e.x i = 0 := feat_eq_zero fun q hq h => hi (by
            rw [← h]; exact lt_of_lt_of_le (hB.good.lt_dim q hq) hd)
          simp [dir, h0, show i ≠ 0 by omega]
      rw [← hcs]
      unfold dir
      split <;> ring
    · intro i hi
      have hi' : i < (enter G s e.x).dim := by
        rcases hi with rfl | ⟨q, hq, rfl⟩
        · omega
        · exact lt_of_lt_of_le (hB.good.lt_dim q hq) hd
      show ([sig'].getD 0 []).getD i a = _
      rw [← cs i hi', ← hsc' i (by omega)]
      have : i < sig'.length := by omega
      simp [coord, List.getD_eq_getElem?_getD, this]

end

end Sol.Olm
