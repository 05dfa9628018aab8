import Verif.Proofs.Sop
import Verif.Props.Perceptron
/-! C97: the mistakes of the second order perceptron. -/

set_option linter.unusedSectionVars false

namespace Sol.Props

open Sol.Online Sol.Olm Sol.Sparse Sol.Loss Sol.Spec

variable [FFun ℝ] [FSqrt ℝ]

/-- A second order perceptron that has learnt nothing. -/
def BlankSop (s : St ℝ (SopSt ℝ)) : Prop :=
  Blank s ∧ (∀ v ∈ s.alg.v, ∀ z ∈ v, z = 0) ∧ ∀ z ∈ s.alg.X, z = 0

theorem blank_dual {c : Cfg ℝ} {s : St ℝ (SopSt ℝ)} (hs : Fit c (sopInv c.clf) s) (h : BlankSop s) :
    (∀ k < c.clf, ∀ i, cell s.alg.v k i = 0) ∧ ∀ i, coord s.alg.X i = 0 := by
  refine ⟨fun k hk i => ?_, fun i => ?_⟩
  · have hm := cell_mem hs.alg.2.1 hk
    unfold cell coord
    rw [List.getD_eq_getElem?_getD (l := s.alg.v.getD k [])]
    cases hv : (s.alg.v.getD k [])[i]? with
    | none => rfl
    | some z => exact h.2.1 _ hm z (List.mem_of_getElem? hv)
  · unfold coord
    rw [List.getD_eq_getElem?_getD]
    cases hv : s.alg.X[i]? with
    | none => rfl
    | some z => exact h.2.2 z (List.mem_of_getElem? hv)

theorem learnt_length : ∀ (l : List (Ex ℝ × ℝ)) (evs : List Event), evs.length = l.length →
    (learnt l evs).length = evs.countP fun ev => ev.fired
  | [], evs, h => by
    obtain rfl := List.length_eq_zero_iff.1 h
    rfl
  | (e, r) :: l, ev :: evs, h => by
    have ih := learnt_length l evs (by simpa using h)
    cases hf : ev.fired <;> simp [learnt, hf, ih]
  | (e, r) :: l, [], h => by simp at h

theorem learnt_mem : ∀ {l : List (Ex ℝ × ℝ)} {evs : List Event} {e : Ex ℝ}, e ∈ learnt l evs → ∃ r, (e, r) ∈ l
  | [], evs, e, h => by cases evs <;> simp [learnt] at h
  | (e', r) :: l, [], e, h => by simp [learnt] at h
  | (e', r) :: l, ev :: evs, e, h => by
    simp only [learnt] at h
    split at h
    · rcases List.mem_cons.1 h with h | h
      · exact ⟨r, by simp [h]⟩
      · obtain ⟨r', h'⟩ := learnt_mem h
        exact ⟨r', List.mem_cons_of_mem _ h'⟩
    · obtain ⟨r', h'⟩ := learnt_mem h
      exact ⟨r', List.mem_cons_of_mem _ h'⟩

theorem squares_nonneg (es : List (Ex ℝ)) (i : Nat) : 0 ≤ squares es i :=
  List.sum_nonneg fun z hz => by
    obtain ⟨e, -, rfl⟩ := List.mem_map.1 hz
    positivity

/-- What the potentials of the second order perceptron come to for an untrained model. -/
theorem second_order {c : Cfg ℝ} {a : ℝ} (ha : 0 < a) (hk : Matches c.kind c.clf) (Lab : Int → Prop) (Sep : Int → (Nat → ℝ) → ℝ → Prop)
    (L : Ex ℝ → (Nat → ℝ) → ℝ) (Γ γ : ℝ) (D : Nat) (U : Nat → Nat → ℝ) (hΓ : 0 ≤ Γ)
    (hpull : ∀ label p pred m vi g l g' m' v', p.length = c.clf → g.length = c.clf → labelOf c.clf p = .ok pred →
      Lab label → gradient c.kind m none vi label p pred g = .ok (l, g', m', v') →
      (if c.lazyUpdate then pred ≠ label else 0 < l) → Pull c.clf (fun k => p.getD k 0) Γ (Sep label) (fun k => g'.getD k 0))
    (hsep : ∀ (e : Ex ℝ) v, Lab e.label → Sep e.label v (γ - L e v)) (l : List (Ex ℝ × ℝ))
    (hl : ∀ q ∈ l, Good q.1.x ∧ (∀ p ∈ q.1.x, 1 ≤ p.1 ∧ p.1 < D) ∧ LabelOk c.clf q.1.label ∧ Lab q.1.label)
    (s : St ℝ (SopSt ℝ)) (hs : Fit c (sopInv c.clf) s) (h0 : BlankSop s) :
    ∃ evs s' rate, Trace (sop a) c s l evs s' ∧ train (sop a) c s l = .ok ({ s' with fresh := true }, rate) ∧
      s'.upd = s.upd + (learnt l evs).length ∧
      γ * (learnt l evs).length ≤ ((learnt l evs).map fun e => L e (fun k => linear (U k) e.x)).sum
        + √(∑ k ∈ Finset.range c.clf, ∑ i ∈ Finset.Ico 1 D, U k i ^ 2 * (a + squares (learnt l evs) i))
          * √(Γ * ∑ i ∈ Finset.Ico 1 D, Real.log (1 + squares (learnt l evs) i / a)) := by
  obtain ⟨evs, s', ht, h1, hlen, -, -, h2, -⟩ := C29_counters (.sop a) hk s hs l fun q hq => ⟨(hl q hq).1, (hl q hq).2.2.1⟩
  obtain ⟨hv, hX⟩ := blank_dual hs h0
  obtain ⟨j1, j2, j3⟩ := sop_trace ha hk Lab Sep L Γ γ D U hΓ hpull hsep ht hl hs (fun k hk' => blank_cell hs h0.1 k 0 hk')
    (fun i => by rw [hX])
  refine ⟨evs, s', _, ht, h1, by rw [h2, learnt_length l evs hlen], ?_⟩
  simp only [hX, zero_add, add_zero] at j1 j3
  have z1 : ∑ k ∈ Finset.range c.clf, ∑ i ∈ Finset.Ico 1 D, U k i * cell s.alg.v k i = 0 :=
    Finset.sum_eq_zero fun k hk' => Finset.sum_eq_zero fun i _ => by rw [hv k (Finset.mem_range.1 hk'), mul_zero]
  have z2 : ∑ k ∈ Finset.range c.clf, ∑ i ∈ Finset.Ico 1 D, cell s.alg.v k i ^ 2 / a = 0 :=
    Finset.sum_eq_zero fun k hk' => Finset.sum_eq_zero fun i _ => by rw [hv k (Finset.mem_range.1 hk')]; simp
  rw [z1, zero_add] at j2
  rw [z2, zero_add] at j3
  have hB : ∀ i ∈ Finset.Ico 1 D, 0 < a + squares (learnt l evs) i := fun i _ => by have := squares_nonneg (learnt l evs) i; positivity
  have hcs := cauchy_weighted c.clf (Finset.Ico 1 D) (fun i => a + squares (learnt l evs) i) U (cell s'.alg.v) hB
  simp only [j1] at j3
  have e1 : ((learnt l evs).map fun e => γ - L e (fun k => linear (U k) e.x)).sum =
      γ * (learnt l evs).length - ((learnt l evs).map fun e => L e (fun k => linear (U k) e.x)).sum := by
    induction learnt l evs with
    | nil => simp
    | cons e es ih => simp only [List.map_cons, List.sum_cons, List.length_cons, ih]; push_cast; ring
  have e2 : ∑ i ∈ Finset.Ico 1 D, (Real.log (a + squares (learnt l evs) i) - Real.log a) =
      ∑ i ∈ Finset.Ico 1 D, Real.log (1 + squares (learnt l evs) i / a) :=
    Finset.sum_congr rfl fun i hi => by
      rw [← Real.log_div (hB i hi).ne' ha.ne', add_div, div_self ha.ne']
  rw [e1] at j2
  rw [e2] at j3
  have := mul_le_mul_of_nonneg_left (Real.sqrt_le_sqrt j3)
    (Real.sqrt_nonneg (∑ k ∈ Finset.range c.clf, ∑ i ∈ Finset.Ico 1 D, U k i ^ 2 * (a + squares (learnt l evs) i)))
  linarith

theorem pulled_bool {c : Cfg ℝ} (hkind : c.kind = .bool) (hclf : c.clf = 1) (label : Int) (p : List ℝ) (pred : Int) (m vi : ℝ)
    (g : List ℝ) (l : ℝ) (g' : List ℝ) (m' v' : ℝ) (hp : p.length = c.clf) (hg : g.length = c.clf) (hpred : labelOf c.clf p = .ok pred)
    (hlab : label = 1 ∨ label = -1) (hgr : gradient c.kind m none vi label p pred g = .ok (l, g', m', v'))
    (hrule : if c.lazyUpdate then pred ≠ label else 0 < l) :
    Pull c.clf (fun k => p.getD k 0) 1 (SepBin label) (fun k => g'.getD k 0) := by
  rw [hclf] at hp hg hpred ⊢
  rw [hkind] at hgr
  refine pull_bool hp hg hpred hlab hgr ?_
  split at hrule
  · exact hrule
  · intro he
    subst he
    obtain ⟨z, rfl⟩ := List.length_eq_one_iff.1 hg
    simp only [gradient, lset_ok (w := [z]) (i := 0) _ (by simp), Res.bind_ok, if_true, Res.ok.injEq, Prod.mk.injEq] at hgr
    rw [← hgr.1] at hrule
    exact lt_irrefl _ hrule

theorem pulled_multi {c : Cfg ℝ} (hkind : c.kind = .maxBool ∨ c.kind = .uniBool) (hclf : 2 ≤ c.clf) (label : Int) (p : List ℝ)
    (pred : Int) (m vi : ℝ) (g : List ℝ) (l : ℝ) (g' : List ℝ) (m' v' : ℝ) (hp : p.length = c.clf) (hg : g.length = c.clf)
    (hpred : labelOf c.clf p = .ok pred) (hlab : 0 ≤ label ∧ label < c.clf)
    (hgr : gradient c.kind m none vi label p pred g = .ok (l, g', m', v'))
    (hrule : if c.lazyUpdate then pred ≠ label else 0 < l) :
    Pull c.clf (fun k => p.getD k 0) 2 (SepMulti c.clf label) (fun k => g'.getD k 0) := by
  have hne : pred ≠ label := by
    split at hrule
    · exact hrule
    · intro he
      subst he
      rcases hkind with h | h <;> rw [h] at hgr <;>
        simp only [gradient, if_true, Res.ok.injEq, Prod.mk.injEq] at hgr <;>
        rw [← hgr.1] at hrule <;> exact lt_irrefl _ hrule
  rcases hkind with h | h
  · rw [h] at hgr; exact pull_maxBool hclf hp hg hpred hlab hgr hne
  · rw [h] at hgr; exact pull_uniBool hclf hp hg hpred hlab hgr hne

/-- Examples with features 1 to `D-1`. -/
def Below (D : Nat) (x : SVec ℝ) : Prop := Good x ∧ ∀ p ∈ x, 1 ≤ p.1 ∧ p.1 < D

/-- C97, two classes: the number of updates of the second order perceptron is bounded by the hinge loss of every linear function
    without bias, on the examples that it learns from, and by how much of each feature these examples show. -/
theorem C97_mistake_bound_partial (c : Cfg ℝ) (hkind : c.kind = .bool) (hclf : c.clf = 1) (a : ℝ) (ha : 0 < a) (D : Nat) (u : Nat → ℝ)
    (hu : u 0 = 0) (γ : ℝ) (l : List (Ex ℝ × ℝ)) (hl : ∀ q ∈ l, Below D q.1.x ∧ (q.1.label = 1 ∨ q.1.label = -1))
    (s : St ℝ (SopSt ℝ)) (hs : Fit c (sopInv c.clf) s) (h0 : BlankSop s) :
    ∃ evs s' rate, Trace (sop a) c s l evs s' ∧ train (sop a) c s l = .ok ({ s' with fresh := true }, rate) ∧
      s'.upd = s.upd + (learnt l evs).length ∧
      γ * (learnt l evs).length ≤ ((learnt l evs).map fun e => hingeOf γ e (scoresOf (fun _ => u) e.x)).sum
        + √(∑ i ∈ Finset.Ico 1 D, u i ^ 2 * (a + squares (learnt l evs) i))
          * √(∑ i ∈ Finset.Ico 1 D, Real.log (1 + squares (learnt l evs) i / a)) := by
  have := second_order (c := c) ha (by rw [hkind, hclf]; rfl) (fun l => l = 1 ∨ l = -1) SepBin (hingeOf γ) 1 γ D (fun _ => u)
    zero_le_one (pulled_bool hkind hclf) (fun e v _ => by
      unfold SepBin hingeOf
      have := le_max_right 0 (γ - (e.label : ℝ) * v 0)
      linarith) l (fun q hq => ⟨(hl q hq).1.1, (hl q hq).1.2, .inl hclf, (hl q hq).2⟩) s hs h0
  have hsc : ∀ x : SVec ℝ, scoresOf (fun _ => u) x = fun _ => linear u x := fun x => by funext k; simp [scoresOf, hu]
  simpa only [hclf, Finset.sum_range_one, one_mul, hsc] using this

/-- C97, several classes (with the max-score or the uniform 0-1 loss). -/
theorem C97_mistake_bound_multi_partial (c : Cfg ℝ) (hkind : c.kind = .maxBool ∨ c.kind = .uniBool) (hclf : 2 ≤ c.clf) (a : ℝ)
    (ha : 0 < a) (D : Nat) (U : Nat → Nat → ℝ) (hU : ∀ k < c.clf, U k 0 = 0) (γ : ℝ) (l : List (Ex ℝ × ℝ))
    (hl : ∀ q ∈ l, Below D q.1.x ∧ 0 ≤ q.1.label ∧ q.1.label < c.clf) (s : St ℝ (SopSt ℝ)) (hs : Fit c (sopInv c.clf) s)
    (h0 : BlankSop s) :
    ∃ evs s' rate, Trace (sop a) c s l evs s' ∧ train (sop a) c s l = .ok ({ s' with fresh := true }, rate) ∧
      s'.upd = s.upd + (learnt l evs).length ∧
      γ * (learnt l evs).length ≤ ((learnt l evs).map fun e => maxHingeOf c.clf γ e (scoresOf U e.x)).sum
        + √(∑ k ∈ Finset.range c.clf, ∑ i ∈ Finset.Ico 1 D, U k i ^ 2 * (a + squares (learnt l evs) i))
          * √(2 * ∑ i ∈ Finset.Ico 1 D, Real.log (1 + squares (learnt l evs) i / a)) := by
  obtain ⟨evs, s', rate, h1, h2, h3, h4⟩ := second_order (c := c) ha (by rcases hkind with h | h <;> rw [h] <;> exact hclf)
    (fun l => 0 ≤ l ∧ l < c.clf) (SepMulti c.clf)
    (maxHingeOf c.clf γ) 2 γ D U (by norm_num) (pulled_multi hkind hclf) (fun e v hlab q hq hne => by
      have : γ - v e.label.toNat + v q ≤ maxHingeOf c.clf γ e v := by
        unfold maxHingeOf
        rw [Finset.le_fold_max]
        exact .inr ⟨q, Finset.mem_erase.2 ⟨by omega, Finset.mem_range.2 hq⟩, le_rfl⟩
      linarith) l (fun q hq => ⟨(hl q hq).1.1, (hl q hq).1.2, .inr (hl q hq).2, (hl q hq).2⟩) s hs h0
  refine ⟨evs, s', rate, h1, h2, h3, h4.trans (le_of_eq ?_)⟩
  congr 2
  refine List.map_congr_left fun e he => ?_
  obtain ⟨r, hr⟩ := learnt_mem he
  have hlab := (hl _ hr).2
  have hsc : ∀ k < c.clf, linear (U k) e.x = scoresOf U e.x k := fun k hk => by simp [scoresOf, hU k hk]
  unfold maxHingeOf
  refine Finset.fold_congr fun k hk => ?_
  dsimp only
  rw [hsc k (Finset.mem_range.1 (Finset.mem_of_mem_erase hk)), hsc _ (by simp only at hlab; omega)]

/-! ### Examples that can be separated -/

theorem feat_le_sqnorm {x : SVec ℝ} (hx : Ascending x) {D : Nat} (h1 : ∀ p ∈ x, 1 ≤ p.1 ∧ p.1 < D) (i : Nat) : feat x i ^ 2 ≤ sqnorm x := by
  rw [sqnorm_linear hx, linear_Ico hx h1]
  by_cases hi : i ∈ Finset.Ico 1 D
  · rw [sq]
    exact Finset.single_le_sum (f := fun i => feat x i * feat x i) (fun j _ => mul_self_nonneg _) hi
  · rw [feat_eq_zero (i := i) fun p hp h => hi (Finset.mem_Ico.2 (h ▸ h1 p hp))]
    simpa using Finset.sum_nonneg fun j _ => mul_self_nonneg (feat x j)

theorem squares_le {D : Nat} {R : ℝ} {es : List (Ex ℝ)} (h : ∀ e ∈ es, Below D e.x ∧ sqnorm e.x ≤ R ^ 2) (i : Nat) :
    squares es i ≤ R ^ 2 * es.length := by
  induction es with
  | nil => simp [squares]
  | cons e es ih =>
    have h1 := feat_le_sqnorm (h e (by simp)).1.1.1 (h e (by simp)).1.2 i
    have h2 := (h e (by simp)).2
    have := ih fun e' he' => h e' (List.mem_cons_of_mem _ he')
    simp only [squares, List.map_cons, List.sum_cons, List.length_cons] at this ⊢
    push_cast
    linarith

theorem finite_bound {a R γ P Q : ℝ} {M : Nat} (ha : 0 < a) (hγ : 0 < γ) (hP : 0 ≤ P) (hQ : 0 ≤ Q)
    (h : γ * M ≤ √(P * (a + R ^ 2 * M)) * √(Q * Real.log (1 + R ^ 2 * M / a))) :
    (M : ℝ) ≤ 4 * (Q * P) ^ 2 * (a + R ^ 2) ^ 3 / (a * γ ^ 4) := by
  rcases Nat.eq_zero_or_pos M with rfl | hM
  · simp only [Nat.cast_zero]
    positivity
  have hM1 : (1 : ℝ) ≤ M := by exact_mod_cast hM
  obtain ⟨y, hy⟩ : ∃ y : ℝ, y = 1 + R ^ 2 * M / a := ⟨_, rfl⟩
  have hy1 : 1 ≤ y := by rw [hy]; have : 0 ≤ R ^ 2 * M / a := by positivity
                         linarith
  have hay : a + R ^ 2 * M = a * y := by rw [hy]; field_simp
  rw [hay, ← hy] at h
  have hlog : Real.log y ≤ 2 * √y := by
    have h1 : Real.log y = 2 * Real.log (√y) := by rw [Real.log_sqrt (by linarith)]; ring
    have h2 := Real.log_le_sub_one_of_pos (Real.sqrt_pos.2 (show 0 < y by linarith))
    linarith
  have hlog0 : 0 ≤ Real.log y := Real.log_nonneg hy1
  have h1 : (γ * M) ^ 2 ≤ P * (a * y) * (Q * (2 * √y)) := by
    have h2 := pow_le_pow_left₀ (by positivity) h 2
    rw [mul_pow (√_), Real.sq_sqrt (by positivity), Real.sq_sqrt (by positivity)] at h2
    refine h2.trans ?_
    gcongr
  have h2 : (γ * M) ^ 4 ≤ 4 * (Q * P) ^ 2 * (a ^ 2 * y ^ 3) := by
    have h3 := pow_le_pow_left₀ (by positivity) h1 2
    refine le_trans (le_of_eq (by ring)) (h3.trans (le_of_eq ?_))
    have : √y ^ 2 = y := Real.sq_sqrt (by linarith)
    calc (P * (a * y) * (Q * (2 * √y))) ^ 2 = 4 * (Q * P) ^ 2 * (a ^ 2 * y ^ 2 * √y ^ 2) := by ring
      _ = _ := by rw [this]; ring
  have h3 : y ≤ M * ((a + R ^ 2) / a) := by
    rw [hy]
    have : (M : ℝ) * ((a + R ^ 2) / a) = M + R ^ 2 * M / a := by field_simp
    linarith
  have h4 : y ^ 3 ≤ (M * ((a + R ^ 2) / a)) ^ 3 := pow_le_pow_left₀ (by linarith) h3 3
  have h5 : (γ * M) ^ 4 ≤ 4 * (Q * P) ^ 2 * (a ^ 2 * (M * ((a + R ^ 2) / a)) ^ 3) := h2.trans (by gcongr)
  rw [le_div_iff₀ (by positivity)]
  have h6 : (M : ℝ) ^ 3 * (M * (a * γ ^ 4)) ≤ (M : ℝ) ^ 3 * (4 * (Q * P) ^ 2 * (a + R ^ 2) ^ 3) := by
    have h7 := mul_le_mul_of_nonneg_left h5 ha.le
    refine le_trans (le_of_eq (by ring)) (h7.trans (le_of_eq ?_))
    field_simp
  exact le_of_mul_le_mul_left h6 (by positivity)

theorem sum_logs {D : Nat} {a R : ℝ} (ha : 0 < a) {es : List (Ex ℝ)} (h : ∀ e ∈ es, Below D e.x ∧ sqnorm e.x ≤ R ^ 2) :
    ∑ i ∈ Finset.Ico 1 D, Real.log (1 + squares es i / a) ≤ D * Real.log (1 + R ^ 2 * es.length / a) := by
  have h0 : 0 ≤ Real.log (1 + R ^ 2 * es.length / a) := Real.log_nonneg (by
    have : 0 ≤ R ^ 2 * (es.length : ℝ) / a := by positivity
    linarith)
  have h1 : ∑ i ∈ Finset.Ico 1 D, Real.log (1 + squares es i / a) ≤ ∑ i ∈ Finset.Ico 1 D, Real.log (1 + R ^ 2 * es.length / a) := by
    refine Finset.sum_le_sum fun i _ => Real.log_le_log ?_ ?_
    · have := squares_nonneg es i
      positivity
    · have := squares_le h i
      gcongr
  refine h1.trans ?_
  rw [Finset.sum_const, Nat.card_Ico, nsmul_eq_mul]
  refine mul_le_mul_of_nonneg_right ?_ h0
  exact_mod_cast Nat.sub_le D 1

/-- C97, two classes: if a linear function without bias separates the examples, the number of updates is bounded by a number that
    does not depend on the length of the stream. -/
theorem C97_separable_partial (c : Cfg ℝ) (hkind : c.kind = .bool) (hclf : c.clf = 1) (a : ℝ) (ha : 0 < a) (D : Nat) (u : Nat → ℝ)
    (hu : u 0 = 0) (R γ : ℝ) (hγ : 0 < γ) (l : List (Ex ℝ × ℝ))
    (hl : ∀ q ∈ l, Below D q.1.x ∧ sqnorm q.1.x ≤ R ^ 2 ∧ (q.1.label = 1 ∨ q.1.label = -1) ∧ γ ≤ (q.1.label : ℝ) * (linear u q.1.x + u 0))
    (s : St ℝ (SopSt ℝ)) (hs : Fit c (sopInv c.clf) s) (h0 : BlankSop s) :
    ∃ s' rate, train (sop a) c s l = .ok (s', rate) ∧ s.upd ≤ s'.upd ∧
      ((s'.upd - s.upd : Nat) : ℝ) ≤ 4 * (D * ∑ i ∈ Finset.Ico 1 D, u i ^ 2) ^ 2 * (a + R ^ 2) ^ 3 / (a * γ ^ 4) := by
  obtain ⟨evs, s', rate, h1, h2, h3, h4⟩ := C97_mistake_bound_partial c hkind hclf a ha D u hu γ l
    (fun q hq => ⟨(hl q hq).1, (hl q hq).2.2.1⟩) s hs h0
  have hle : ∀ e ∈ learnt l evs, Below D e.x ∧ sqnorm e.x ≤ R ^ 2 := fun e he => by
    obtain ⟨r, hr⟩ := learnt_mem he
    exact ⟨(hl _ hr).1, (hl _ hr).2.1⟩
  have hz : ((learnt l evs).map fun e => hingeOf γ e (scoresOf (fun _ => u) e.x)).sum = 0 := by
    refine List.sum_eq_zero fun z hz => ?_
    obtain ⟨e, he, rfl⟩ := List.mem_map.1 hz
    obtain ⟨r, hr⟩ := learnt_mem he
    have := (hl _ hr).2.2.2
    exact max_eq_left (by simp only [scoresOf]; simp only at this; linarith)
  rw [hz, zero_add] at h4
  refine ⟨_, rate, h2, by simp only; omega, ?_⟩
  simp only [h3, Nat.add_sub_cancel_left]
  refine finite_bound ha hγ (Finset.sum_nonneg fun i _ => sq_nonneg _) (Nat.cast_nonneg D) (h4.trans ?_)
  refine mul_le_mul (Real.sqrt_le_sqrt ?_) (Real.sqrt_le_sqrt (sum_logs ha hle)) (Real.sqrt_nonneg _) (Real.sqrt_nonneg _)
  rw [Finset.sum_mul]
  refine Finset.sum_le_sum fun i _ => mul_le_mul_of_nonneg_left ?_ (sq_nonneg _)
  have := squares_le hle i
  linarith

/-- C97, several classes: the same. -/
theorem C97_separable_multi_partial (c : Cfg ℝ) (hkind : c.kind = .maxBool ∨ c.kind = .uniBool) (hclf : 2 ≤ c.clf) (a : ℝ) (ha : 0 < a)
    (D : Nat) (U : Nat → Nat → ℝ) (hU : ∀ k < c.clf, U k 0 = 0) (R γ : ℝ) (hγ : 0 < γ) (l : List (Ex ℝ × ℝ))
    (hl : ∀ q ∈ l, Below D q.1.x ∧ sqnorm q.1.x ≤ R ^ 2 ∧ ∃ y : Nat, q.1.label = y ∧ y < c.clf ∧
      ∀ k < c.clf, k ≠ y → linear (U k) q.1.x + U k 0 + γ ≤ linear (U y) q.1.x + U y 0)
    (s : St ℝ (SopSt ℝ)) (hs : Fit c (sopInv c.clf) s) (h0 : BlankSop s) :
    ∃ s' rate, train (sop a) c s l = .ok (s', rate) ∧ s.upd ≤ s'.upd ∧
      ((s'.upd - s.upd : Nat) : ℝ) ≤
        4 * (2 * D * ∑ k ∈ Finset.range c.clf, ∑ i ∈ Finset.Ico 1 D, U k i ^ 2) ^ 2 * (a + R ^ 2) ^ 3 / (a * γ ^ 4) := by
  obtain ⟨evs, s', rate, h1, h2, h3, h4⟩ := C97_mistake_bound_multi_partial c hkind hclf a ha D U hU γ l
    (fun q hq => by obtain ⟨h1, -, y, h2, h3, -⟩ := hl q hq; exact ⟨h1, by omega, by omega⟩) s hs h0
  have hle : ∀ e ∈ learnt l evs, Below D e.x ∧ sqnorm e.x ≤ R ^ 2 := fun e he => by
    obtain ⟨r, hr⟩ := learnt_mem he
    exact ⟨(hl _ hr).1, (hl _ hr).2.1⟩
  have hz : ((learnt l evs).map fun e => maxHingeOf c.clf γ e (scoresOf U e.x)).sum = 0 := by
    refine List.sum_eq_zero fun z hz => ?_
    obtain ⟨e, he, rfl⟩ := List.mem_map.1 hz
    obtain ⟨r, hr⟩ := learnt_mem he
    obtain ⟨y, hy, hyc, hsep⟩ := (hl _ hr).2.2
    have hy' : e.label = y := hy
    refine le_antisymm ?_ ((Finset.le_fold_max _).2 (.inl le_rfl))
    unfold maxHingeOf
    refine (Finset.fold_max_le _).2 ⟨le_rfl, fun k hk => ?_⟩
    rw [hy', Int.toNat_natCast, Finset.mem_erase, Finset.mem_range] at hk
    have := hsep k hk.2 hk.1
    rw [hy', Int.toNat_natCast]
    simp only [scoresOf]
    linarith
  rw [hz, zero_add] at h4
  refine ⟨_, rate, h2, by simp only; omega, ?_⟩
  simp only [h3, Nat.add_sub_cancel_left]
  refine finite_bound ha hγ (Finset.sum_nonneg fun k _ => Finset.sum_nonneg fun i _ => sq_nonneg _) (by positivity) (h4.trans ?_)
  refine mul_le_mul (Real.sqrt_le_sqrt ?_) (Real.sqrt_le_sqrt ?_) (Real.sqrt_nonneg _) (Real.sqrt_nonneg _)
  · rw [Finset.sum_mul]
    refine Finset.sum_le_sum fun k _ => ?_
    rw [Finset.sum_mul]
    refine Finset.sum_le_sum fun i _ => mul_le_mul_of_nonneg_left ?_ (sq_nonneg _)
    have := squares_le hle i
    linarith
  · have := sum_logs ha hle
    rw [mul_assoc]
    linarith

/-! ### With a bias -/

/-- The second order perceptron for two classes learns from every example that it predicts wrongly. -/
theorem sop_wrong_fires {c : Cfg ℝ} (hkind : c.kind = .bool) (hclf : c.clf = 1) (hsm : c.smooth = 0) {a : ℝ} {s s' : St ℝ (SopSt ℝ)}
    (hs : Fit c (sopInv c.clf) s) {e : Ex ℝ} {r : ℝ} {ev : Event} (hx : Good e.x) (h1 : ∀ p ∈ e.x, 1 ≤ p.1)
    (hh : Happens (sop a) c s e r ev s') (hne : ev.pred ≠ e.label) : ev.fired = true := by
  obtain ⟨s0, s1, p, q1, q2, q3, q4, q5, -⟩ := hh
  obtain ⟨e1, e2, -⟩ := sop_enter (a := a) hs e.x
  obtain rfl := Res.ok.inj q1
  obtain ⟨w, rfl, -⟩ := sop_prep_cell e1 hx h1 e2 q2
  have hg := e1.g
  rw [hclf] at hg
  obtain ⟨z, hz⟩ := List.length_eq_one_iff.1 hg
  have hsk : ev.skip = false := by
    have : skipped c p ev.pred r = .ok false := by simp [skipped, hsm]
    exact Res.ok.inj (q4.symm.trans this)
  rw [hkind] at q5
  simp only [gradient, hne, if_false, hz, lset_ok (w := [z]) (i := 0) _ (by simp : 0 < [z].length), Res.bind_ok] at q5
  refine q5.2 ⟨hsk, _, _, _, _, rfl, ?_⟩
  split
  · exact hne
  · simp

/-- `x = 1` is positive and `x = 2` is negative, `N` times. -/
def oneTwo (N : Nat) : List (Ex ℝ × ℝ) := (List.replicate N [(⟨1, [(1, 1)]⟩, 0), (⟨-1, [(1, 2)]⟩, 0)]).flatten

theorem oneTwo_updates {c : Cfg ℝ} (hkind : c.kind = .bool) (hclf : c.clf = 1) (hsm : c.smooth = 0) {a : ℝ} (ha : 0 < a) (N : Nat) :
    ∀ (s s' : St ℝ (SopSt ℝ)) (evs : List Event), Fit c (sopInv c.clf) s → cell s.w 0 0 = 0 → (∀ i, 0 ≤ coord s.alg.X i) →
      Trace (sop a) c s (oneTwo N) evs s' → N ≤ evs.countP fun ev => ev.fired := by
  have hk : Matches c.kind c.clf := by rw [hkind, hclf]; rfl
  have hg : ∀ y : ℝ, Good ([(1, y)] : SVec ℝ) := fun y => ⟨by simp [Ascending], by simp⟩
  have hlin : ∀ (u : Nat → ℝ) (y : ℝ), linear u [(1, y)] = u 1 * y := fun u y => by simp [linear]
  induction N with
  | zero => intro s s' evs _ _ _ _; exact Nat.zero_le _
  | succ N ih =>
    intro s s' evs hs h0 hX ht
    rw [show oneTwo (N + 1) = (⟨1, [(1, 1)]⟩, 0) :: (⟨-1, [(1, 2)]⟩, 0) :: oneTwo N by simp [oneTwo, List.replicate_succ]] at ht
    cases ht with
    | @cons _ s1 _ _ _ ev1 _ evs1 hh1 ht =>
    cases ht with
    | @cons _ s2 _ _ _ ev2 _ evs2 hh2 ht =>
    have hlo : ∀ y : Int, LabelOk c.clf y := fun y => .inl hclf
    obtain ⟨p1, l1, m1, -, z1, w1, n1, y1⟩ := sop_happens hk hs (hg 1) (by simp) (hlo 1) hh1
    have hs1 := fit_happens (safe_sop c a) hk hs (hg 1) (hlo 1) hh1
    obtain ⟨p2, l2, m2, -, z2, w2, n2, y2⟩ := sop_happens hk hs1 (hg 2) (by simp) (hlo (-1)) hh2
    have hs2 := fit_happens (safe_sop c a) hk hs1 (hg 2) (hlo (-1)) hh2
    rw [hclf] at l1 l2 m1 m2 z1 z2 w1 w2
    have h01 := (w1 0 one_pos).trans h0
    have h02 := (w2 0 one_pos).trans h01
    have hX1 : ∀ i, 0 ≤ coord s1.alg.X i := fun i => by
      cases hf : ev1.fired with
      | false => rw [(n1 hf).2]; exact hX i
      | true =>
        obtain ⟨_, _, _, _, _, _, _, _, _, _, _, hc⟩ := y1 hf
        rw [hc]; have := hX i; positivity
    have hX2 : ∀ i, 0 ≤ coord s2.alg.X i := fun i => by
      cases hf : ev2.fired with
      | false => rw [(n2 hf).2]; exact hX1 i
      | true =>
        obtain ⟨_, _, _, _, _, _, _, _, _, _, _, hc⟩ := y2 hf
        rw [hc]; have := hX1 i; positivity
    have hrest := ih s2 s' evs2 hs2 h02 hX2 ht
    have hone : ev1.fired = true ∨ ev2.fired = true := by
      by_contra hcon
      rw [not_or, Bool.not_eq_true, Bool.not_eq_true] at hcon
      obtain ⟨b1, rfl⟩ := List.length_eq_one_iff.1 l1
      obtain ⟨b2, rfl⟩ := List.length_eq_one_iff.1 l2
      have hb1 : b1 = cell s.alg.v 0 1 / (a + coord s.alg.X 1 + feat [(1, (1 : ℝ))] 1 ^ 2) := by
        have := z1 0 one_pos
        rw [h0, hlin] at this
        simpa using this
      have hb2 : b2 = cell s.alg.v 0 1 / (a + coord s.alg.X 1 + feat [(1, (2 : ℝ))] 1 ^ 2) * 2 := by
        have := z2 0 one_pos
        rw [h01, hlin, (n1 hcon.1).2, (n1 hcon.1).1 0 (by rw [hclf]; exact one_pos)] at this
        simpa using this
      have p1 : sign b1 = ev1.pred := by simpa [labelOf, lget] using m1
      have p2 : sign b2 = ev2.pred := by simpa [labelOf, lget] using m2
      have r1 : ev1.pred = 1 := by
        by_contra hne
        have := sop_wrong_fires hkind hclf hsm hs (hg 1) (by simp) hh1 hne
        simp [hcon.1] at this
      have r2 : ev2.pred = -1 := by
        by_contra hne
        have := sop_wrong_fires hkind hclf hsm hs1 (hg 2) (by simp) hh2 hne
        simp [hcon.2] at this
      have hXi := hX 1
      have s1 : 0 ≤ b1 := by
        unfold sign at p1
        split at p1
        · rename_i h; simpa using h
        · rw [r1] at p1; simp at p1
      have s2 : b2 < 0 := by
        unfold sign at p2
        split at p2
        · rw [r2] at p2; simp at p2
        · rename_i h; simpa using h
      have hv : 0 ≤ cell s.alg.v 0 1 := by
        by_contra hneg
        rw [not_le] at hneg
        have : b1 < 0 := by rw [hb1]; exact div_neg_of_neg_of_pos hneg (by positivity)
        linarith
      have : 0 ≤ b2 := by rw [hb2]; positivity
      linarith
    simp only [List.countP_cons]
    rcases hone with h | h <;> simp only [h, if_true] <;> omega

/-- C97 does not hold for linear functions with bias, even when a bias is learnt: the examples of `oneTwo` are separated by
    `3 - 2 x` with margin 1, yet the number of updates grows with the length of the stream.  In training the bias of the second order
    perceptron is always zero: `TrainPredict` sets the weights of the features of the example only. -/
theorem C97_is_violated (c : Cfg ℝ) (hkind : c.kind = .bool) (hclf : c.clf = 1) (hsm : c.smooth = 0) (a : ℝ) (ha : 0 < a) :
    ∃ (u : Nat → ℝ) (s : St ℝ (SopSt ℝ)), Fit c (sopInv c.clf) s ∧ BlankSop s ∧ ∀ N, ∃ l : List (Ex ℝ × ℝ),
      (∀ q ∈ l, Below 2 q.1.x ∧ sqnorm q.1.x ≤ 2 ^ 2 ∧ (q.1.label = 1 ∨ q.1.label = -1) ∧ 1 ≤ (q.1.label : ℝ) * (linear u q.1.x + u 0)) ∧
      ∃ s' rate, train (sop a) c s l = .ok (s', rate) ∧ s.upd + N ≤ s'.upd := by
  have hfit : Fit c (sopInv c.clf) (model1 ⟨[0], [[0]]⟩ : St ℝ (SopSt ℝ)) := by
    rw [hclf]
    exact ⟨by simp [model1], ⟨by rw [hclf]; rfl, by simp [model1]⟩, by rw [hclf]; rfl, rfl, rfl, by simp [model1]⟩
  have hex : ∀ N, ∀ q ∈ oneTwo N, q.1 = ⟨1, [(1, 1)]⟩ ∨ q.1 = ⟨-1, [(1, 2)]⟩ := fun N q hq => by
    obtain ⟨b, hb, hq⟩ := List.mem_flatten.1 hq
    rw [List.eq_of_mem_replicate hb] at hq
    rcases List.mem_cons.1 hq with h | h
    · exact .inl (by rw [h])
    · exact .inr (by rw [List.mem_singleton.1 h])
  refine ⟨fun i => if i = 0 then 3 else if i = 1 then -2 else 0, model1 ⟨[0], [[0]]⟩, hfit,
    ⟨by simp [Blank, model1], by simp [model1], by simp [model1]⟩, fun N => ⟨oneTwo N, fun q hq => ?_, ?_⟩⟩
  · have hg : ∀ y : ℝ, Good ([(1, y)] : SVec ℝ) := fun y => ⟨by simp [Ascending], by simp⟩
    rcases hex N q hq with h | h <;> rw [h] <;> refine ⟨⟨hg _, by simp⟩, ?_, by simp, ?_⟩ <;> norm_num [sqnorm, linear]
  · obtain ⟨evs, s', ht, h1, hlen, -, -, h2, -⟩ := C29_counters (.sop a) (by rw [hkind, hclf]; rfl) _ hfit (oneTwo N) fun q hq => by
      have hg : ∀ y : ℝ, Good ([(1, y)] : SVec ℝ) := fun y => ⟨by simp [Ascending], by simp⟩
      rcases hex N q hq with h | h <;> rw [h] <;> exact ⟨hg _, .inl hclf⟩
    refine ⟨_, _, h1, ?_⟩
    have := oneTwo_updates hkind hclf hsm ha N _ s' evs hfit (by simp [cell, coord, model1])
      (fun i => by cases i <;> simp [coord, model1]) ht
    simp only [h2]
    omega

/-- Two classes with the 0-1 loss and a bias. -/
def sopCfg : Cfg ℝ := { cfg1 with kind := .bool, biasEta0 := 1 }

/-- The hypotheses of C97 are met by a stream that is separated by `x ↦ x`; the first update is for the first example. -/
theorem C97_instance :
    (∀ q ∈ ([(⟨-1, [(1, -2)]⟩, 0), (⟨-1, [(1, -1)]⟩, 0), (⟨1, [(1, 1)]⟩, 0)] : List (Ex ℝ × ℝ)), Below 2 q.1.x ∧ sqnorm q.1.x ≤ 2 ^ 2 ∧
      (q.1.label = 1 ∨ q.1.label = -1) ∧ 1 ≤ (q.1.label : ℝ) * (linear (fun i => if i = 1 then 1 else 0) q.1.x)) ∧
    Fit sopCfg (sopInv 1) (model1 ⟨[0], [[0]]⟩) ∧ BlankSop (model1 ⟨[0], [[0]]⟩) ∧
    trainOne (sop 1) sopCfg (model1 ⟨[0], [[0]]⟩) ⟨-1, [(1, -2)]⟩ 0
      = .ok ⟨2, [[0, 0]], [1], 1, 1, 0, 1, 1, 1, 1, false, ⟨[0, 4], [[-1, 2]]⟩⟩ := by
  refine ⟨?_, ⟨by simp [model1], ⟨rfl, by simp [model1]⟩, rfl, rfl, rfl, by simp [model1]⟩,
    ⟨by simp [Blank, model1], by simp [model1], by simp [model1]⟩, ?_⟩
  · have hg : ∀ y : ℝ, Good ([(1, y)] : SVec ℝ) := fun y => ⟨by simp [Ascending], by simp⟩
    intro q hq
    simp only [List.mem_cons, List.not_mem_nil, or_false] at hq
    rcases hq with rfl | rfl | rfl <;> refine ⟨⟨hg _, by simp⟩, ?_, by simp, ?_⟩ <;> norm_num [sqnorm, linear]
  · simp [sopCfg, cfg1, trainOne, iterate, enter, updateDim, growTo, growSig, Sparse.dim, sop, predict, scores, score, dotmul, dotOp, dotLoop, trim,
      labelOf, lget, sign, skipped, learn, gradient, lset, maybeUpdate, fires, each1, eachWith, step, calcExp, calcLoop, atBias, biasEta,
      costMargin, flt_iff, model1]
    try norm_num

/-- The hypotheses for three classes are met as well. -/
theorem C97_instance_multi :
    (∀ q ∈ ([(⟨2, [(1, 1)]⟩, 0), (⟨0, [(2, 1)]⟩, 0)] : List (Ex ℝ × ℝ)), Below 3 q.1.x ∧ sqnorm q.1.x ≤ 1 ^ 2 ∧ ∃ y : Nat, q.1.label = y ∧ y < 3 ∧
      ∀ k < 3, k ≠ y → linear (fun i => if (k = 2 ∧ i = 1) ∨ (k = 0 ∧ i = 2) then (1 : ℝ) else 0) q.1.x + 1 ≤
        linear (fun i => if (y = 2 ∧ i = 1) ∨ (y = 0 ∧ i = 2) then 1 else 0) q.1.x) ∧
    Fit { sopCfg with clf := 3, kind := .maxBool } (sopInv 3) (model3 ⟨[0], [[0], [0], [0]]⟩) ∧ BlankSop (model3 ⟨[0], [[0], [0], [0]]⟩) := by
  have hg : ∀ (i : Nat) (y : ℝ), i < 4294967295 → Good ([(i, y)] : SVec ℝ) := fun i y h => ⟨by simp [Ascending], by simpa using h⟩
  refine ⟨?_, ⟨by simp [model3], ⟨rfl, by simp [model3]⟩, rfl, rfl, rfl, by simp [model3]⟩,
    ⟨by simp [Blank, model3], by simp [model3], by simp [model3]⟩⟩
  intro q hq
  simp only [List.mem_cons, List.not_mem_nil, or_false] at hq
  rcases hq with rfl | rfl
  · refine ⟨⟨hg _ _ (by norm_num), by simp⟩, by norm_num [sqnorm], 2, rfl, by norm_num, fun k _ hk => ?_⟩
    norm_num [linear, hk]
  · refine ⟨⟨hg _ _ (by norm_num), by simp⟩, by norm_num [sqnorm], 0, rfl, by norm_num, fun k _ hk => ?_⟩
    norm_num [linear, hk]

end Sol.Props
