import Verif.Proofs.Variance
/-! Projection onto a ball: ALMA2 and FOFS. -/

set_option linter.unusedSectionVars false
set_option linter.unusedVariables false

namespace Sol.Olm

open Sol.Online Sol.Sparse Sol.Loss Sol.Spec Sol.Select

theorem dnorm2_eq (w : List ℝ) : dnorm2 w = (w.map fun a => a * a).sum := by
  have : ∀ v : ℝ, w.foldl (fun v a => v + a * a) v = v + (w.map fun a => a * a).sum := by
    induction w with
    | nil => simp
    | cons a w ih =>
      intro v
      rw [List.foldl_cons, ih, List.map_cons, List.sum_cons, add_assoc]
  rw [dnorm2, this, zero_add]

theorem sum_sq_nonneg (w : List ℝ) : 0 ≤ (w.map fun a => a * a).sum :=
  List.sum_nonneg fun a ha => by
    obtain ⟨p, -, rfl⟩ := List.mem_map.1 ha
    exact mul_self_nonneg _

theorem sum_sq_scale (w : List ℝ) (k : ℝ) :
    ((w.map (· * k)).map fun a => a * a).sum = (w.map fun a => a * a).sum * (k * k) := by
  induction w with
  | nil => simp
  | cons a w ih =>
    simp only [List.map_cons, List.sum_cons, ih]
    ring

theorem project_ball (w : List ℝ) : ((project w).map fun a => a * a).sum ≤ 1 := by
  have hn := sum_sq_nonneg w
  have hs : FSqrt.sqrt (dnorm2 w) = Real.sqrt ((w.map fun a => a * a).sum) := by rw [dnorm2_eq]; rfl
  have hsq := Real.mul_self_sqrt hn
  simp only [project, hs]
  split
  · rename_i h
    rw [flt_iff] at h
    have : (w.map fun a => a / Real.sqrt ((w.map fun a => a * a).sum))
        = w.map (· * (Real.sqrt ((w.map fun a => a * a).sum))⁻¹) := by
      simp only [div_eq_mul_inv]
    rw [this, sum_sq_scale, ← mul_inv, hsq]
    exact le_of_eq (mul_inv_cancel₀ (fun h0 => by rw [h0, Real.sqrt_zero] at h; linarith))
  · rename_i h
    rw [flt_iff, not_lt] at h
    have h0 := Real.sqrt_nonneg ((w.map fun a => a * a).sum)
    nlinarith

theorem fofsStep_ball {nc mo k b : ℝ} (hnc : 0 ≤ nc) {x : SVec ℝ} {w w' : List ℝ} (h : fofsStep nc mo k b x w = .ok w') :
    (w'.map fun a => a * a).sum ≤ nc * nc := by
  simp only [fofsStep, Res.bind_eq_ok] at h
  obtain ⟨v, -, h⟩ := h
  have hn := sum_sq_nonneg v
  have hs : FSqrt.sqrt (dnorm2 v) = Real.sqrt ((v.map fun a => a * a).sum) := by rw [dnorm2_eq]; rfl
  have hsq := Real.mul_self_sqrt hn
  have h0 := Real.sqrt_nonneg ((v.map fun a => a * a).sum)
  rw [← Res.ok.inj h, hs]
  split
  · rw [sum_sq_scale]
    by_cases hz : (v.map fun a => a * a).sum = 0
    · rw [hz, zero_mul]
      exact mul_self_nonneg nc
    · rw [div_mul_div_comm, hsq, mul_div_assoc', mul_comm, mul_div_assoc, div_self hz, mul_one]
  · rename_i h
    rw [flt_iff, not_lt] at h
    rcases h0.eq_or_lt with h1 | h1
    · rw [← h1] at hsq
      rw [← hsq, mul_zero]
      exact mul_self_nonneg nc
    · rw [le_div_iff₀ h1, one_mul] at h
      rw [← hsq]
      exact mul_self_le_mul_self h0 h

theorem grow_ball {b : ℝ} {d n : Nat} {ws : List (List ℝ)} (h : InBall b ws) : InBall b (ws.map (growTo d n 0)) := by
  intro w hw
  obtain ⟨v, hv, rfl⟩ := List.mem_map.1 hw
  refine le_trans ?_ (h v hv)
  unfold growTo
  rw [List.map_append, List.sum_append, List.map_replicate, mul_zero, List.sum_replicate, smul_zero, add_zero]
  conv_rhs => rw [← List.take_append_drop d v]
  rw [List.map_append, List.sum_append]
  have := sum_sq_nonneg (v.drop d)
  linarith

theorem enter_ball {A : Type} {b : ℝ} {G : Alg ℝ A} {s : St ℝ A} (h : InBall b s.w) (x : SVec ℝ) : InBall b (enter G s x).w := by
  unfold enter updateDim
  split
  · exact grow_ball h
  · exact h

theorem each1_ball {b : ℝ} {f : ℝ → List ℝ → Res (List ℝ)}
    (hf : ∀ g v v', f g v = .ok v' → (v'.map fun a => a * a).sum ≤ b) {gl : List ℝ} {ws ws' : List (List ℝ)}
    (h : each1 f gl ws = .ok ws') (hb : InBall b ws) : InBall b ws' := by
  have := each1_rel (Q := fun p q : List ℝ => (p.map fun a => a * a).sum ≤ b → (q.map fun a => a * a).sum ≤ b)
    (fun _ h => h) (fun g v v' hv _ => hf g v v' hv) _ _ _ h
  intro w hw
  obtain ⟨k, hk, rfl⟩ := List.mem_iff_getElem.1 hw
  have hl := this.length_eq
  exact (List.forall₂_iff_get.1 this).2 k (by omega) hk (hb _ (List.getElem_mem _))

theorem keeps_alma2 (c : Cfg ℝ) (C alpha sqp1 : ℝ) :
    Keeps c (alma2 C alpha sqp1) Good (Fit c (none' Int)) (fun _ => Fit c (none' Int)) (fun s => InBall 1 s.w) where
  enter s x _ _ hK := enter_ball hK x
  start s x s' _ hK h := by rw [← Res.ok.inj h]; exact hK
  prep s x s' _ _ hK h := by rw [← Res.ok.inj h]; exact hK
  update s x s' label p pl l g m v' u hM _ _ hK hg _ h := by
    simp only [alma2, Res.bind_eq_ok] at h
    obtain ⟨ws, h1, h2⟩ := h
    rw [← Res.ok.inj h2]
    refine each1_ball (fun g v v' hv => ?_) h1 hK
    simp only [Res.bind_eq_ok] at hv
    obtain ⟨v1, -, h3⟩ := hv
    rw [← Res.ok.inj h3]
    exact project_ball _
  finish s x s' _ _ _ hK h := by rw [← Res.ok.inj h]; exact hK
  other s g m v t u e hK := hK

theorem set_zero_le (w : List ℝ) (i : Nat) : ((w.set i 0).map fun a => a * a).sum ≤ (w.map fun a => a * a).sum := by
  induction w generalizing i with
  | nil => simp
  | cons a w ih =>
    cases i with
    | zero =>
      simp only [List.set_cons_zero, List.map_cons, List.sum_cons]
      nlinarith [mul_self_nonneg a]
    | succ i =>
      simp only [List.set_cons_succ, List.map_cons, List.sum_cons]
      linarith [ih i]

theorem zeroAt_ball {b : ℝ} {i : Nat} {ws ws' : List (List ℝ)} (h : zeroAt i ws = .ok ws') (hb : InBall b ws) : InBall b ws' := by
  unfold zeroAt at h
  induction ws generalizing ws' with
  | nil =>
    rw [← Res.ok.inj h]
    exact hb
  | cons w ws ih =>
    simp only [eachAll, Res.bind_eq_ok] at h
    obtain ⟨v, h1, l, h2, h3⟩ := h
    rw [lset_eq_ok] at h1
    rw [← Res.ok.inj h3]
    intro u hu
    rcases List.mem_cons.1 hu with rfl | hu
    · rw [h1.2]
      exact (set_zero_le w i).trans (hb w List.mem_cons_self)
    · exact ih h2 (fun w hw => hb w (List.mem_cons_of_mem _ hw)) u hu

theorem petScan_ball {b : ℝ} (l : List Nat) (ws : List (List ℝ)) (v : List ℝ) (hp : Heap.State)
    {r : List (List ℝ) × List ℝ × Heap.State} (h : petScan l ws v hp = .ok r) (hb : InBall b ws) : InBall b r.1 := by
  induction l generalizing ws v hp with
  | nil =>
    rw [← Res.ok.inj h]
    exact hb
  | cons i l ih =>
    simp only [petScan, Res.bind_eq_ok] at h
    obtain ⟨q, -, h⟩ := h
    split at h
    · exact ih _ _ _ h hb
    · simp only [Res.bind_eq_ok] at h
      obtain ⟨ws', h1, v', -, h2⟩ := h
      exact ih _ _ _ h2 (zeroAt_ball h1 hb)

theorem keeps_fofs (c : Cfg ℝ) {nc : ℝ} (hnc : 0 ≤ nc) (mo : ℝ) (B : Nat) :
    Keeps c (fofs nc mo B) Proper (FitW c (petLoose B)) (fun _ => FitW c (petLoose B)) (fun s => InBall (nc * nc) s.w) where
  enter s x _ _ hK := enter_ball hK x
  start s x s' _ hK h := by rw [← Res.ok.inj h]; exact hK
  prep s x s' _ _ hK h := by rw [← Res.ok.inj h]; exact hK
  update s x s' label p pl l g m v' u hM _ _ hK hg _ h := by
    simp only [fofs, Res.bind_eq_ok] at h
    obtain ⟨ws, h1, h2⟩ := h
    have hb := each1_ball (fun g v v' hv => fofsStep_ball hnc hv) h1 hK
    unfold petSelect at h2
    split at h2
    · simp only [Res.bind_eq_ok] at h2
      obtain ⟨v1, -, hp, -, q, h3, h4⟩ := h2
      rw [← Res.ok.inj h4]
      exact petScan_ball _ _ _ _ h3 hb
    · rw [← Res.ok.inj h2]
      exact hb
  finish s x s' _ _ _ hK h := by rw [← Res.ok.inj h]; exact hK
  other s g m v t u e hK := hK

end Sol.Olm
