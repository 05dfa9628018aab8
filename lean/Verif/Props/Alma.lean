import Verif.Proofs.Alma
import Verif.Props.Perceptron
/-! C71: ALMA2 makes few updates on any stream, and reaches a large margin on separable data. -/

set_option linter.unusedSectionVars false

namespace Sol.Props

open Sol.Online Sol.Olm Sol.Sparse Sol.Loss Sol.Spec

/-- The setting: two classes with the hinge loss, an untrained model as `BeginTrain` leaves it, every update where the loss is
    positive, and a bias that is not learnt or learnt like the other weights. -/
structure Alma (c : Cfg ℝ) (C alpha P : ℝ) (s : St ℝ Int) : Prop where
  kind : c.kind = .hinge
  clf : c.clf = 1
  lazy : c.lazyUpdate = false
  cost : c.cost = none
  bias : c.biasEta0 = 0 ∨ c.biasEta0 = 1
  rate : 0 < C
  scale : 0 < P
  low : 0 < alpha
  high : alpha ≤ 1
  fit : Fit c (none' Int) s
  blank : Blank s
  first : s.alg = 1
  margin : s.margin = (1 - alpha) / alpha * P

/-- The factor of the bounds: `(1-α)/α C + C² R² / (2 P²) + 1/2`, divided by the length `C/P γ` of a first step against a
    separating function. -/
noncomputable def almaFactor (C alpha P R γ : ℝ) : ℝ :=
  (C / P * ((1 - alpha) / alpha * P) + (C / P) ^ 2 * R ^ 2 / 2 + 1 / 2) / (C / P * γ)

/-- By how much the linear function `u` misses the margin `γ` on an example. -/
noncomputable def lacks (γ : ℝ) (u : Nat → ℝ) (e : Ex ℝ) : ℝ := max 0 (γ - (e.label : ℝ) * (linear u e.x + u 0))

theorem alma_inv {c : Cfg ℝ} {C alpha P : ℝ} {s : St ℝ Int} (h : Alma c C alpha P s) (D : Nat) : AlmaInv c alpha P D s := by
  have hz : ∀ i, cell s.w 0 i = 0 := fun i => blank_cell h.fit h.blank 0 i (by rw [h.clf]; exact Nat.one_pos)
  refine ⟨h.fit, by rw [h.first], by rw [h.margin, h.first]; simp, ?_, fun _ => hz 0, fun i _ => hz i⟩
  have : ip 1 D c.biasEta0 (cell s.w) (cell s.w) = 0 := by
    unfold ip
    refine Finset.sum_eq_zero fun k hk => Finset.sum_eq_zero fun i _ => ?_
    obtain rfl : k = 0 := by have := Finset.mem_range.1 hk; omega
    rw [hz]; ring
  rw [this]
  exact zero_le_one

theorem alma_run {c : Cfg ℝ} {C alpha P R γ : ℝ} {s s' : St ℝ Int} {evs : List Event} (h : Alma c C alpha P s) {D : Nat} (hD : 1 ≤ D)
    {u : Nat → ℝ} (hu : unorm D c.biasEta0 u ≤ 1) (hu0 : c.biasEta0 = 0 → u 0 = 0) (hγ : 0 < γ) {l : List (Ex ℝ × ℝ)}
    (hl : ∀ q ∈ l, Tame c.biasEta0 D R q.1.x ∧ (q.1.label = 1 ∨ q.1.label = -1)) (ht : Trace (alma2 C alpha P) c s l evs s') :
    AlmaInv c alpha P D s' ∧ s'.alg = 1 + (evs.countP fun ev => ev.fired : Nat) ∧
      √(s'.alg : ℝ) ≤ 1 + almaFactor C alpha P R γ * (1 + C / P * (l.map fun q => lacks γ u q.1).sum) := by
  have hinv := alma_inv h D
  have hz : ip 1 D c.biasEta0 (cell s.w) (fun _ => u) = 0 := by
    unfold ip
    refine Finset.sum_eq_zero fun k hk => Finset.sum_eq_zero fun i _ => ?_
    obtain rfl : k = 0 := by have := Finset.mem_range.1 hk; omega
    rw [blank_cell h.fit h.blank 0 i (by rw [h.clf]; exact Nat.one_pos)]; ring
  have hC := h.rate
  have hP := h.scale
  have hbn : 0 ≤ c.biasEta0 := by rcases h.bias with h | h <;> rw [h] <;> norm_num
  obtain ⟨h1, h2, h3⟩ := alma_trace h.kind h.clf h.lazy h.cost h.bias hD hP hC h.low h.high hγ rfl (fun _ => u) hu0 hinv
    (fun q hq => ⟨(hl q hq).1.1, (hl q hq).1.2.1, (hl q hq).1.2.2, (hl q hq).2⟩) ht (le_refl 0) (by rw [hz, h.first]; simp)
  refine ⟨h1, by rw [h2, h.first], ?_⟩
  have h4 : ip 1 D c.biasEta0 (cell s'.w) (fun _ => u) ≤ 1 := by
    have h5 := ip_cauchy (n := 1) (D := D) hbn (cell s'.w) (fun _ => u) (by rw [ip_self _ _ _ _ hD, Finset.sum_range_one]; exact hu)
    have := h1.ball
    nlinarith
  have h6 : 0 ≤ (1 - alpha) / alpha := div_nonneg (by linarith [h.high]) h.low.le
  rw [zero_add] at h3
  have h7 : (l.map fun q => missing γ (fun _ => u) q.1) = l.map fun q => lacks γ u q.1 := rfl
  rw [h7] at h3
  unfold almaFactor
  generalize (l.map fun q => lacks γ u q.1).sum = X at h3 ⊢
  have hA : 0 < C / P * ((1 - alpha) / alpha * P) + (C / P) ^ 2 * R ^ 2 / 2 + 1 / 2 := by positivity
  generalize C / P * ((1 - alpha) / alpha * P) + (C / P) ^ 2 * R ^ 2 / 2 + 1 / 2 = B at h3 hA ⊢
  have hg : 0 < C / P * γ := by positivity
  generalize C / P * γ = g at h3 hg ⊢
  have h8 : g / B * (√(s'.alg : ℝ) - 1) ≤ 1 + C / P * X := by linarith
  have h9 : √(s'.alg : ℝ) - 1 = B / g * (g / B * (√(s'.alg : ℝ) - 1)) := by field_simp
  have h10 := mul_le_mul_of_nonneg_left h8 (show 0 ≤ B / g by positivity)
  linarith

/-- C71: on any stream, the root of one plus the number of updates is bounded by what any linear function `u` of norm at most 1
    misses of any margin `γ`. -/
theorem C71_updates (c : Cfg ℝ) (C alpha P R γ : ℝ) (s : St ℝ Int) (h : Alma c C alpha P s) (D : Nat) (hD : 1 ≤ D)
    (u : Nat → ℝ) (hu : unorm D c.biasEta0 u ≤ 1) (hu0 : c.biasEta0 = 0 → u 0 = 0) (hγ : 0 < γ) (l : List (Ex ℝ × ℝ))
    (hl : ∀ q ∈ l, Tame c.biasEta0 D R q.1.x ∧ (q.1.label = 1 ∨ q.1.label = -1)) :
    ∃ s' rate, train (alma2 C alpha P) c s l = .ok (s', rate) ∧ s.upd ≤ s'.upd ∧
      √(1 + ((s'.upd - s.upd : Nat) : ℝ)) ≤ 1 + almaFactor C alpha P R γ * (1 + C / P * (l.map fun q => lacks γ u q.1).sum) := by
  obtain ⟨evs, s', ht, h1, -, -, -, h2, -⟩ := C29_counters (.alma2 C alpha P) (by rw [h.kind]; exact h.clf) s h.fit l
    fun q hq => ⟨(hl q hq).1.1, .inl h.clf⟩
  obtain ⟨-, h3, h4⟩ := alma_run h hD hu hu0 hγ hl ht
  refine ⟨_, _, h1, by simp only; omega, ?_⟩
  simp only [h2, Nat.add_sub_cancel_left]
  rw [h3] at h4
  push_cast at h4
  exact h4

/-- C71, separable data: a bound that does not depend on the length of the stream. -/
theorem C71_separable (c : Cfg ℝ) (C alpha P R γ : ℝ) (s : St ℝ Int) (h : Alma c C alpha P s) (D : Nat) (hD : 1 ≤ D)
    (u : Nat → ℝ) (hu : unorm D c.biasEta0 u ≤ 1) (hu0 : c.biasEta0 = 0 → u 0 = 0) (hγ : 0 < γ) (l : List (Ex ℝ × ℝ))
    (hl : ∀ q ∈ l, Tame c.biasEta0 D R q.1.x ∧ (q.1.label = 1 ∨ q.1.label = -1) ∧ γ ≤ (q.1.label : ℝ) * (linear u q.1.x + u 0)) :
    ∃ s' rate, train (alma2 C alpha P) c s l = .ok (s', rate) ∧ s.upd ≤ s'.upd ∧
      ((s'.upd - s.upd : Nat) : ℝ) ≤ (1 + almaFactor C alpha P R γ) ^ 2 - 1 := by
  obtain ⟨s', rate, h1, h2, h3⟩ := C71_updates c C alpha P R γ s h D hD u hu hu0 hγ l fun q hq => ⟨(hl q hq).1, (hl q hq).2.1⟩
  refine ⟨s', rate, h1, h2, ?_⟩
  have h4 : (l.map fun q => lacks γ u q.1).sum = 0 := by
    apply List.sum_eq_zero
    intro a ha
    obtain ⟨q, hq, rfl⟩ := List.mem_map.1 ha
    exact max_eq_left (by have := (hl q hq).2.2; linarith)
  rw [h4, mul_zero, add_zero, mul_one] at h3
  have h5 := Real.sq_sqrt (show 0 ≤ 1 + ((s'.upd - s.upd : Nat) : ℝ) by positivity)
  have h6 := pow_le_pow_left₀ (Real.sqrt_nonneg _) h3 2
  linarith

/-! ### Several passes -/

theorem trace_split {A : Type} {G : Alg ℝ A} {c : Cfg ℝ} {s s' : St ℝ A} {l1 l2 : List (Ex ℝ × ℝ)} {evs : List Event}
    (h : Trace G c s (l1 ++ l2) evs s') : ∃ e1 e2 sm, evs = e1 ++ e2 ∧ Trace G c s l1 e1 sm ∧ Trace G c sm l2 e2 s' := by
  induction l1 generalizing s evs with
  | nil => exact ⟨[], evs, s, rfl, .nil s, h⟩
  | cons q l1 ih =>
    cases h with
    | cons hh ht =>
      obtain ⟨e1, e2, sm, h1, h2, h3⟩ := ih ht
      exact ⟨_ :: e1, e2, sm, by rw [h1]; rfl, .cons hh h2, h3⟩

/-- All examples of `S` lie on their side of the function, as far as the margin asks. -/
def Beyond (S : List (Ex ℝ)) (s : St ℝ Int) : Prop :=
  ∀ e ∈ S, s.margin ≤ (e.label : ℝ) * (linear (fun i => coord (s.w.getD 0 []) i) e.x + coord (s.w.getD 0 []) 0)

theorem alma_skip {c : Cfg ℝ} (hsm : c.smooth ≤ 0) {A : Type} {G : Alg ℝ A} {s s' : St ℝ A} {e : Ex ℝ} {r : ℝ} {ev : Event}
    (hh : Happens G c s e r ev s') : ev.skip = false := by
  obtain ⟨_, _, _, _, _, _, h3, _, _⟩ := hh
  unfold skipped at h3
  rw [if_neg (by simpa using hsm)] at h3
  exact (Res.ok.inj h3).symm

/-- A pass without updates, or from a state that needs none. -/
theorem alma_quiet {c : Cfg ℝ} {C alpha P : ℝ} {D : Nat} {s0 : St ℝ Int} (h : Alma c C alpha P s0) (hD : 1 ≤ D) (hsm : c.smooth ≤ 0)
    {R : ℝ} {s s' : St ℝ Int} {l : List (Ex ℝ × ℝ)} {evs : List Event} (hs : AlmaInv c alpha P D s)
    (hl : ∀ q ∈ l, Tame c.biasEta0 D R q.1.x ∧ (q.1.label = 1 ∨ q.1.label = -1)) (ht : Trace (alma2 C alpha P) c s l evs s') :
    AlmaInv c alpha P D s' ∧ ((evs.countP fun ev => ev.fired) = 0 ↔ Beyond (l.map (·.1)) s) ∧
      ((evs.countP fun ev => ev.fired) = 0 → s'.margin = s.margin ∧ ∀ i, cell s'.w 0 i = cell s.w 0 i) := by
  have hk : Matches c.kind c.clf := by rw [h.kind]; exact h.clf
  induction ht with
  | nil s => exact ⟨hs, by simp [Beyond], fun _ => ⟨rfl, fun _ => rfl⟩⟩
  | @cons s s1 s2 e r ev l evs hh ht ih =>
    obtain ⟨⟨hx, hr, hR⟩, hlab⟩ := hl (e, r) List.mem_cons_self
    have hl' := fun q hq => hl q (List.mem_cons_of_mem _ hq)
    have hsk := alma_skip hsm hh
    cases hfi : ev.fired with
    | true =>
      obtain ⟨h1, -⟩ := alma_fired h.kind h.clf h.lazy h.cost h.bias hD h.scale h.rate h.low h.high (fun _ _ => 0) (fun _ => rfl) hs hx hr
        hR hlab hh hfi
      obtain ⟨h2, -, -⟩ := ih h1 hl'
      refine ⟨h2, ?_, ?_⟩
      · rw [List.countP_cons_of_pos (by simp [hfi])]
        refine ⟨fun h => by omega, fun hb => ?_⟩
        exfalso
        have h3 := hb e (by simp)
        have h4 := alma_low h.kind h.clf h.lazy h.cost hs.fit hx hh hfi
        unfold scoresOf at h4
        exact absurd h3 (not_le.2 h4)
      · rw [List.countP_cons_of_pos (by simp [hfi])]
        intro h; omega
    | false =>
      obtain ⟨i1, i2, i3, i4, i5⟩ := idle (.alma2 C alpha P) hh hfi
      have halg : (enter (alma2 C alpha P) s e.x).alg = s.alg := by simp only [enter, updateDim]; split <;> rfl
      have hcell : ∀ k < 1, ∀ i, cell s1.w k i = cell s.w k i := by
        intro k hk' i
        rw [i1]
        exact enter_cell hs.fit e.x k i (by rw [h.clf]; exact hk')
      have hmar := idle_margin (.alma2 C alpha P) (fun _ _ _ => rfl) h.kind h.cost hh hfi
      have hinv : AlmaInv c alpha P D s1 :=
        ⟨fit_happens (safe_alma2 c C alpha P) hk hs.fit hx (.inl h.clf) hh, by rw [i2, halg]; exact hs.count,
          by rw [i2, halg, hmar]; exact hs.margin,
          by rw [ip_congr hcell hcell]; exact hs.ball, fun hb0 => by rw [hcell 0 (by omega)]; exact hs.bias hb0,
          fun i hi => by rw [hcell 0 (by omega)]; exact hs.above i hi⟩
      obtain ⟨h1, h2, h3⟩ := ih hinv hl'
      have hfar := idle_far (.alma2 C alpha P) (fun _ _ _ => rfl) h.kind h.clf h.lazy h.cost hs.fit hx hh hfi hsk
      rw [List.countP_cons_of_neg (by simp [hfi])]
      have hsame : (fun i => coord (s1.w.getD 0 []) i) = fun i => coord (s.w.getD 0 []) i := funext (hcell 0 (by omega))
      have hsame0 : coord (s1.w.getD 0 []) 0 = coord (s.w.getD 0 []) 0 := hcell 0 (by omega) 0
      refine ⟨h1, ?_, fun hc => ?_⟩
      · rw [h2]
        unfold Beyond
        rw [hsame, hsame0, hmar]
        simp only [List.map_cons, List.mem_cons, forall_eq_or_imp]
        exact ⟨fun h => ⟨hfar, h⟩, fun h => h.2⟩
      · obtain ⟨h4, h5⟩ := h3 hc
        exact ⟨h4.trans hmar, fun i => (h5 i).trans (hcell 0 (by omega) i)⟩

/-- C71, the large margin: pass over separable data more often than there can be updates, in any order each time.  Then all
    examples have at least the margin `(1-α)/α P / (1 + almaFactor)`. -/
theorem C71_margin (c : Cfg ℝ) (C alpha P R γ : ℝ) (s : St ℝ Int) (h : Alma c C alpha P s) (hsm : c.smooth ≤ 0) (D : Nat) (hD : 1 ≤ D)
    (u : Nat → ℝ) (hu : unorm D c.biasEta0 u ≤ 1) (hu0 : c.biasEta0 = 0 → u 0 = 0) (hγ : 0 < γ) (S : List (Ex ℝ))
    (hS : ∀ e ∈ S, Tame c.biasEta0 D R e.x ∧ (e.label = 1 ∨ e.label = -1) ∧ γ ≤ (e.label : ℝ) * (linear u e.x + u 0))
    (passes : List (List (Ex ℝ × ℝ))) (hpass : ∀ l ∈ passes, (l.map (·.1)).Perm S)
    (hmany : (1 + almaFactor C alpha P R γ) ^ 2 - 1 < passes.length) :
    ∃ s' rate, train (alma2 C alpha P) c s passes.flatten = .ok (s', rate) ∧
      ∀ e ∈ S, (1 - alpha) / alpha * P / (1 + almaFactor C alpha P R γ) ≤
        (e.label : ℝ) * (linear (fun i => coord (s'.w.getD 0 []) i) e.x + coord (s'.w.getD 0 []) 0) := by
  have hmem : ∀ q ∈ passes.flatten, q.1 ∈ S := by
    intro q hq
    obtain ⟨l, hl, hq⟩ := List.mem_flatten.1 hq
    exact (hpass l hl).mem_iff.1 (List.mem_map_of_mem hq)
  obtain ⟨evs, s', ht, h1, -, -, -, h2, -⟩ := C29_counters (.alma2 C alpha P) (by rw [h.kind]; exact h.clf) s h.fit passes.flatten
    fun q hq => ⟨(hS _ (hmem q hq)).1.1, .inl h.clf⟩
  obtain ⟨h3, h4, h5⟩ := alma_run h hD hu hu0 hγ (fun q hq => ⟨(hS _ (hmem q hq)).1, (hS _ (hmem q hq)).2.1⟩) ht
  have h6 : (passes.flatten.map fun q => lacks γ u q.1).sum = 0 := by
    apply List.sum_eq_zero
    intro a ha
    obtain ⟨q, hq, rfl⟩ := List.mem_map.1 ha
    exact max_eq_left (by have := (hS _ (hmem q hq)).2.2; linarith)
  rw [h6, mul_zero, add_zero, mul_one] at h5
  have hk1 : (1 : ℝ) ≤ (s'.alg : ℝ) := by exact_mod_cast h3.count
  have h7 : ((evs.countP fun ev => ev.fired : Nat) : ℝ) < passes.length := by
    refine lt_of_le_of_lt ?_ hmany
    have h8 := Real.sq_sqrt (show 0 ≤ (s'.alg : ℝ) by linarith)
    have h9 := pow_le_pow_left₀ (Real.sqrt_nonneg _) h5 2
    rw [h8, h4] at h9
    push_cast at h9
    linarith
  have h8 : (evs.countP fun ev => ev.fired) < passes.length := by exact_mod_cast h7
  -- one of the passes had no update, and none came after it
  have hkey : ∀ (ps : List (List (Ex ℝ × ℝ))) (t t' : St ℝ Int) (evs : List Event), (∀ l ∈ ps, (l.map (·.1)).Perm S) →
      AlmaInv c alpha P D t → Trace (alma2 C alpha P) c t ps.flatten evs t' →
      (Beyond S t → Beyond S t') ∧ ((evs.countP fun ev => ev.fired) < ps.length → Beyond S t') := by
    intro ps
    induction ps with
    | nil =>
      intro t t' evs _ _ ht
      cases ht
      exact ⟨id, fun h => by simp at h⟩
    | cons p ps ih =>
      intro t t' evs hp hi ht
      rw [List.flatten_cons] at ht
      obtain ⟨e1, e2, tm, rfl, ht1, ht2⟩ := trace_split ht
      have hpp := hp p List.mem_cons_self
      obtain ⟨q1, q2, q3⟩ := alma_quiet h hD hsm (R := R) hi (fun q hq => by
        have := hS q.1 (hpp.mem_iff.1 (List.mem_map_of_mem hq))
        exact ⟨this.1, this.2.1⟩) ht1
      obtain ⟨r1, r2⟩ := ih tm t' e2 (fun l hl => hp l (List.mem_cons_of_mem _ hl)) q1 ht2
      have hSp : Beyond S t ↔ (e1.countP fun ev => ev.fired) = 0 := by
        rw [q2]
        exact ⟨fun h e he => h e (hpp.mem_iff.1 he), fun h e he => h e (hpp.mem_iff.2 he)⟩
      have hnext : (e1.countP fun ev => ev.fired) = 0 → Beyond S tm := by
        intro h0
        obtain ⟨h9, h10⟩ := q3 h0
        have h11 := hSp.2 h0
        have hsame : (fun i => coord (tm.w.getD 0 []) i) = fun i => coord (t.w.getD 0 []) i := funext h10
        have hsame0 : coord (tm.w.getD 0 []) 0 = coord (t.w.getD 0 []) 0 := h10 0
        intro e he
        rw [hsame, hsame0, h9]
        exact h11 e he
      refine ⟨fun hb => r1 (hnext (hSp.1 hb)), fun hc => ?_⟩
      rw [List.countP_append, List.length_cons] at hc
      by_cases h0 : (e1.countP fun ev => ev.fired) = 0
      · exact r1 (hnext h0)
      · exact r2 (by omega)
  have h9 := (hkey passes s s' evs hpass (alma_inv h D) ht).2 h8
  refine ⟨_, _, h1, fun e he => le_trans ?_ (h9 e he)⟩
  rw [h3.margin]
  have h10 : 0 ≤ (1 - alpha) / alpha := div_nonneg (by linarith [h.high]) h.low.le
  have := h.scale
  have h11 : 1 ≤ √(s'.alg : ℝ) := Real.one_le_sqrt.2 hk1
  exact div_le_div_of_nonneg_left (by positivity) (by linarith) h5

/-- Two examples on both sides. -/
def sides : List (Ex ℝ) := [⟨1, [(1, 1)]⟩, ⟨-1, [(1, -1)]⟩]

/-- The hypotheses are met: with `α = 1/2` and `C = 1` two examples of norm 1 and margin 1 allow 8 updates; after nine passes their
    margin is at least 1/3. -/
theorem C71_instance :
    Alma (cfg1 : Cfg ℝ) 1 (1 / 2) 1 (model1 1) ∧ (cfg1 : Cfg ℝ).smooth ≤ 0 ∧
    unorm 2 (cfg1 : Cfg ℝ).biasEta0 (fun i => if i = 1 then 1 else 0) ≤ 1 ∧
    (∀ e ∈ sides, Tame (cfg1 : Cfg ℝ).biasEta0 2 1 e.x ∧ (e.label = 1 ∨ e.label = -1) ∧
      (1 : ℝ) ≤ (e.label : ℝ) * (linear (fun i => if i = 1 then 1 else 0) e.x + 0)) ∧
    almaFactor 1 (1 / 2) 1 1 1 = 2 ∧ (1 - (1 / 2 : ℝ)) / (1 / 2) * 1 / (1 + almaFactor 1 (1 / 2) 1 1 1) = 1 / 3 ∧
    (1 + almaFactor 1 (1 / 2) 1 1 1) ^ 2 - 1 < ((List.replicate 9 (sides.map fun e => (e, (0 : ℝ)))).length : ℝ) ∧
    ∀ l ∈ List.replicate 9 (sides.map fun e => (e, (0 : ℝ))), (l.map (·.1)).Perm sides := by
  have hf : almaFactor 1 (1 / 2) 1 1 1 = 2 := by norm_num [almaFactor]
  refine ⟨⟨rfl, rfl, rfl, rfl, .inl rfl, one_pos, one_pos, by norm_num, by norm_num, ⟨by decide, ⟨rfl, by simp [model1]⟩, rfl, trivial⟩,
    by simp [Blank, model1], rfl, by norm_num [model1]⟩, le_refl _, by norm_num [unorm, cfg1], ?_, hf, by rw [hf]; norm_num, ?_, ?_⟩
  · intro e he
    simp only [sides, List.mem_cons, List.not_mem_nil, or_false] at he
    rcases he with rfl | rfl
    · exact ⟨⟨⟨by simp [Ascending], by simp⟩, by simp, by norm_num [sqnorm, cfg1]⟩, by simp, by norm_num [linear]⟩
    · exact ⟨⟨⟨by simp [Ascending], by simp⟩, by simp, by norm_num [sqnorm, cfg1]⟩, by simp, by norm_num [linear]⟩
  · rw [hf, List.length_replicate]; norm_num
  · intro l hl
    rw [List.eq_of_mem_replicate hl]
    simp [List.map_map, Function.comp_def]

end Sol.Props
