import Verif.Spec.Active
import Verif.Proofs.Novikoff
import Verif.Props.Perceptron
/-! Lemmas about active learning with the perceptron. -/

namespace Sol.Olm

open Sol.Online Sol.Sparse Sol.Loss Sol.Spec

/-! ### Means -/

theorem Expected.shift {n : Nat} {F G : List ℝ → ℝ} {v d : ℝ} (h : ∀ rs, rs.length = n → F rs = d + G rs) (hG : Expected n G v) :
    Expected n F (d + v) := by
  induction n generalizing F G v with
  | zero =>
    have hG : v = G [] := hG
    show d + v = F []
    rw [h [] rfl, hG]
  | succ n ih =>
    obtain ⟨g, h1, h2, rfl⟩ := hG
    refine ⟨fun r => d + g r, fun r h0 h3 => ih (fun rs hrs => h (r :: rs) (by simp [hrs])) (h1 r h0 h3), ?_, ?_⟩
    · exact IntervalIntegrable.add intervalIntegrable_const h2
    · rw [intervalIntegral.integral_add intervalIntegrable_const h2]
      simp

theorem Expected.congr {n : Nat} {F G : List ℝ → ℝ} {v : ℝ}
    (h : ∀ rs : List ℝ, rs.length = n → (∀ r ∈ rs, 0 ≤ r ∧ r < 1) → F rs = G rs) (hG : Expected n G v) : Expected n F v := by
  induction n generalizing F G v with
  | zero => exact (show v = G [] from hG).trans (h [] rfl (by simp)).symm
  | succ n ih =>
    obtain ⟨g, h1, h2, h3⟩ := hG
    refine ⟨g, fun r h0 h1' => ih (fun rs hrs hr => h (r :: rs) (by simp [hrs]) ?_) (h1 r h0 h1'), h2, h3⟩
    intro r' hr'
    rcases List.mem_cons.1 hr' with rfl | hr'
    · exact ⟨h0, h1'⟩
    · exact hr r' hr'

theorem Expected.unique {n : Nat} {F : List ℝ → ℝ} {v v' : ℝ} (h : Expected n F v) (h' : Expected n F v') : v = v' := by
  induction n generalizing F v v' with
  | zero => exact (show v = F [] from h).trans (show v' = F [] from h').symm
  | succ n ih =>
    obtain ⟨g, h1, -, rfl⟩ := h
    obtain ⟨g', h1', -, rfl⟩ := h'
    refine intervalIntegral.integral_congr_uIoo fun r hr => ?_
    rw [Set.uIoo_of_le zero_le_one] at hr
    exact ih (h1 r hr.1.le hr.2) (h1' r hr.1.le hr.2)

/-- The mean of a function with a step. -/
theorem step_mean {q A B : ℝ} (h0 : 0 ≤ q) (h1 : q ≤ 1) :
    IntervalIntegrable (fun r : ℝ => if q < r then A else B) MeasureTheory.volume 0 1 ∧
      ∫ r in (0 : ℝ)..1, (if q < r then A else B) = q * B + (1 - q) * A := by
  have e1 : Set.EqOn (fun r : ℝ => if q < r then A else B) (fun _ => B) (Set.uIoo 0 q) := by
    intro r hr
    rw [Set.uIoo_of_le h0] at hr
    show (if q < r then A else B) = B
    rw [if_neg (not_lt.2 hr.2.le)]
  have e2 : Set.EqOn (fun r : ℝ => if q < r then A else B) (fun _ => A) (Set.uIoo q 1) := by
    intro r hr
    rw [Set.uIoo_of_le h1] at hr
    show (if q < r then A else B) = A
    rw [if_pos hr.1]
  have i1 : IntervalIntegrable (fun r : ℝ => if q < r then A else B) MeasureTheory.volume 0 q :=
    (intervalIntegrable_congr_uIoo e1).2 intervalIntegrable_const
  have i2 : IntervalIntegrable (fun r : ℝ => if q < r then A else B) MeasureTheory.volume q 1 :=
    (intervalIntegrable_congr_uIoo e2).2 intervalIntegrable_const
  refine ⟨i1.trans i2, ?_⟩
  rw [← intervalIntegral.integral_add_adjacent_intervals i1 i2, intervalIntegral.integral_congr_uIoo e1, intervalIntegral.integral_congr_uIoo e2]
  simp

/-! ### One example -/

section
variable {α : Type} [Field α] [LinearOrder α] [IsStrictOrderedRing α] [FFun α] [FSqrt α]

/-- The random number matters only in comparison with the chance to ask. -/
theorem same_side {c : Cfg α} {s : St α Unit} {e : Ex α} {p : List α} {pred : Int} {m r r' : α} (hsm : 0 < c.smooth)
    (h1 : predict c (enter perceptron s e.x) e.x = .ok (p, pred)) (h2 : activeMargin c p pred = .ok m)
    (h : c.smooth / (c.smooth + m) < r ↔ c.smooth / (c.smooth + m) < r') :
    trainOne perceptron c s e r = trainOne perceptron c s e r' := by
  have h3 : ∀ r, skipped c p pred r = .ok (c.smooth / (c.smooth + m) <? r) := by
    intro r
    unfold skipped
    rw [if_pos (by simpa using hsm), h2]
    rfl
  have h4 : (c.smooth / (c.smooth + m) <? r) = (c.smooth / (c.smooth + m) <? r') := by
    rw [Bool.eq_iff_iff, flt_iff, flt_iff]
    exact h
  obtain ⟨hb, hp, he⟩ := margin_hooks (.perceptron : Margin (perceptron (α := α)))
  simp only [trainOne, iterate, hb, hp, Res.bind_ok, h1, h3, h4]

/-- An example that is asked for changes the model if it was predicted wrongly. -/
theorem asked_updates (c : Cfg α) (hkind : c.kind = .bool ∨ c.kind = .maxBool)
    {s s' : St α Unit} {e : Ex α} {r : α} {ev : Event} (hsk : ev.skip = false)
    (hh : Happens perceptron c s e r ev s') : ev.fired = true ↔ ev.pred ≠ e.label := by
  obtain ⟨s0, s1, p, h0, h1, h2, h3, h4, h5⟩ := hh
  obtain ⟨hb, hp, he⟩ := Olm.margin_hooks (.perceptron : Margin (perceptron (α := α)))
  rw [h4]
  simp only [hsk, true_and]
  have hrule : ∀ l g m v, gradient c.kind (costMargin c e.label s1.margin) (perceptron.handler c s1 e.x) s1.vi e.label p
      ev.pred s1.g = .ok (l, g, m, v) → (l = if ev.pred = e.label then 0 else 1) := by
    intro l g m v h
    rcases hkind with hk | hk <;> rw [hk] at h <;> simp only [gradient] at h
    · obtain ⟨g2, -, h6⟩ := Res.bind_eq_ok.1 h
      exact (Prod.mk.inj (Res.ok.inj h6)).1.symm
    · split at h
      · rename_i hz; rw [if_pos hz]; exact (Prod.mk.inj (Res.ok.inj h)).1.symm
      · rename_i hz; rw [if_neg hz]
        obtain ⟨g2, -, h6⟩ := Res.bind_eq_ok.1 h
        exact (Prod.mk.inj (Res.ok.inj h6)).1.symm
  constructor
  · rintro ⟨l, g, m, v, h6, h7⟩
    split at h7
    · exact h7
    · rw [hrule l g m v h6] at h7
      intro hz
      simp [hz] at h7
  · intro hne
    rw [hb] at h0
    obtain rfl := Res.ok.inj h0
    rw [hp] at h1
    obtain rfl := Res.ok.inj h1
    simp only [trainOne, iterate, hb, hp, Res.bind_ok, h2, h3, hsk, Bool.false_eq_true, if_false] at h5
    obtain ⟨⟨s2, pred⟩, h6, -⟩ := Res.bind_eq_ok.1 h5
    obtain ⟨s3, h8, -⟩ := Res.bind_eq_ok.1 h6
    simp only [learn] at h8
    obtain ⟨⟨l, g, m, v⟩, h10, -⟩ := Res.bind_eq_ok.1 h8
    refine ⟨l, g, m, v, h10, ?_⟩
    split
    · exact hne
    · rw [hrule l g m v h10, if_neg hne]
      simp

end

/-! ### The mean over all random numbers -/

section
variable {α : Type} [Field α] [LinearOrder α] [IsStrictOrderedRing α]

theorem ip_diff (n D : Nat) (b a : α) (W U : Nat → Nat → α) :
    ip n D b (fun k i => W k i - a * U k i) (fun k i => W k i - a * U k i)
      = ip n D b W W - 2 * a * ip n D b W U + a ^ 2 * ip n D b U U := by
  rw [ip_sub, ip_smul, ip_comm n D b W (fun k i => W k i - a * U k i), ip_sub, ip_smul,
    ip_comm n D b U (fun k i => W k i - a * U k i), ip_sub, ip_smul, ip_comm n D b U W]
  ring

/-- A score is bounded by the norm of the weights. -/
theorem score_le {n D : Nat} {b R : α} (hb : 0 ≤ b) (hR : 0 < R) {x : SVec α} (hx : Ascending x) (h1 : ∀ p ∈ x, 1 ≤ p.1 ∧ p.1 < D)
    (hD : 1 ≤ D) (hs : sqnorm x + b ≤ R ^ 2) (W : Nat → Nat → α) (hW : b = 0 → ∀ k < n, W k 0 = 0) {k : Nat} (hk : k < n) :
    (linear (W k) x + W k 0) ^ 2 ≤ ip n D b W W * R ^ 2 := by
  have hR2 : 0 < R ^ 2 := by positivity
  have e1 : ∀ f : Nat → α, ∑ j ∈ Finset.range n, (if j = k then (1 : α) else 0) * f j = f k := by
    intro f
    simp [hk]
  have h2 := ip_update (n := n) hx h1 hD (fun j => if j = k then (linear (W k) x + W k 0) / R ^ 2 else 0) W
    (fun j i => W j i - (if j = k then (linear (W k) x + W k 0) / R ^ 2 else 0) * dir b x i) W (fun _ _ _ => rfl) hW hW
  have h3 := ip_nonneg (n := n) (D := D) hb (fun j i => W j i - (if j = k then (linear (W k) x + W k 0) / R ^ 2 else 0) * dir b x i)
  rw [h2.2] at h3
  have e2 : ∑ j ∈ Finset.range n, (if j = k then (linear (W k) x + W k 0) / R ^ 2 else 0) * (linear (W j) x + W j 0)
      = (linear (W k) x + W k 0) ^ 2 / R ^ 2 := by
    simp only [ite_mul, zero_mul, Finset.sum_ite_eq', Finset.mem_range, hk, if_true]
    ring
  have e3 : ∑ j ∈ Finset.range n, (if j = k then (linear (W k) x + W k 0) / R ^ 2 else 0) * (if j = k then (linear (W k) x + W k 0) / R ^ 2 else 0)
      = (linear (W k) x + W k 0) ^ 2 / R ^ 2 / R ^ 2 := by
    simp only [ite_mul, zero_mul, Finset.sum_ite_eq', Finset.mem_range, hk, if_true]
    field_simp
  rw [e2, e3] at h3
  have h4 : (linear (W k) x + W k 0) ^ 2 / R ^ 2 / R ^ 2 * (sqnorm x + b) ≤ (linear (W k) x + W k 0) ^ 2 / R ^ 2 / R ^ 2 * R ^ 2 :=
    mul_le_mul_of_nonneg_left hs (by positivity)
  rw [div_mul_cancel₀ _ hR2.ne'] at h4
  rw [← div_le_iff₀ hR2]
  linarith

end

theorem trainLoop_cons {α A : Type} [Field α] [LinearOrder α] [IsStrictOrderedRing α] [FFun α] [FSqrt α] {G : Alg α A} {c : Cfg α}
    {s s1 s' : St α A} {e : Ex α} {r : α} {l : List (Ex α × α)} (h : trainOne G c s e r = .ok s1)
    (h' : trainLoop G c s ((e, r) :: l) = .ok s') : trainLoop G c s1 l = .ok s' := by
  simpa only [trainLoop, h, Res.bind_ok] using h'

variable [FFun ℝ] [FSqrt ℝ]

theorem mean_bound {c : Cfg ℝ} (hk : Matches c.kind c.clf) (hkind : c.kind = .bool ∨ c.kind = .maxBool) (hβ : 0 < c.smooth)
    (hb : 0 ≤ c.biasEta0) (Lab : Int → Prop) (L : Ex ℝ → (Nat → ℝ) → ℝ) (hL : ∀ e v, 0 ≤ L e v) (Γ R K : ℝ) (D : Nat)
    (U : Nat → Nat → ℝ) (hΓ : 0 ≤ Γ) (hR : 0 < R) (hD : 1 ≤ D)
    (hpull : ∀ e p pred, p.length = c.clf → labelOf c.clf p = .ok pred → Lab e.label →
      (∀ k < c.clf, p.getD k 0 ^ 2 ≤ K * R ^ 2) → ∃ m, activeMargin c p pred = .ok m ∧ 0 ≤ m ∧
        ∀ mm vi g l g' m' v', g.length = c.clf → gradient c.kind mm none vi e.label p pred g = .ok (l, g', m', v') →
          pred ≠ e.label → m ≤ ∑ k ∈ Finset.range c.clf, g'.getD k 0 * p.getD k 0 ∧
            ∑ k ∈ Finset.range c.clf, g'.getD k 0 * g'.getD k 0 ≤ Γ ∧
            ∀ v : Nat → ℝ, ∑ k ∈ Finset.range c.clf, g'.getD k 0 * v k ≤ L e v - 1)
    (hU0 : c.biasEta0 = 0 → ∀ k < c.clf, U k 0 = 0) (es : List (Ex ℝ))
    (hes : ∀ e ∈ es, Props.Tame c.biasEta0 D R e.x ∧ LabelOk c.clf e.label ∧ Lab e.label) (s : St ℝ Unit)
    (hs : Fit c (none' Unit) s) (h0 : c.biasEta0 = 0 → ∀ k < c.clf, cell s.w k 0 = 0)
    (hK : ip c.clf D c.biasEta0 (cell s.w) (cell s.w) + (es.length : ℝ) * (Γ * R ^ 2) ≤ K) (F : List ℝ → ℝ)
    (hF : ∀ rs : List ℝ, rs.length = es.length → ∃ s', trainLoop perceptron c s (es.zip rs) = .ok s' ∧ F rs = (s'.err : ℝ) - s.err) :
    ∃ v, Expected es.length F v ∧
      v ≤ ip c.clf D c.biasEta0 (fun k i => cell s.w k i - (c.smooth + Γ * R ^ 2 / 2) * U k i)
          (fun k i => cell s.w k i - (c.smooth + Γ * R ^ 2 / 2) * U k i) / (2 * c.smooth)
        + (1 + Γ * R ^ 2 / (2 * c.smooth)) * (es.map fun e => L e (scoresOf U e.x)).sum := by
  induction es generalizing s F with
  | nil =>
    refine ⟨F [], rfl, ?_⟩
    obtain ⟨s', h1, h2⟩ := hF [] rfl
    have h1 : Res.ok s = Res.ok s' := h1
    obtain rfl := Res.ok.inj h1
    rw [h2, sub_self]
    have := ip_nonneg (n := c.clf) (D := D) hb fun k i => cell s.w k i - (c.smooth + Γ * R ^ 2 / 2) * U k i
    have : 0 ≤ ip c.clf D c.biasEta0 (fun k i => cell s.w k i - (c.smooth + Γ * R ^ 2 / 2) * U k i)
          (fun k i => cell s.w k i - (c.smooth + Γ * R ^ 2 / 2) * U k i) / (2 * c.smooth) := by positivity
    simpa using this
  | cons e es ih =>
    obtain ⟨⟨hx, hr, hsq⟩, hlo, hlab⟩ := hes e List.mem_cons_self
    have hes' : ∀ e ∈ es, Props.Tame c.biasEta0 D R e.x ∧ LabelOk c.clf e.label ∧ Lab e.label :=
      fun e he => hes e (List.mem_cons_of_mem _ he)
    obtain ⟨hbi, hpr, -⟩ := margin_hooks (.perceptron : Margin (perceptron (α := ℝ)))
    have hfe : Fit c (none' Unit) (enter perceptron s e.x) := enter_fit hs e.x
    -- the prediction
    obtain ⟨p, pred, hpp⟩ : ∃ p pred, predict c (enter perceptron s e.x) e.x = .ok (p, pred) := by
      obtain ⟨ev, s', hh, -, -⟩ := happens (safe_perceptron c) hk s hs e 0 hx hlo
      obtain ⟨s0, s1, p, h1, h2, h3, -⟩ := hh
      rw [hbi] at h1
      obtain rfl := Res.ok.inj h1
      rw [hpr] at h2
      obtain rfl := Res.ok.inj h2
      exact ⟨p, _, h3⟩
    obtain ⟨hp, hpred⟩ := predict_eq hfe hx.1 hpp
    have hpl : p.length = c.clf := by rw [hp, List.length_map, hfe.w.1]
    have hscore : ∀ k < c.clf, p.getD k 0 = linear (cell s.w k) e.x + cell s.w k 0 := by
      intro k hk'
      rw [predict_get hfe hx.1 hpp k hk']
      have : ∀ i, cell (enter perceptron s e.x).w k i = cell s.w k i := fun i => enter_cell hs e.x k i hk'
      rw [funext this]
    have hΓR : 0 ≤ Γ * R ^ 2 := by positivity
    have hKs : ip c.clf D c.biasEta0 (cell s.w) (cell s.w) ≤ K := by
      have : 0 ≤ ((e :: es).length : ℝ) * (Γ * R ^ 2) := by positivity
      linarith
    obtain ⟨m, hm, hm0, hgr⟩ := hpull e p pred hpl hpred hlab fun k hk' => by
      rw [hscore k hk']
      exact (score_le hb hR hx.1 hr hD hsq _ h0 hk').trans (mul_le_mul_of_nonneg_right hKs (by positivity))
    have hβm : 0 < c.smooth + m := by linarith
    obtain ⟨q, hq⟩ : ∃ q, q = c.smooth / (c.smooth + m) := ⟨_, rfl⟩
    have hq0 : 0 ≤ q := by rw [hq]; positivity
    have hq1 : q ≤ 1 := by rw [hq, div_le_one hβm]; linarith
    have hside : ∀ r r', (q < r ↔ q < r') → trainOne perceptron c s e r = trainOne perceptron c s e r' := fun r r' h =>
      same_side hβ hpp hm (by rw [← hq]; exact h)
    have hev : ∀ {r ev s'}, Happens perceptron c s e r ev s' → ev.pred = pred ∧ ev.skip = (q <? r) := by
      intro r ev s' hh
      obtain ⟨s0, s1, p', h1, h2, h3, h4, -⟩ := hh
      rw [hbi] at h1
      obtain rfl := Res.ok.inj h1
      rw [hpr] at h2
      obtain rfl := Res.ok.inj h2
      rw [hpp] at h3
      obtain ⟨rfl, hpe⟩ := Prod.mk.inj (Res.ok.inj h3)
      refine ⟨hpe.symm, ?_⟩
      rw [← hpe] at h4
      unfold skipped at h4
      rw [if_pos (by simpa using hβ), hm] at h4
      rw [hq]
      exact (Res.ok.inj h4).symm
    -- the two possible outcomes
    obtain ⟨evA, sA, hhA, hfA, hbA⟩ := happens (safe_perceptron c) hk s hs e q hx hlo
    obtain ⟨evB, sB, hhB, hfB, hbB⟩ := happens (safe_perceptron c) hk s hs e (q + 1) hx hlo
    obtain ⟨hpA, hsA⟩ := hev hhA
    obtain ⟨hpB, hsB⟩ := hev hhB
    have hsA : evA.skip = false := by rw [hsA, Bool.eq_false_iff, ne_eq, flt_iff]; exact lt_irrefl q
    have hsB : evB.skip = true := by rw [hsB, flt_iff]; linarith
    have htA : trainOne perceptron c s e q = .ok sA := by obtain ⟨_, _, _, _, _, _, _, _, h⟩ := hhA; exact h
    have htB : trainOne perceptron c s e (q + 1) = .ok sB := by obtain ⟨_, _, _, _, _, _, _, _, h⟩ := hhB; exact h
    have hfiB : evB.fired = false := by
      obtain ⟨_, _, _, _, _, _, _, h, _⟩ := hhB
      rw [Bool.eq_false_iff]
      intro h'
      have := (h.1 h').1
      rw [hsB] at this
      exact Bool.noConfusion this
    have hcB : ∀ k < c.clf, ∀ i, cell sB.w k i = cell s.w k i := by
      intro k hk' i
      rw [(idle .perceptron hhB hfiB).1]
      exact enter_cell hs e.x k i hk'
    obtain ⟨d, hd⟩ : ∃ d : ℝ, d = if pred = e.label then 0 else 1 := ⟨_, rfl⟩
    have heA : (sA.err : ℝ) = s.err + d := by
      rw [hbA.err, hpA, hd]; split <;> simp
    have heB : (sB.err : ℝ) = s.err + d := by
      rw [hbB.err, hpB, hd]; split <;> simp
    have hloop : ∀ {r s1}, trainOne perceptron c s e r = .ok s1 → (s1.err : ℝ) = s.err + d → ∀ rs : List ℝ, rs.length = es.length →
        ∃ s', trainLoop perceptron c s1 (es.zip rs) = .ok s' ∧ F (r :: rs) - d = (s'.err : ℝ) - s1.err := by
      intro r s1 h1 h2 rs hrs
      obtain ⟨s', h3, h4⟩ := hF (r :: rs) (by simp [hrs])
      exact ⟨s', trainLoop_cons h1 h3, by rw [h4, h2]; ring⟩
    have hlen : ((e :: es).length : ℝ) = es.length + 1 := by simp
    rw [hlen] at hK
    have h0B : c.biasEta0 = 0 → ∀ k < c.clf, cell sB.w k 0 = 0 := fun h k hk' => by rw [hcB k hk']; exact h0 h k hk'
    obtain ⟨vB, hvB, hBb⟩ := ih hes' sB hfB h0B (by rw [ip_congr hcB hcB]; linarith) (fun rs => F ((q + 1) :: rs) - d) (hloop htB heB)
    -- what the first outcome does to the potential
    have hA : (c.biasEta0 = 0 → ∀ k < c.clf, cell sA.w k 0 = 0) ∧
        ip c.clf D c.biasEta0 (cell sA.w) (cell sA.w) ≤ ip c.clf D c.biasEta0 (cell s.w) (cell s.w) + Γ * R ^ 2 ∧
        ip c.clf D c.biasEta0 (fun k i => cell sA.w k i - (c.smooth + Γ * R ^ 2 / 2) * U k i)
            (fun k i => cell sA.w k i - (c.smooth + Γ * R ^ 2 / 2) * U k i)
          ≤ ip c.clf D c.biasEta0 (fun k i => cell s.w k i - (c.smooth + Γ * R ^ 2 / 2) * U k i)
            (fun k i => cell s.w k i - (c.smooth + Γ * R ^ 2 / 2) * U k i)
            - d * (2 * (c.smooth + m)) + 2 * (c.smooth + Γ * R ^ 2 / 2) * L e (scoresOf U e.x) := by
      have hLe := hL e (scoresOf U e.x)
      by_cases hw : pred = e.label
      · have hfi : evA.fired = false := by
          rw [Bool.eq_false_iff]
          intro h
          exact (asked_updates c hkind hsA hhA).1 h (hpA.trans hw)
        have hcA : ∀ k < c.clf, ∀ i, cell sA.w k i = cell s.w k i := by
          intro k hk' i
          rw [(idle .perceptron hhA hfi).1]
          exact enter_cell hs e.x k i hk'
        refine ⟨fun h k hk' => by rw [hcA k hk']; exact h0 h k hk', by rw [ip_congr hcA hcA]; linarith, ?_⟩
        rw [ip_diff, ip_diff, ip_congr hcA hcA, ip_congr hcA fun _ _ _ => rfl, hd, if_pos hw]
        have : 0 ≤ 2 * (c.smooth + Γ * R ^ 2 / 2) * L e (scoresOf U e.x) := by positivity
        linarith
      · have hfi : evA.fired = true := (asked_updates c hkind hsA hhA).2 fun h => hw (hpA.symm.trans h)
        obtain ⟨p', lo, g, mm, v, hpl', hpred', hscore', hgr', hrule, hcell⟩ := perceptron_fired hk hs hx hlo hhA hfi
        have hpp' : p' = p := by
          refine List.ext_getElem (by rw [hpl', hpl]) fun k h1 h2 => ?_
          have := (hscore' k (by omega)).trans (hscore k (by omega)).symm
          simpa [List.getD_eq_getElem?_getD, h1, h2] using this
        rw [hpA, hpp'] at hgr'
        obtain ⟨g1, g2, g3⟩ := hgr _ _ _ _ _ _ _ hfe.g hgr' hw
        have h0A : c.biasEta0 = 0 → ∀ k < c.clf, cell sA.w k 0 = 0 := by
          intro hb k hk'
          have hx0 : feat e.x 0 = 0 := feat_eq_zero fun p hp => by have := (hr p hp).1; omega
          rw [hcell k hk', h0 hb k hk']
          simp [dir, hb, hx0]
        obtain ⟨h3, h4⟩ := ip_update hx.1 hr hD (fun k => g.getD k 0) (cell s.w) (cell sA.w) U hcell hU0 h0
        have h6 : ∑ k ∈ Finset.range c.clf, g.getD k 0 * p.getD k 0
            = ∑ k ∈ Finset.range c.clf, g.getD k 0 * (linear (cell s.w k) e.x + cell s.w k 0) :=
          Finset.sum_congr rfl fun k hk' => by rw [hscore k (Finset.mem_range.1 hk')]
        rw [h6] at g1
        have hsq0 : 0 ≤ sqnorm e.x := List.sum_nonneg (by
          intro a ha
          obtain ⟨p, -, rfl⟩ := List.mem_map.1 ha
          exact mul_self_nonneg _)
        have h7 : (∑ k ∈ Finset.range c.clf, g.getD k 0 * g.getD k 0) * (sqnorm e.x + c.biasEta0) ≤ Γ * R ^ 2 :=
          mul_le_mul g2 hsq (by linarith) hΓ
        refine ⟨h0A, by linarith, ?_⟩
        have h8 := g3 (scoresOf U e.x)
        have h9 : ∑ k ∈ Finset.range c.clf, g.getD k 0 * scoresOf U e.x k
            = ∑ k ∈ Finset.range c.clf, g.getD k 0 * (linear (U k) e.x + U k 0) := rfl
        rw [h9] at h8
        have ha : 0 ≤ 2 * (c.smooth + Γ * R ^ 2 / 2) := by positivity
        have h10 := mul_le_mul_of_nonneg_left h8 ha
        rw [ip_diff, ip_diff, h3, h4, hd, if_neg hw]
        nlinarith
    obtain ⟨h0A, hKA, hΦ⟩ := hA
    obtain ⟨vA, hvA, hAb⟩ := ih hes' sA hfA h0A (by linarith) (fun rs => F (q :: rs) - d) (hloop htA heA)
    -- the mean
    have hstep := step_mean (A := d + vB) (B := d + vA) hq0 hq1
    refine ⟨_, ⟨_, fun r _ _ => ?_, hstep.1, rfl⟩, ?_⟩
    · have hF' : ∀ {r'}, (q < r ↔ q < r') → ∀ rs : List ℝ, rs.length = es.length → F (r :: rs) = d + (F (r' :: rs) - d) := by
        intro r' hr' rs hrs
        obtain ⟨s1, h1, h2⟩ := hF (r :: rs) (by simp [hrs])
        obtain ⟨s2, h3, h4⟩ := hF (r' :: rs) (by simp [hrs])
        have : trainLoop perceptron c s ((e :: es).zip (r :: rs)) = trainLoop perceptron c s ((e :: es).zip (r' :: rs)) := by
          simp only [List.zip_cons_cons, trainLoop, hside r r' hr']
        rw [this, h3] at h1
        rw [h2, h4, Res.ok.inj h1]
        ring
      show Expected es.length (fun rs => F (r :: rs)) (if q < r then d + vB else d + vA)
      split
      · rename_i h
        exact Expected.shift (hF' (by constructor <;> intro <;> linarith)) hvB
      · rename_i h
        exact Expected.shift (hF' (by constructor <;> intro h' <;> [exact absurd h' h; exact absurd h' (lt_irrefl _)])) hvA
    · rw [hstep.2]
      have hcong : ip c.clf D c.biasEta0 (fun k i => cell sB.w k i - (c.smooth + Γ * R ^ 2 / 2) * U k i)
          (fun k i => cell sB.w k i - (c.smooth + Γ * R ^ 2 / 2) * U k i)
          = ip c.clf D c.biasEta0 (fun k i => cell s.w k i - (c.smooth + Γ * R ^ 2 / 2) * U k i)
          (fun k i => cell s.w k i - (c.smooth + Γ * R ^ 2 / 2) * U k i) := by
        rw [ip_diff, ip_diff, ip_congr hcB hcB, ip_congr hcB fun _ _ _ => rfl]
      rw [hcong] at hBb
      rw [List.map_cons, List.sum_cons]
      generalize ip c.clf D c.biasEta0 (fun k i => cell s.w k i - (c.smooth + Γ * R ^ 2 / 2) * U k i)
          (fun k i => cell s.w k i - (c.smooth + Γ * R ^ 2 / 2) * U k i) = Φ at hBb hΦ ⊢
      generalize ip c.clf D c.biasEta0 (fun k i => cell sA.w k i - (c.smooth + Γ * R ^ 2 / 2) * U k i)
          (fun k i => cell sA.w k i - (c.smooth + Γ * R ^ 2 / 2) * U k i) = ΦA at hAb hΦ
      have hLe := hL e (scoresOf U e.x)
      generalize L e (scoresOf U e.x) = h at hΦ hLe ⊢
      generalize (es.map fun e => L e (scoresOf U e.x)).sum = H at hAb hBb ⊢
      have hd1 : q * (d * (2 * (c.smooth + m)) / (2 * c.smooth)) = d := by
        rw [hq]
        field_simp
      have hcoef : (2 * (c.smooth + Γ * R ^ 2 / 2) * h) / (2 * c.smooth) = (1 + Γ * R ^ 2 / (2 * c.smooth)) * h := by
        field_simp
      have hΦ' : ΦA / (2 * c.smooth) ≤ Φ / (2 * c.smooth) - d * (2 * (c.smooth + m)) / (2 * c.smooth)
          + (1 + Γ * R ^ 2 / (2 * c.smooth)) * h := by
        rw [← hcoef, ← sub_div, ← add_div]
        exact (div_le_div_iff_of_pos_right (by positivity)).2 hΦ
      have hch : 0 ≤ (1 + Γ * R ^ 2 / (2 * c.smooth)) * h := by positivity
      generalize Φ / (2 * c.smooth) = f at hBb hΦ' ⊢
      generalize ΦA / (2 * c.smooth) = fA at hAb hΦ'
      generalize d * (2 * (c.smooth + m)) / (2 * c.smooth) = w at hd1 hΦ'
      rw [mul_add (1 + Γ * R ^ 2 / (2 * c.smooth)) h H]
      generalize (1 + Γ * R ^ 2 / (2 * c.smooth)) * h = ch at hΦ' hch ⊢
      generalize (1 + Γ * R ^ 2 / (2 * c.smooth)) * H = cH at hAb hBb ⊢
      have hA1 : vA ≤ f - w + ch + cH := by linarith
      have i1 := mul_le_mul_of_nonneg_left hA1 hq0
      have i2 := mul_le_mul_of_nonneg_left hBb (sub_nonneg.2 hq1)
      have i3 := mul_le_mul_of_nonneg_right hq1 hch
      nlinarith

end Sol.Olm
