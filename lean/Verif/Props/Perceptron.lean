import Verif.Proofs.Novikoff
import Verif.Props.Online
/-! C32: the mistake bound of the perceptron. -/

set_option linter.unusedSectionVars false

namespace Sol.Props

open Sol.Online Sol.Olm Sol.Sparse Sol.Loss Sol.Spec

variable {α : Type} [Field α] [LinearOrder α] [IsStrictOrderedRing α] [FFun α] [FSqrt α]

/-- An untrained model: all weights are zero. -/
def Blank {A : Type} (s : St α A) : Prop := ∀ v ∈ s.w, ∀ a ∈ v, a = 0

/-- The squared norm of a linear function with bias on features below `D`; the bias counts `1/b`, because it is learnt at
    rate `b` (`bias_eta`). -/
def unorm (D : Nat) (b : α) (u : Nat → α) : α := (∑ i ∈ Finset.Ico 1 D, u i ^ 2) + u 0 ^ 2 / b

/-- Examples the bound speaks about: features 1 to `D-1`, norm at most `R` (with the bias as a feature). -/
def Tame (b : α) (D : Nat) (R : α) (x : SVec α) : Prop :=
  Good x ∧ (∀ p ∈ x, 1 ≤ p.1 ∧ p.1 < D) ∧ sqnorm x + b ≤ R ^ 2

theorem blank_cell {A : Type} {c : Cfg α} {inv : Nat → A → Prop} {s : St α A} (hs : Fit c inv s) (h : Blank s) (k i : Nat)
    (hk : k < c.clf) : cell s.w k i = 0 := by
  have hm := cell_mem hs.w.1 hk
  unfold cell coord
  rw [List.getD_eq_getElem?_getD (l := s.w.getD k [])]
  cases hv : (s.w.getD k [])[i]? with
  | none => rfl
  | some a => exact h _ hm a (List.mem_of_getElem? hv)

theorem ip_self (n D : Nat) (b : α) (U : Nat → Nat → α) (hD : 1 ≤ D) :
    ip n D b U U = ∑ k ∈ Finset.range n, unorm D b (U k) := by
  unfold ip unorm
  refine Finset.sum_congr rfl fun k _ => ?_
  rw [Finset.range_eq_Ico, Finset.sum_eq_sum_Ico_succ_bot hD, add_comm]
  simp only [if_true]
  congr 1
  · refine Finset.sum_congr rfl fun i hi => ?_
    rw [if_neg (by have := (Finset.mem_Ico.1 hi).1; omega)]
    ring
  · rw [div_eq_inv_mul]; ring

/-- The last step of Novikoff's argument. -/
theorem bound_of_potentials {M γ R Γ A N : α} (hM : 0 ≤ M) (hγ : 0 < γ) (hA : M * γ ≤ A) (hAN : A ^ 2 ≤ N)
    (hN : N ≤ M * (Γ * R ^ 2)) (hΓ : 0 ≤ Γ) : M ≤ Γ * (R / γ) ^ 2 := by
  have h1 : (M * γ) ^ 2 ≤ A ^ 2 := by
    have : 0 ≤ M * γ := mul_nonneg hM hγ.le
    exact pow_le_pow_left₀ this hA 2
  rcases hM.eq_or_lt with h0 | h0
  · rw [← h0]
    exact mul_nonneg hΓ (sq_nonneg _)
  · have h2 : M * (M * γ ^ 2) ≤ M * (Γ * R ^ 2) := by nlinarith
    have h3 := le_of_mul_le_mul_left h2 h0
    rw [div_pow, mul_div_assoc', le_div_iff₀ (by positivity)]
    exact h3

theorem perceptron_updates {c : Cfg α} (hk : Matches c.kind c.clf) (hb : 0 ≤ c.biasEta0) (Lab : Int → Prop)
    (Sep : Int → (Nat → α) → α → Prop) (Γ R γ : α) (D : Nat) (U : Nat → Nat → α) (hΓ : 0 ≤ Γ) (hD : 1 ≤ D) (hγ : 0 < γ)
    (hpull : ∀ label p pred m vi g l g' m' v', p.length = c.clf → g.length = c.clf → labelOf c.clf p = .ok pred →
      Lab label → gradient c.kind m none vi label p pred g = .ok (l, g', m', v') →
      (if c.lazyUpdate then pred ≠ label else 0 < l) → Pull c.clf (fun k => p.getD k 0) Γ (Sep label) (fun k => g'.getD k 0))
    (hU : ∑ k ∈ Finset.range c.clf, unorm D c.biasEta0 (U k) ≤ 1)
    (hU0 : c.biasEta0 = 0 → ∀ k < c.clf, U k 0 = 0)
    (l : List (Ex α × α)) (hl : ∀ q ∈ l, Tame c.biasEta0 D R q.1.x ∧ LabelOk c.clf q.1.label ∧
      Lab q.1.label ∧ Sep q.1.label (fun k => linear (U k) q.1.x + U k 0) γ)
    (s : St α Unit) (hs : Fit c (none' Unit) s) (h0 : Blank s) :
    ∃ s' rate, train perceptron c s l = .ok (s', rate) ∧ s.upd ≤ s'.upd ∧
      ((s'.upd - s.upd : Nat) : α) ≤ Γ * (R / γ) ^ 2 := by
  obtain ⟨evs, s', ht, h1, -, -, -, h2, -⟩ := C29_counters .perceptron hk s hs l fun q hq => ⟨(hl q hq).1.1, (hl q hq).2.1⟩
  obtain ⟨h3, h4⟩ := novikoff hk hb Lab Sep Γ (R ^ 2) γ D U hΓ hpull hU0 l
    (fun q hq => ⟨(hl q hq).1.1, (hl q hq).1.2.1, (hl q hq).2.1, (hl q hq).2.2.1, (hl q hq).2.2.2, (hl q hq).1.2.2⟩) hD s s' hs evs
    ht fun _ k hk' => blank_cell hs h0 k 0 hk'
  have hz : ∀ V : Nat → Nat → α, ip c.clf D c.biasEta0 (cell s.w) V = 0 := by
    intro V
    unfold ip
    refine Finset.sum_eq_zero fun k hk' => Finset.sum_eq_zero fun i _ => ?_
    rw [blank_cell hs h0 k i (Finset.mem_range.1 hk')]
    ring
  rw [hz, zero_add] at h3 h4
  refine ⟨_, _, h1, by simp only; omega, ?_⟩
  simp only [h2, Nat.add_sub_cancel_left]
  exact bound_of_potentials (Nat.cast_nonneg _) hγ h3
    (ip_cauchy hb _ U (by rw [ip_self _ _ _ _ hD]; exact hU)) h4 hΓ

/-- C32, two classes: if a linear function of norm at most 1 separates the examples with margin `γ` and all examples have
    norm at most `R`, the perceptron makes at most `(R/γ)^2` updates, whatever the order and length of the stream. -/
theorem C32_mistake_bound (c : Cfg α) (hkind : c.kind = .bool) (hclf : c.clf = 1) (hb : 0 ≤ c.biasEta0)
    (D : Nat) (hD : 1 ≤ D) (u : Nat → α) (hu : unorm D c.biasEta0 u ≤ 1) (hu0 : c.biasEta0 = 0 → u 0 = 0)
    (R γ : α) (hγ : 0 < γ) (l : List (Ex α × α))
    (hl : ∀ q ∈ l, Tame c.biasEta0 D R q.1.x ∧ (q.1.label = 1 ∨ q.1.label = -1) ∧
      γ ≤ (q.1.label : α) * (linear u q.1.x + u 0))
    (s : St α Unit) (hs : Fit c (none' Unit) s) (h0 : Blank s) :
    ∃ s' rate, train perceptron c s l = .ok (s', rate) ∧ s.upd ≤ s'.upd ∧ ((s'.upd - s.upd : Nat) : α) ≤ (R / γ) ^ 2 := by
  have := perceptron_updates (c := c) (by rw [hkind, hclf]; rfl) hb (fun l => l = 1 ∨ l = -1) SepBin 1 R γ D (fun _ => u)
    zero_le_one hD hγ (by
      intro label p pred m vi g l g' m' v' hp hg hpred hlab hgr hrule
      rw [hclf] at hp hg hpred ⊢
      rw [hkind] at hgr
      refine pull_bool hp hg hpred hlab hgr ?_
      split at hrule
      · exact hrule
      · intro he
        subst he
        obtain ⟨a, rfl⟩ := List.length_eq_one_iff.1 hg
        simp only [gradient, lset_ok (w := [a]) (i := 0) _ (by simp), Res.bind_ok, if_true, Res.ok.injEq, Prod.mk.injEq] at hgr
        rw [← hgr.1] at hrule
        exact lt_irrefl _ hrule)
    (by rw [hclf, Finset.sum_range_one]; exact hu) (fun h k _ => hu0 h) l
    (fun q hq => ⟨(hl q hq).1, .inl hclf, (hl q hq).2.1, (hl q hq).2.2⟩) s hs h0
  simpa using this

/-- C32, several classes (perceptron with the max-score or the uniform 0-1 loss): at most `2 (R/γ)^2` updates. -/
theorem C32_mistake_bound_multi (c : Cfg α) (hkind : c.kind = .maxBool ∨ c.kind = .uniBool) (hclf : 2 ≤ c.clf)
    (hb : 0 ≤ c.biasEta0) (D : Nat) (hD : 1 ≤ D) (U : Nat → Nat → α)
    (hU : ∑ k ∈ Finset.range c.clf, unorm D c.biasEta0 (U k) ≤ 1) (hU0 : c.biasEta0 = 0 → ∀ k < c.clf, U k 0 = 0)
    (R γ : α) (hγ : 0 < γ) (l : List (Ex α × α))
    (hl : ∀ q ∈ l, Tame c.biasEta0 D R q.1.x ∧ ∃ y : Nat, q.1.label = y ∧ y < c.clf ∧
      ∀ k < c.clf, k ≠ y → linear (U k) q.1.x + U k 0 + γ ≤ linear (U y) q.1.x + U y 0)
    (s : St α Unit) (hs : Fit c (none' Unit) s) (h0 : Blank s) :
    ∃ s' rate, train perceptron c s l = .ok (s', rate) ∧ s.upd ≤ s'.upd ∧
      ((s'.upd - s.upd : Nat) : α) ≤ 2 * (R / γ) ^ 2 := by
  refine perceptron_updates (c := c) (by rcases hkind with h | h <;> rw [h] <;> exact hclf) hb
    (fun l => 0 ≤ l ∧ l < c.clf) (SepMulti c.clf) 2 R γ D U (by norm_num) hD hγ ?_ hU hU0 l ?_ s hs h0
  · intro label p pred m vi g l g' m' v' hp hg hpred hlab hgr hrule
    have hne : pred ≠ label := by
      split at hrule
      · exact hrule
      · intro he
        subst he
        rcases hkind with h | h <;> rw [h] at hgr <;>
          simp only [gradient, if_true, Res.ok.injEq, Prod.mk.injEq] at hgr <;>
          rw [← hgr.1] at hrule <;> exact lt_irrefl _ hrule
    rcases hkind with h | h
    · rw [h] at hgr; exact pull_maxBool hclf hp hg hpred hlab hgr hne
    · rw [h] at hgr; exact pull_uniBool hclf hp hg hpred hlab hgr hne
  · intro q hq
    obtain ⟨h1, y, h2, h3, h4⟩ := hl q hq
    refine ⟨h1, .inr ⟨by omega, by omega⟩, ⟨by omega, by omega⟩, ?_⟩
    intro k hk hne
    rw [h2, Int.toNat_natCast]
    exact h4 k hk fun h => hne (by rw [h2, h])

/-- Without active learning every error leads to an update, so the bound is one on the errors. -/
theorem C32_errors_are_updates (c : Cfg α) (hkind : c.kind = .bool ∨ c.kind = .maxBool ∨ c.kind = .uniBool)
    (hsm : c.smooth ≤ 0) {s s' : St α Unit} {e : Ex α} {r : α} {ev : Event}
    (hh : Happens perceptron c s e r ev s') : ev.fired = true ↔ ev.pred ≠ e.label := by
  obtain ⟨s0, s1, p, h0, h1, h2, h3, h4, h5⟩ := hh
  obtain ⟨hb, hp, he⟩ := Olm.margin_hooks (.perceptron : Margin (perceptron (α := α)))
  have hsk : ev.skip = false := by
    unfold skipped at h3
    rw [if_neg (by simpa using hsm)] at h3
    exact (Res.ok.inj h3).symm
  rw [h4]
  simp only [hsk, true_and]
  have hrule : ∀ l g m v, gradient c.kind (costMargin c e.label s1.margin) (perceptron.handler c s1 e.x) s1.vi e.label p
      ev.pred s1.g = .ok (l, g, m, v) → (l = if ev.pred = e.label then 0 else 1) := by
    intro l g m v h
    rcases hkind with hk | hk | hk <;> rw [hk] at h <;> simp only [gradient] at h
    · obtain ⟨g2, -, h6⟩ := Res.bind_eq_ok.1 h
      exact (Prod.mk.inj (Res.ok.inj h6)).1.symm
    · split at h
      · rename_i hz; rw [if_pos hz]; exact (Prod.mk.inj (Res.ok.inj h)).1.symm
      · rename_i hz; rw [if_neg hz]
        obtain ⟨g2, -, h6⟩ := Res.bind_eq_ok.1 h
        exact (Prod.mk.inj (Res.ok.inj h6)).1.symm
    · split at h
      · rename_i hz; rw [if_pos hz]; exact (Prod.mk.inj (Res.ok.inj h)).1.symm
      · rename_i hz; rw [if_neg hz]
        obtain ⟨g2, -, h6⟩ := Res.bind_eq_ok.1 h
        obtain ⟨g3, -, h7⟩ := Res.bind_eq_ok.1 h6
        exact (Prod.mk.inj (Res.ok.inj h7)).1.symm
  constructor
  · rintro ⟨l, g, m, v, h6, h7⟩
    split at h7
    · exact h7
    · rw [hrule l g m v h6] at h7
      intro hz
      simp [hz] at h7
  · intro hne
    rw [hb] at h0
    obtain rfl := Res.ok.inj h0
    rw [hp] at h1
    obtain rfl := Res.ok.inj h1
    simp only [trainOne, iterate, hb, hp, Res.bind_ok, h2, h3, hsk, Bool.false_eq_true, if_false] at h5
    obtain ⟨⟨s2, pred⟩, h6, -⟩ := Res.bind_eq_ok.1 h5
    obtain ⟨s3, h8, -⟩ := Res.bind_eq_ok.1 h6
    simp only [learn] at h8
    obtain ⟨⟨l, g, m, v⟩, h10, -⟩ := Res.bind_eq_ok.1 h8
    refine ⟨l, g, m, v, h10, ?_⟩
    split
    · exact hne
    · rw [hrule l g m v h10, if_neg hne]
      simp

/-- The hypotheses are met: two examples separated by the first coordinate with margin 1, norm at most 2. -/
theorem C32_instance : unorm 2 (0 : Rat) (fun i => if i = 1 then 1 else 0) ≤ 1 ∧
    Tame (0 : Rat) 2 2 [(1, 2)] ∧ Tame (0 : Rat) 2 2 [(1, -1)] ∧
    (1 : Rat) ≤ ((1 : Int) : Rat) * (linear (fun i => if i = 1 then 1 else 0) [(1, (2 : Rat))] + 0) ∧
    (1 : Rat) ≤ ((-1 : Int) : Rat) * (linear (fun i => if i = 1 then 1 else 0) [(1, (-1 : Rat))] + 0) ∧
    Blank (model1 () : St Rat Unit) := by
  refine ⟨?_, ?_, ?_, ?_, ?_, ?_⟩
  · simp [unorm]
  · refine ⟨⟨by simp [Ascending], by simp⟩, by simp, by norm_num [sqnorm]⟩
  · refine ⟨⟨by simp [Ascending], by simp⟩, by simp, by norm_num [sqnorm]⟩
  · norm_num [linear]
  · norm_num [linear]
  · simp [Blank, model1]

end Sol.Props
