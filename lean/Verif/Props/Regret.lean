import Verif.Proofs.Regret
import Verif.Props.Perceptron
import Verif.Props.Pa
import Verif.Props.Loss
import Verif.Proofs.Variance
/-! C63, C64: the cumulative loss of online gradient descent and of the passive-aggressive algorithms, compared with any
fixed linear function. -/

set_option linter.unusedSectionVars false

namespace Sol.Props

open Sol.Online Sol.Olm Sol.Sparse Sol.Loss Sol.Spec

section
variable {α : Type} [Field α] [LinearOrder α] [IsStrictOrderedRing α] [FFun α] [FSqrt α]

/-- The losses the bounds speak about, as functions of the scores, with margin `m`: the constant of the bounds, the labels,
    and a condition on the scores (the code looks for the strongest rival starting from the lowest float). -/
inductive HingeLoss (c : Cfg α) (m : α) :
    (Ex α → (Nat → α) → α) → α → (Int → Prop) → ((Nat → α) → Prop) → Prop where
  | binary : c.kind = .hinge → c.clf = 1 → HingeLoss c m (hingeOf m) 1 (fun y => y = 1 ∨ y = -1) fun _ => True
  | multi : c.kind = .maxHinge → 2 ≤ c.clf →
      HingeLoss c m (maxHingeOf c.clf m) 2 (fun y => 0 ≤ y ∧ y < c.clf) fun v => ∀ k < c.clf, FFun.lowest < v k

/-- The setting: plain updates (no lazy updates, no active learning, no costs), examples with features 1 to `D-1` and norm at
    most `R`, proper labels, and linear functions `U` to compare with (without bias if the bias is not learnt). -/
structure Compares (c : Cfg α) (m : α) (Lab : Int → Prop) (Low : (Nat → α) → Prop) (D : Nat) (R : α) (U : Nat → Nat → α)
    (s : St α Unit) (l : List (Ex α × α)) (sts : List (St α Unit)) : Prop where
  lazy : c.lazyUpdate = false
  smooth : c.smooth ≤ 0
  cost : c.cost = none
  bias : 0 ≤ c.biasEta0
  dim : 1 ≤ D
  unbiased : c.biasEta0 = 0 → ∀ k < c.clf, U k 0 = 0
  fit : Fit c (none' Unit) s
  blank : Blank s
  margin : s.margin = m
  tame : ∀ q ∈ l, Tame c.biasEta0 D R q.1.x
  labels : ∀ q ∈ l, Lab q.1.label
  scores : ∀ z ∈ sts.zip l, Low (scoresOf (fun k i => coord (z.1.w.getD k []) i) z.2.1.x)

/-- The squared norm of a family of linear functions. -/
def energy (c : Cfg α) (D : Nat) (U : Nat → Nat → α) : α := ∑ k ∈ Finset.range c.clf, unorm D c.biasEta0 (U k)

/-- The squared distance of the model to `U`. -/
def away (c : Cfg α) (D : Nat) (U : Nat → Nat → α) (s : St α Unit) : α :=
  ∑ k ∈ Finset.range c.clf, unorm D c.biasEta0 fun i => coord (s.w.getD k []) i - U k i

theorem HingeLoss.bent {c : Cfg α} {m κ : α} {L : Ex α → (Nat → α) → α} {Lab : Int → Prop} {Low : (Nat → α) → Prop}
    (h : HingeLoss c m L κ Lab Low) : Bent c m L κ 0 Lab Low ∧ Matches c.kind c.clf ∧ 0 < κ ∧ ∀ y, Lab y → LabelOk c.clf y := by
  cases h with
  | binary h1 h2 => exact ⟨bent_hinge h1 h2 m, by rw [h1]; exact h2, one_pos, fun _ _ => .inl h2⟩
  | multi h1 h2 => exact ⟨bent_maxHinge h1 h2 m, by rw [h1]; exact h2, two_pos, fun _ h => .inr h⟩

/-- What the step lemma says about a run of one of the algorithms with a scalar step size. -/
theorem falls {c : Cfg α} {G : Alg α Unit} {mid : SVec α → Nat → Unit → Prop} (hG : Safe c G (none' Unit) mid) (hm : Margin G)
    (E : Int → SVec α → α → α) (hupd : ∀ c s x l, G.update c s x l = etaStep c { s with eta := E s.t x l } x)
    (hhand : ∀ c s x, G.handler c s x = none) {m κ ε R : α} {L : Ex α → (Nat → α) → α} {Lab : Int → Prop}
    {Low : (Nat → α) → Prop} (hL : Bent c m L κ ε Lab Low) (hk : Matches c.kind c.clf) (hlab : ∀ y, Lab y → LabelOk c.clf y)
    {D : Nat} {U : Nat → Nat → α} {s s' : St α Unit} {l : List (Ex α × α)} {sts : List (St α Unit)}
    (hC : Compares c m Lab Low D R U s l sts) (hv : Visits G c s l sts s')
    (hE : ∀ t x lo, s.t < t → 0 ≤ lo → 0 ≤ E t x lo) :
    sts.length = l.length ∧ (∀ i (hi : i < sts.length), sts[i].t = s.t + i) ∧
      (∀ st : St α Unit, dist2 c.clf D c.biasEta0 (cell st.w) U = away c D U st) ∧
      ∃ d2, Falls ε (energy c D U) ((sts.zip l).map (posOf c D U L κ E)) d2 := by
  have h0 : ∀ k < c.clf, ∀ i, cell s.w k i = 0 := fun k hk' i => blank_cell hC.fit hC.blank k i hk'
  obtain ⟨h1, h2, h3⟩ := regret_visits hG hm hk E hupd hhand hC.lazy hC.smooth hC.cost hC.bias D hC.dim U hC.unbiased hL hC.fit
    hC.margin (fun _ k hk' => h0 k hk' 0)
    (fun q hq => ⟨(hC.tame q hq).1, (hC.tame q hq).2.1, hlab _ (hC.labels q hq), hC.labels q hq⟩) hv hC.scores hE
  refine ⟨h1, h2, fun st => ip_self c.clf D c.biasEta0 (fun k i => cell st.w k i - U k i) hC.dim,
    dist2 c.clf D c.biasEta0 (cell s'.w) U, ?_⟩
  have hd : dist2 c.clf D c.biasEta0 (cell s.w) U = energy c D U := by
    rw [energy, ← ip_self c.clf D c.biasEta0 U hC.dim, dist2_eq, ip_congr (U' := fun _ _ => 0) (V' := fun _ _ => 0) h0 h0,
      ip_congr (V' := fun _ _ => 0) h0 (fun _ _ _ => rfl)]
    simp [ip]
  rw [← hd]
  exact h3

/-- The loss of the models along a run is a sum over the positions. -/
theorem suffered_pos (c : Cfg α) (D : Nat) (U : Nat → Nat → α) (L : Ex α → (Nat → α) → α) (κ : α) (E : Int → SVec α → α → α)
    (sts : List (St α Unit)) (l : List (Ex α × α)) : suffered L sts l = ((sts.zip l).map (posOf c D U L κ E)).map (·.l) := by
  unfold suffered
  rw [List.map_map]
  rfl

theorem fixed_pos (c : Cfg α) (D : Nat) (U : Nat → Nat → α) (L : Ex α → (Nat → α) → α) (κ : α) (E : Int → SVec α → α → α)
    (sts : List (St α Unit)) (l : List (Ex α × α)) (h : sts.length = l.length) :
    fixed L U l = ((sts.zip l).map (posOf c D U L κ E)).map (·.u) := by
  unfold fixed
  rw [List.map_map]
  conv_lhs => rw [← List.map_snd_zip (l₁ := sts) (l₂ := l) (by omega)]
  rw [List.map_map]
  rfl

theorem sum_affine {β : Type} (f g h : β → α) (a : α) (L : List β) :
    (L.map fun z => a * (f z - g z) - h z).sum = a * ((L.map f).sum - (L.map g).sum) - (L.map h).sum := by
  induction L with
  | nil => simp
  | cons z L ih => simp only [List.map_cons, List.sum_cons, ih]; ring

theorem sum_const {β : Type} (a : α) (L : List β) : (L.map fun _ => a).sum = (L.length : α) * a := by
  simp

/-- The square of the direction at every position. -/
theorem pos_q {c : Cfg α} {m κ R : α} {L : Ex α → (Nat → α) → α} {Lab : Int → Prop} {Low : (Nat → α) → Prop} (hκ : 0 ≤ κ)
    {D : Nat} {U : Nat → Nat → α} {s : St α Unit} {l : List (Ex α × α)} {sts : List (St α Unit)} {E : Int → SVec α → α → α}
    (hC : Compares c m Lab Low D R U s l sts) : ∀ z ∈ (sts.zip l).map (posOf c D U L κ E), z.q ≤ κ * R ^ 2 ∧ 0 ≤ z.q := by
  intro z hz
  obtain ⟨y, hy, rfl⟩ := List.mem_map.1 hz
  have := (hC.tame y.2 (List.of_mem_zip hy).2).2.2
  exact ⟨mul_le_mul_of_nonneg_left this hκ, mul_nonneg hκ (add_nonneg (sqnorm_nonneg _) hC.bias)⟩

/-! ### C63: online gradient descent -/

/-- C63, any step sizes: the losses of the models, weighted with the step sizes, exceed those of `U` by at most half of
    `|U|² + κ R² Σ η²`. -/
theorem C63_weighted (c : Cfg α) (m κ R eta0 : α) (pow : Int → α) (L : Ex α → (Nat → α) → α) (Lab : Int → Prop)
    (Low : (Nat → α) → Prop) (hL : HingeLoss c m L κ Lab Low) (D : Nat) (U : Nat → Nat → α) (s s' : St α Unit)
    (l : List (Ex α × α)) (sts : List (St α Unit)) (hC : Compares c m Lab Low D R U s l sts)
    (hv : Visits (ogd eta0 pow) c s l sts s') (heta : ∀ t, s.t < t → 0 ≤ eta0 / pow t) :
    ((sts.zip l).map fun z => eta0 / pow (z.1.t + 1) *
        (L z.2.1 (scoresOf (fun k i => coord (z.1.w.getD k []) i) z.2.1.x) - L z.2.1 (scoresOf U z.2.1.x))).sum
      ≤ (energy c D U + κ * R ^ 2 * (sts.map fun st => (eta0 / pow (st.t + 1)) ^ 2).sum) / 2 := by
  obtain ⟨hB, hk, hκ, hlab⟩ := hL.bent
  obtain ⟨h1, h2, h3, d2, h4⟩ := falls (safe_ogd c eta0 pow) (.ogd eta0 pow) (fun t _ _ => eta0 / pow t) (fun _ _ _ _ => rfl)
    (fun _ _ _ => rfl) hB hk hlab hC hv (fun t _ _ ht _ => heta t ht)
  have h5 := h4.bound (fun z => 2 * (z.E * (z.l - z.u)) - κ * R ^ 2 * z.E ^ 2) (by
    intro z hz
    have := mul_le_mul_of_nonneg_left (pos_q hκ.le hC z hz).1 (sq_nonneg z.E)
    linarith)
  rw [List.map_map] at h5
  have e1 : (sts.map fun st => (eta0 / pow (st.t + 1)) ^ 2) = (sts.zip l).map fun z => (eta0 / pow (z.1.t + 1)) ^ 2 := by
    conv_lhs => rw [← List.map_fst_zip (l₁ := sts) (l₂ := l) (by omega)]
    rw [List.map_map]
    rfl
  rw [e1]
  have e2 := sum_affine (fun z : St α Unit × (Ex α × α) => eta0 / pow (z.1.t + 1) *
    (L z.2.1 (scoresOf (fun k i => coord (z.1.w.getD k []) i) z.2.1.x) - L z.2.1 (scoresOf U z.2.1.x))) (fun _ => 0)
    (fun z => κ * R ^ 2 * (eta0 / pow (z.1.t + 1)) ^ 2) 2 (sts.zip l)
  simp only [sub_zero, List.sum_map_mul_left, sum_const, mul_zero] at e2
  have e3 : ((sts.zip l).map ((fun z : Pos α => 2 * (z.E * (z.l - z.u)) - κ * R ^ 2 * z.E ^ 2) ∘
      posOf c D U L κ (fun t _ _ => eta0 / pow t))) = (sts.zip l).map fun z => 2 * (eta0 / pow (z.1.t + 1) *
    (L z.2.1 (scoresOf (fun k i => coord (z.1.w.getD k []) i) z.2.1.x) - L z.2.1 (scoresOf U z.2.1.x))) -
      κ * R ^ 2 * (eta0 / pow (z.1.t + 1)) ^ 2 := rfl
  rw [e3, e2] at h5
  rw [le_div_iff₀ two_pos]
  linarith

/-- C63, constant step size `eta` (`power_t` is 0): the regret is at most `|U|²/(2η) + η κ R² n / 2`. -/
theorem C63_constant (c : Cfg α) (m κ R eta : α) (pow : Int → α) (L : Ex α → (Nat → α) → α) (Lab : Int → Prop)
    (Low : (Nat → α) → Prop) (hL : HingeLoss c m L κ Lab Low) (D : Nat) (U : Nat → Nat → α) (s s' : St α Unit)
    (l : List (Ex α × α)) (sts : List (St α Unit)) (hC : Compares c m Lab Low D R U s l sts)
    (hv : Visits (ogd eta pow) c s l sts s') (heta : 0 < eta) (hpow : ∀ t, pow t = 1) :
    (suffered L sts l).sum ≤ (fixed L U l).sum + energy c D U / (2 * eta) + eta / 2 * (κ * R ^ 2) * l.length := by
  obtain ⟨hB, hk, hκ, hlab⟩ := hL.bent
  obtain ⟨h1, h2, h3, d2, h4⟩ := falls (safe_ogd c eta pow) (.ogd eta pow) (fun t _ _ => eta / pow t) (fun _ _ _ _ => rfl)
    (fun _ _ _ => rfl) hB hk hlab hC hv (fun t _ _ ht _ => by rw [hpow]; simpa using heta.le)
  have h5 := h4.bound (fun z => 2 * eta * (z.l - z.u) - eta ^ 2 * (κ * R ^ 2)) (by
    intro z hz
    have h6 := (pos_q hκ.le hC z hz).1
    obtain ⟨y, hy, rfl⟩ := List.mem_map.1 hz
    have hE : (posOf c D U L κ (fun t _ _ => eta / pow t) y).E = eta := by simp [posOf, hpow]
    rw [hE, sub_zero]
    have := mul_le_mul_of_nonneg_left h6 (sq_nonneg eta)
    linarith)
  rw [sum_affine, sum_const, ← suffered_pos, ← fixed_pos _ _ _ _ _ _ _ _ h1] at h5
  simp only [List.length_map, List.length_zip, h1, min_self] at h5
  have h6 : energy c D U / (2 * eta) = energy c D U * (1 / (2 * eta)) := by ring
  have h7 : (suffered L sts l).sum - (fixed L U l).sum - eta / 2 * (κ * R ^ 2) * l.length ≤ energy c D U / (2 * eta) := by
    rw [le_div_iff₀ (by positivity)]
    linarith
  linarith

/-- C63, decreasing step sizes: if the models stay within squared distance `B` of `U`, the regret is at most
    `B / (2 η_n) + κ R² Σ η / 2`, where `η_n` is the last step size. -/
theorem C63_decreasing (c : Cfg α) (m κ R eta0 B : α) (pow : Int → α) (L : Ex α → (Nat → α) → α) (Lab : Int → Prop)
    (Low : (Nat → α) → Prop) (hL : HingeLoss c m L κ Lab Low) (D : Nat) (U : Nat → Nat → α) (s s' : St α Unit)
    (l : List (Ex α × α)) (sts : List (St α Unit)) (hC : Compares c m Lab Low D R U s l sts)
    (hv : Visits (ogd eta0 pow) c s l sts s') (heta : 0 < eta0) (hpow : ∀ t, s.t < t → 0 < pow t)
    (hmono : ∀ t, s.t < t → pow t ≤ pow (t + 1)) (hB : ∀ st ∈ sts, away c D U st ≤ B) (hne : l ≠ []) :
    (suffered L sts l).sum ≤ (fixed L U l).sum + B * pow (s.t + l.length) / (2 * eta0)
      + κ * R ^ 2 / 2 * (sts.map fun st => eta0 / pow (st.t + 1)).sum := by
  obtain ⟨hBe, hk, hκ, hlab⟩ := hL.bent
  obtain ⟨h1, h2, h3, d2, h4⟩ := falls (safe_ogd c eta0 pow) (.ogd eta0 pow) (fun t _ _ => eta0 / pow t) (fun _ _ _ _ => rfl)
    (fun _ _ _ => rfl) hBe hk hlab hC hv (fun t _ _ ht _ => (div_pos heta (hpow t ht)).le)
  have hn : 0 < l.length := List.length_pos_of_ne_nil hne
  have hup : ∀ (i j : Nat), pow (s.t + 1 + i) ≤ pow (s.t + 1 + i + j) := by
    intro i j
    induction j with
    | zero => simp
    | succ j ih =>
      refine le_trans ih ?_
      have := hmono (s.t + 1 + i + j) (by omega)
      rw [show s.t + 1 + (i : Int) + ((j + 1 : Nat) : Int) = s.t + 1 + i + j + 1 by push_cast; ring]
      exact this
  have hzl : (sts.zip l).length = l.length := by simp [h1]
  have hEi : ∀ i (hi : i < (((sts.zip l).map (posOf c D U L κ (fun t _ _ => eta0 / pow t))).map (·.E)).length),
      (((sts.zip l).map (posOf c D U L κ (fun t _ _ => eta0 / pow t))).map (·.E))[i] = eta0 / pow (s.t + 1 + i) := by
    intro i hi
    simp only [List.getElem_map, List.getElem_zip, posOf]
    rw [h2 i (by simp at hi; omega)]
    congr 2
    ring
  have hmem : ∀ z ∈ (sts.zip l).map (posOf c D U L κ (fun t _ _ => eta0 / pow t)), ∃ i < l.length, z.E = eta0 / pow (s.t + 1 + i) := by
    intro z hz
    obtain ⟨i, hi, rfl⟩ := List.mem_iff_getElem.1 hz
    refine ⟨i, by simpa [h1] using hi, ?_⟩
    rw [← hEi i (by simpa using hi), List.getElem_map (f := fun z : Pos α => z.E)]
  have henergy : energy c D U ≤ B := by
    have hs : s ∈ sts := by
      cases hv with
      | nil => exact absurd rfl hne
      | cons _ _ => exact List.mem_cons_self
    refine le_trans (le_of_eq ?_) (hB s hs)
    unfold energy away
    refine Finset.sum_congr rfl fun k hk' => ?_
    have h0 : ∀ i, coord (s.w.getD k []) i = 0 := fun i => blank_cell hC.fit hC.blank k i (Finset.mem_range.1 hk')
    unfold unorm
    simp only [h0, zero_sub, neg_sq]
  have h5 := h4.bounded (B := B) (Q := κ * R ^ 2) (H := pow (s.t + l.length) / eta0) (by
      intro z hz
      obtain ⟨y, hy, rfl⟩ := List.mem_map.1 hz
      exact le_trans (le_of_eq (h3 y.1)) (hB y.1 (List.of_mem_zip hy).1))
    (fun z hz => (pos_q hκ.le hC z hz).1)
    (by
      intro z hz
      obtain ⟨i, -, h⟩ := hmem z hz
      rw [h]
      exact div_pos heta (hpow _ (by omega)))
    (by
      intro z hz
      obtain ⟨i, hi, h⟩ := hmem z hz
      rw [h, one_div_div]
      refine div_le_div_of_nonneg_right ?_ heta.le
      have := hup i (l.length - 1 - i)
      rw [show s.t + 1 + (i : Int) + ((l.length - 1 - i : Nat) : Int) = s.t + l.length by omega] at this
      exact this)
    henergy (eta0 / pow (s.t + 1)) (div_pos heta (hpow _ (by omega)))
    (by
      rw [one_div_div]
      refine div_le_div_of_nonneg_right ?_ heta.le
      have := hup 0 (l.length - 1)
      rw [show s.t + 1 + ((0 : Nat) : Int) + ((l.length - 1 : Nat) : Int) = s.t + l.length by omega] at this
      simpa using this)
    (by
      rw [List.isChain_iff_getElem]
      intro i hi
      have hlen : (((sts.zip l).map (posOf c D U L κ (fun t _ _ => eta0 / pow t))).map (·.E)).length = l.length := by simp [h1]
      have hi' : i < l.length := by simp [h1] at hi; omega
      rw [List.getElem_cons_succ, hEi]
      cases i with
      | zero => simp
      | succ i =>
        rw [List.getElem_cons_succ, hEi]
        refine div_le_div_of_nonneg_left heta.le (hpow _ (by omega)) ?_
        have := hup i 1
        rw [show s.t + 1 + (i : Int) + ((1 : Nat) : Int) = s.t + 1 + ((i + 1 : Nat) : Int) by push_cast; ring] at this
        exact this)
  have h6 : (energy c D U - B) / (2 * (eta0 / pow (s.t + 1))) ≤ 0 :=
    div_nonpos_of_nonpos_of_nonneg (by linarith) (by have := div_pos heta (hpow (s.t + 1) (by omega)); linarith)
  have h7 := sum_affine (fun z : Pos α => z.l) (fun z => z.u) (fun z => z.E / 2 * (κ * R ^ 2)) 1
    ((sts.zip l).map (posOf c D U L κ (fun t _ _ => eta0 / pow t)))
  simp only [one_mul] at h7
  simp only [sub_zero] at h5
  rw [h7, ← suffered_pos, ← fixed_pos _ _ _ _ _ _ _ _ h1] at h5
  have e1 : (sts.map fun st => eta0 / pow (st.t + 1)) = ((sts.zip l).map (posOf c D U L κ (fun t _ _ => eta0 / pow t))).map (·.E) := by
    conv_lhs => rw [← List.map_fst_zip (l₁ := sts) (l₂ := l) (by omega)]
    rw [List.map_map, List.map_map]
    rfl
  have e2 : (((sts.zip l).map (posOf c D U L κ (fun t _ _ => eta0 / pow t))).map fun z => z.E / 2 * (κ * R ^ 2)).sum
      = κ * R ^ 2 / 2 * (((sts.zip l).map (posOf c D U L κ (fun t _ _ => eta0 / pow t))).map (·.E)).sum := by
    rw [← List.sum_map_mul_left]
    congr 1
    exact List.map_congr_left fun z _ => by ring
  rw [e1]
  rw [e2] at h5
  have e3 : B / 2 * (pow (s.t + l.length) / eta0) = B * pow (s.t + l.length) / (2 * eta0) := by field_simp
  linarith

/-! ### C64: the passive-aggressive algorithms -/

/-- C64, PA: if `U` has no loss on any example, the squares of the losses add up to at most `κ R² |U|²`. -/
theorem C64_pa (c : Cfg α) (m κ R : α) (L : Ex α → (Nat → α) → α) (Lab : Int → Prop)
    (Low : (Nat → α) → Prop) (hL : HingeLoss c m L κ Lab Low) (D : Nat) (U : Nat → Nat → α) (s s' : St α Unit)
    (l : List (Ex α × α)) (sts : List (St α Unit)) (hC : Compares c m Lab Low D R U s l sts)
    (hv : Visits (pa κ) c s l sts s') (hb : c.biasEta0 = 0) (hx : ∀ q ∈ l, 0 < sqnorm q.1.x)
    (hU : ∀ q ∈ l, L q.1 (scoresOf U q.1.x) = 0) :
    ((suffered L sts l).map (· ^ 2)).sum ≤ κ * R ^ 2 * energy c D U := by
  obtain ⟨hB, hk, hκ, hlab⟩ := hL.bent
  obtain ⟨h1, h2, h3, d2, h4⟩ := falls (safe_pa c κ) (.pa κ) (fun _ x lo => lo / (κ * norm2 x)) (fun _ _ _ _ => rfl)
    (fun _ _ _ => rfl) hB hk hlab hC hv (fun t x lo _ hlo => by
      rw [norm2_eq]; exact div_nonneg hlo (mul_nonneg hκ.le (sqnorm_nonneg _)))
  by_cases hne : l = []
  · subst hne
    have he := h4.nonneg.1
    simp only [suffered, List.zip_nil_right, List.map_nil, List.sum_nil]
    positivity
  obtain ⟨q0, hq0⟩ := List.exists_mem_of_ne_nil l hne
  have hR : 0 < R ^ 2 := by
    have := (hC.tame q0 hq0).2.2
    have := hx q0 hq0
    rw [hb] at *
    linarith
  have h5 := h4.bound (fun z => (κ * R ^ 2)⁻¹ * z.l ^ 2) (by
    intro z hz
    have h6 := pos_q hκ.le hC z hz
    obtain ⟨y, hy, rfl⟩ := List.mem_map.1 hz
    have hy2 := (List.of_mem_zip hy).2
    have hpos := hx y.2 hy2
    have hu := hU y.2 hy2
    generalize hw : posOf c D U L κ (fun _ x lo => lo / (κ * norm2 x)) y = w at *
    have hq : w.q = κ * sqnorm y.2.1.x := by rw [← hw]; simp [posOf, hb]
    have hE : w.E = w.l / (κ * sqnorm y.2.1.x) := by rw [← hw]; simp [posOf, norm2_eq]
    have hu' : w.u = 0 := by rw [← hw]; exact hu
    have hqp : 0 < κ * sqnorm y.2.1.x := mul_pos hκ hpos
    rw [hE, hu', hq]
    have e : 2 * (w.l / (κ * sqnorm y.2.1.x)) * (w.l - 0 - 0) - (w.l / (κ * sqnorm y.2.1.x)) ^ 2 * (κ * sqnorm y.2.1.x)
        = (κ * sqnorm y.2.1.x)⁻¹ * w.l ^ 2 := by field_simp; ring
    rw [e]
    refine mul_le_mul_of_nonneg_right ?_ (sq_nonneg _)
    rw [hq] at h6
    exact inv_anti₀ hqp h6.1)
  rw [List.sum_map_mul_left, inv_mul_le_iff₀ (by positivity)] at h5
  rw [suffered_pos c D U L κ (fun _ x lo => lo / (κ * norm2 x)), List.map_map]
  exact h5

/-- C64, PA-I: the number of examples with loss at least 1, times the smaller of `C` and `1/(κ R²)`, is at most `|U|²` plus
    `2 C` times the cumulative loss of `U`. -/
theorem C64_pa1 (c : Cfg α) (m κ R C : α) (L : Ex α → (Nat → α) → α) (Lab : Int → Prop)
    (Low : (Nat → α) → Prop) (hL : HingeLoss c m L κ Lab Low) (D : Nat) (U : Nat → Nat → α) (s s' : St α Unit)
    (l : List (Ex α × α)) (sts : List (St α Unit)) (hC : Compares c m Lab Low D R U s l sts)
    (hv : Visits (pa1 C κ) c s l sts s') (hC0 : 0 ≤ C) (hb : c.biasEta0 = 0) (hx : ∀ q ∈ l, 0 < sqnorm q.1.x) :
    ((suffered L sts l).countP fun lo => decide (1 ≤ lo) : Nat) * min C (1 / (κ * R ^ 2))
      ≤ energy c D U + 2 * C * (fixed L U l).sum := by
  obtain ⟨hB, hk, hκ, hlab⟩ := hL.bent
  obtain ⟨h1, h2, h3, d2, h4⟩ := falls (safe_pa1 c C κ) (.pa1 C κ) (fun _ x lo => fmin C (lo / (κ * norm2 x))) (fun _ _ _ _ => rfl)
    (fun _ _ _ => rfl) hB hk hlab hC hv (fun t x lo _ hlo => by
      rw [norm2_eq]
      unfold fmin
      split
      · exact div_nonneg hlo (mul_nonneg hκ.le (sqnorm_nonneg _))
      · exact hC0)
  have h5 := h4.bound (fun z => 1 * ((if 1 ≤ z.l then min C (1 / (κ * R ^ 2)) else 0) - 2 * C * z.u) - 0) (by
    intro z hz
    have h6 := pos_q hκ.le hC z hz
    obtain ⟨y, hy, rfl⟩ := List.mem_map.1 hz
    have hy2 := (List.of_mem_zip hy).2
    have hpos := hx y.2 hy2
    have hl0 : 0 ≤ (posOf c D U L κ (fun _ x lo => fmin C (lo / (κ * norm2 x))) y).l := hB.nonneg _ _
    have hu0 : 0 ≤ (posOf c D U L κ (fun _ x lo => fmin C (lo / (κ * norm2 x))) y).u := hB.nonneg _ _
    generalize hw : posOf c D U L κ (fun _ x lo => fmin C (lo / (κ * norm2 x))) y = w at *
    have hq : w.q = κ * sqnorm y.2.1.x := by rw [← hw]; simp [posOf, hb]
    have hE : w.E = min C (w.l / w.q) := by
      rw [hq, ← hw]
      simp only [posOf, norm2_eq, fmin]
      split
      · rename_i h; simp only [flt_iff] at h; rw [min_eq_right h.le]
      · rename_i h; simp only [flt_iff, not_lt] at h; rw [min_eq_left h]
    have hqp : 0 < w.q := by rw [hq]; exact mul_pos hκ hpos
    have hE0 : 0 ≤ w.E := by rw [hE]; exact le_min hC0 (div_nonneg hl0 hqp.le)
    have hEC : w.E ≤ C := by rw [hE]; exact min_le_left _ _
    have hEq : w.E * w.q ≤ w.l := by
      have : w.E ≤ w.l / w.q := by rw [hE]; exact min_le_right _ _
      rwa [le_div_iff₀ hqp] at this
    have a1 : w.E ^ 2 * w.q ≤ w.E * w.l := by
      have := mul_le_mul_of_nonneg_left hEq hE0
      linarith
    have a2 : w.E * w.u ≤ C * w.u := mul_le_mul_of_nonneg_right hEC hu0
    have a3 : (if 1 ≤ w.l then min C (1 / (κ * R ^ 2)) else 0) ≤ w.E * w.l := by
      split
      · rename_i h
        have a4 : min C (1 / (κ * R ^ 2)) ≤ w.E := by
          rw [hE]
          refine min_le_min (le_refl _) ?_
          refine le_trans (one_div_le_one_div_of_le hqp h6.1) ?_
          exact div_le_div_of_nonneg_right h hqp.le
        have := mul_le_mul_of_nonneg_left h hE0
        linarith
      · exact mul_nonneg hE0 hl0
    simp only [one_mul, sub_zero]
    linarith)
  rw [sum_affine] at h5
  simp only [one_mul, List.map_const', List.sum_replicate, smul_zero, sub_zero, List.sum_map_mul_left] at h5
  rw [← fixed_pos _ _ _ _ _ _ _ _ h1] at h5
  rw [suffered_pos c D U L κ (fun _ x lo => fmin C (lo / (κ * norm2 x)))]
  have e : ∀ Q : List (Pos α), ((Q.map (·.l)).countP (fun lo => decide (1 ≤ lo)) : Nat) * min C (1 / (κ * R ^ 2))
      = (Q.map fun z => if 1 ≤ z.l then min C (1 / (κ * R ^ 2)) else 0).sum := by
    intro Q
    induction Q with
    | nil => simp
    | cons z Q ih =>
      simp only [List.map_cons, List.sum_cons, List.countP_cons, ← ih, decide_eq_true_eq]
      split <;> push_cast <;> ring
  rw [e]
  linarith

/-- C64, PA-II: the squares of the losses add up to at most `(κ R² + 1/(2C)) (|U|² + 2 C Σ u²)`, where `u` are the losses of
    `U`. -/
theorem C64_pa2 (c : Cfg α) (m κ R C : α) (L : Ex α → (Nat → α) → α) (Lab : Int → Prop)
    (Low : (Nat → α) → Prop) (hL : HingeLoss c m L κ Lab Low) (D : Nat) (U : Nat → Nat → α) (s s' : St α Unit)
    (l : List (Ex α × α)) (sts : List (St α Unit)) (hC : Compares c m Lab Low D R U s l sts)
    (hv : Visits (pa2 C κ) c s l sts s') (hC0 : 0 < C) (hb : c.biasEta0 = 0) :
    ((suffered L sts l).map (· ^ 2)).sum
      ≤ (κ * R ^ 2 + 1 / (2 * C)) * (energy c D U + 2 * C * ((fixed L U l).map (· ^ 2)).sum) := by
  obtain ⟨hB, hk, hκ, hlab⟩ := hL.bent
  have hhalf : (1 : α) / (1 + 1) / C = 1 / (2 * C) := by field_simp; norm_num
  have hCp : 0 < 1 / (2 * C) := by positivity
  obtain ⟨h1, h2, h3, d2, h4⟩ := falls (safe_pa2 c C κ) (.pa2 C κ) (fun _ x lo => lo / (κ * norm2 x + 1 / (1 + 1) / C))
    (fun _ _ _ _ => rfl) (fun _ _ _ => rfl) hB hk hlab hC hv (fun t x lo _ hlo => by
      rw [norm2_eq, hhalf]
      exact div_nonneg hlo (add_nonneg (mul_nonneg hκ.le (sqnorm_nonneg _)) hCp.le))
  have hRp : 0 < κ * R ^ 2 + 1 / (2 * C) := by positivity
  have h5 := h4.bound (fun z => 1 * ((κ * R ^ 2 + 1 / (2 * C))⁻¹ * z.l ^ 2 - 2 * C * z.u ^ 2) - 0) (by
    intro z hz
    have h6 := pos_q hκ.le hC z hz
    obtain ⟨y, hy, rfl⟩ := List.mem_map.1 hz
    generalize hw : posOf c D U L κ (fun _ x lo => lo / (κ * norm2 x + 1 / (1 + 1) / C)) y = w at *
    have hq : w.q = κ * sqnorm y.2.1.x := by rw [← hw]; simp [posOf, hb]
    have hE : w.E = w.l / (w.q + 1 / (2 * C)) := by rw [hq, ← hw]; simp only [posOf, norm2_eq, hhalf]
    have hqp : 0 < w.q + 1 / (2 * C) := by linarith [h6.2]
    have a1 : (κ * R ^ 2 + 1 / (2 * C))⁻¹ * w.l ^ 2 ≤ (w.q + 1 / (2 * C))⁻¹ * w.l ^ 2 := by
      refine mul_le_mul_of_nonneg_right (inv_anti₀ hqp (by linarith [h6.1])) (sq_nonneg _)
    have a2 : w.E * (w.q + 1 / (2 * C)) = w.l := by rw [hE]; exact div_mul_cancel₀ _ (ne_of_gt hqp)
    have a3 : (w.q + 1 / (2 * C))⁻¹ * w.l ^ 2 = w.E * w.l := by rw [hE]; field_simp
    have a4 : 0 ≤ 1 / (2 * C) * (w.E - 2 * C * w.u) ^ 2 := by positivity
    have a5 : 1 / (2 * C) * (w.E - 2 * C * w.u) ^ 2 = 1 / (2 * C) * w.E ^ 2 - 2 * (w.E * w.u) + 2 * C * w.u ^ 2 := by
      field_simp; ring
    have a6 : w.E ^ 2 * w.q = w.E * w.l - 1 / (2 * C) * w.E ^ 2 := by rw [← a2]; ring
    simp only [one_mul, sub_zero]
    rw [a6]
    linarith)
  rw [sum_affine] at h5
  simp only [one_mul, List.map_const', List.sum_replicate, smul_zero, sub_zero, List.sum_map_mul_left] at h5
  rw [suffered_pos c D U L κ (fun _ x lo => lo / (κ * norm2 x + 1 / (1 + 1) / C)),
    fixed_pos c D U L κ (fun _ x lo => lo / (κ * norm2 x + 1 / (1 + 1) / C)) sts l h1]
  rw [← inv_mul_le_iff₀ hRp]
  have e1 : ∀ Q : List (Pos α), (Q.map fun z : Pos α => z.l).map (· ^ 2) = Q.map fun z => z.l ^ 2 := fun Q => by
    rw [List.map_map]; rfl
  have e2 : ∀ Q : List (Pos α), (Q.map fun z : Pos α => z.u).map (· ^ 2) = Q.map fun z => z.u ^ 2 := fun Q => by
    rw [List.map_map]; rfl
  rw [e1, e2]
  linarith

/-- A wrongly predicted example has at least the margin as its loss. -/
theorem wrong_loss {c : Cfg α} {m κ : α} {L : Ex α → (Nat → α) → α} {Lab : Int → Prop} {Low : (Nat → α) → Prop}
    (hL : HingeLoss c m L κ Lab Low) {e : Ex α} {p : List α} {pred : Int} (hp : p.length = c.clf)
    (hpred : labelOf c.clf p = .ok pred) (hlab : Lab e.label) (hne : pred ≠ e.label) : m ≤ L e (fun k => p.getD k 0) := by
  cases hL with
  | binary h1 h2 =>
    rw [h2] at hp hpred
    obtain ⟨a, rfl⟩ := List.length_eq_one_iff.1 hp
    have hs : sign a = pred := by simpa [labelOf, lget] using hpred
    unfold sign at hs
    refine le_trans ?_ (le_max_right _ _)
    rcases hlab with h | h
    · rw [h] at hne ⊢
      split at hs
      · exact absurd hs.symm hne
      · rename_i h; simp at h; simp; linarith
    · rw [h] at hne ⊢
      split at hs
      · rename_i h; simp at h; simpa using h
      · exact absurd hs.symm hne
  | multi h1 h2 =>
    obtain ⟨q, rfl, hq, hmax⟩ := label_multi h2 hp hpred
    have hy : e.label.toNat < c.clf := by omega
    refine le_trans ?_ (maxHingeOf_ge m e _ hq (by omega))
    have := hmax _ hy
    linarith

/-- The number of wrong predictions during a run is at most the number of losses that reach the margin. -/
theorem C64_mistakes (c : Cfg α) (m κ : α) (L : Ex α → (Nat → α) → α) (Lab : Int → Prop) (Low : (Nat → α) → Prop)
    (hL : HingeLoss c m L κ Lab Low) (G : Alg α Unit) (hG : Known c G (none' Unit)) (hm : Margin G) (s s' : St α Unit)
    (hs : Fit c (none' Unit) s) (l : List (Ex α × α)) (hl : ∀ q ∈ l, Good q.1.x ∧ Lab q.1.label)
    (evs : List Event) (ht : Trace G c s l evs s') (sts : List (St α Unit)) (hv : Visits G c s l sts s') :
    wrong l evs ≤ (suffered L sts l).countP fun lo => decide (m ≤ lo) := by
  obtain ⟨-, hk, -, hlab⟩ := hL.bent
  have hG := known_safe hG
  induction ht generalizing sts with
  | nil s => simp [wrong]
  | @cons s s1 s2 e r ev l evs hh ht ih =>
    obtain ⟨hx, hle⟩ := hl (e, r) List.mem_cons_self
    have hf1 := fit_happens hG hk hs hx (hlab _ hle) hh
    cases hv with
    | @cons _ s1' _ _ _ _ sts hone hv =>
      obtain ⟨s0, s1'', p, g1, g2, g3, -, -, g4⟩ := hh
      rw [hone] at g4
      obtain rfl := Res.ok.inj g4
      have ih' := ih hf1 (fun q hq => hl q (List.mem_cons_of_mem _ hq)) sts hv
      obtain ⟨hb, hp, -⟩ := margin_hooks hm
      rw [hb] at g1
      obtain rfl := Res.ok.inj g1
      rw [hp] at g2
      obtain rfl := Res.ok.inj g2
      have hfe : Fit c (none' Unit) (enter G s e.x) := enter_fit hs e.x
      obtain ⟨hpe, hpred⟩ := predict_eq hfe hx.1 g3
      have hpl : p.length = c.clf := by rw [hpe, List.length_map, hfe.w.1]
      have hsc := scores_cell (G := G) hs hx g3
      unfold wrong suffered
      simp only [List.zip_cons_cons, List.map_cons, List.countP_cons]
      by_cases hne : ev.pred = e.label
      · rw [if_pos hne]
        unfold suffered at ih'
        omega
      · have := wrong_loss hL hpl hpred hle hne
        rw [hsc] at this
        have h2 : m ≤ L e (scoresOf (fun k i => coord (s.w.getD k []) i) e.x) := this
        rw [if_neg hne, if_pos (decide_eq_true h2)]
        unfold suffered at ih'
        omega

/-- C64, mistakes of PA-I with margin 1. -/
theorem C64_pa1_mistakes (c : Cfg α) (κ R C : α) (L : Ex α → (Nat → α) → α) (Lab : Int → Prop)
    (Low : (Nat → α) → Prop) (hL : HingeLoss c 1 L κ Lab Low) (D : Nat) (U : Nat → Nat → α) (s s' : St α Unit)
    (l : List (Ex α × α)) (sts : List (St α Unit)) (hC : Compares c 1 Lab Low D R U s l sts)
    (hv : Visits (pa1 C κ) c s l sts s') (evs : List Event) (ht : Trace (pa1 C κ) c s l evs s')
    (hC0 : 0 ≤ C) (hb : c.biasEta0 = 0) (hx : ∀ q ∈ l, 0 < sqnorm q.1.x) :
    (wrong l evs : α) * min C (1 / (κ * R ^ 2)) ≤ energy c D U + 2 * C * (fixed L U l).sum := by
  refine le_trans ?_ (C64_pa1 c 1 κ R C L Lab Low hL D U s s' l sts hC hv hC0 hb hx)
  have h1 := C64_mistakes c 1 κ L Lab Low hL (pa1 C κ) (.pa1 C κ) (.pa1 C κ) s s' hC.fit l
    (fun q hq => ⟨(hC.tame q hq).1, hC.labels q hq⟩) evs ht sts hv
  refine mul_le_mul_of_nonneg_right (by exact_mod_cast h1) (le_min hC0 ?_)
  have := hL.bent.2.2.1
  positivity

/-- Every run over usable examples visits models: the hypothesis `Visits` can be met. -/
theorem C63_runs {A : Type} (c : Cfg α) (G : Alg α A) (inv : Nat → A → Prop) (hG : Known c G inv) (hk : Matches c.kind c.clf)
    (l : List (Ex α × α)) (hl : Usable c l) (s : St α A) (hs : Fit c inv s) :
    ∃ sts s', Visits G c s l sts s' := by
  have hG := known_safe hG
  induction l generalizing s with
  | nil => exact ⟨_, _, .nil s⟩
  | cons q l ih =>
    obtain ⟨e, r⟩ := q
    obtain ⟨hx, hle⟩ := hl (e, r) List.mem_cons_self
    obtain ⟨ev, s1, hh, hf, -⟩ := happens hG hk s hs e r hx hle
    obtain ⟨sts, s', hv⟩ := ih (fun q hq => hl q (List.mem_cons_of_mem _ hq)) s1 hf
    obtain ⟨_, _, _, _, _, _, _, _, h1⟩ := hh
    exact ⟨_, _, .cons h1 hv⟩

end

/-! ### The logistic loss -/

/-- The logistic loss of a score for a label +1 or -1. -/
noncomputable def logisticOf (e : Ex ℝ) (v : Nat → ℝ) : ℝ := Real.log (1 + Real.exp (-((e.label : ℝ) * v 0)))

theorem slope_range (z : ℝ) : 0 ≤ slope z ∧ slope z ≤ 1 := by
  unfold slope
  split_ifs
  · exact ⟨zero_le_one, le_refl _⟩
  · exact ⟨le_refl _, zero_le_one⟩
  · have := Real.exp_pos (-z)
    unfold σ
    exact ⟨by positivity, (div_le_one (by linarith)).2 (by linarith)⟩

theorem bent_logistic {c : Cfg ℝ} (hk : c.kind = .logistic) (hc : c.clf = 1) (m : ℝ) :
    Bent c m (fun e v => softplus (-(v 0) * (e.label : ℝ))) 1 (Real.exp (-100)) (fun y => y = 1 ∨ y = -1) (fun _ => True) where
  nonneg e v := softplus_nonneg _
  sq := zero_le_one
  err := (Real.exp_pos _).le
  grad e p pred g0 vi l g m' v' hp hg _ hlab _ h := by
    rw [hk] at h
    rw [hc] at hp hg ⊢
    obtain ⟨a, rfl⟩ := List.length_eq_one_iff.1 hp
    obtain ⟨b, rfl⟩ := List.length_eq_one_iff.1 hg
    rw [logistic_gradient] at h
    simp only [Res.ok.injEq, Prod.mk.injEq] at h
    obtain ⟨rfl, rfl, rfl, -⟩ := h
    refine ⟨rfl, rfl, fun _ => ⟨?_, fun v => ?_⟩⟩
    · rw [Finset.sum_range_one]
      have hs := slope_range (-a * (e.label : ℝ))
      have hy : (e.label : ℝ) * (e.label : ℝ) = 1 := label_sq hlab
      simp only [List.getD_cons_zero]
      have : -(e.label : ℝ) * slope (-a * e.label) * (-(e.label : ℝ) * slope (-a * e.label))
          = slope (-a * e.label) * slope (-a * e.label) := by
        linear_combination slope (-a * e.label) * slope (-a * e.label) * hy
      rw [this]
      exact mul_le_one₀ hs.2 hs.1 hs.2
    · rw [Finset.sum_range_one]
      have := softplus_tangent (-a * (e.label : ℝ)) (-(v 0) * (e.label : ℝ))
      simp only [List.getD_cons_zero]
      linarith

/-- C63 for the logistic loss, constant step size: as for the hinge loss, up to `2 exp(-100)` per example for the cut-offs
    of the code. -/
theorem C63_logistic (c : Cfg ℝ) (hkind : c.kind = .logistic) (hclf : c.clf = 1) (m R eta : ℝ) (pow : Int → ℝ)
    (D : Nat) (U : Nat → Nat → ℝ) (s s' : St ℝ Unit) (l : List (Ex ℝ × ℝ)) (sts : List (St ℝ Unit))
    (hC : Compares c m (fun y => y = 1 ∨ y = -1) (fun _ => True) D R U s l sts)
    (hv : Visits (ogd eta pow) c s l sts s') (heta : 0 < eta) (hpow : ∀ t, pow t = 1) :
    (suffered logisticOf sts l).sum ≤ (fixed logisticOf U l).sum + energy c D U / (2 * eta) + eta / 2 * R ^ 2 * l.length
      + 2 * Real.exp (-100) * l.length := by
  have hB := bent_logistic hkind hclf m
  obtain ⟨h1, h2, h3, d2, h4⟩ := falls (safe_ogd c eta pow) (.ogd eta pow) (fun t _ _ => eta / pow t) (fun _ _ _ _ => rfl)
    (fun _ _ _ => rfl) hB (by rw [hkind]; exact hclf) (fun _ _ => .inl hclf) hC hv
    (fun t _ _ ht _ => by rw [hpow]; simpa using heta.le)
  have h5 := h4.bound (fun z => 2 * eta * (z.l - z.u) - (2 * eta * Real.exp (-100) + eta ^ 2 * R ^ 2)) (by
    intro z hz
    have h6 := (pos_q zero_le_one hC z hz).1
    obtain ⟨y, hy, rfl⟩ := List.mem_map.1 hz
    rw [show (posOf c D U (fun e v => softplus (-(v 0) * (e.label : ℝ))) 1 (fun t _ _ => eta / pow t) y).E = eta by
      simp [posOf, hpow]]
    have := mul_le_mul_of_nonneg_left h6 (sq_nonneg eta)
    linarith)
  rw [sum_affine, sum_const, ← suffered_pos, ← fixed_pos _ _ _ _ _ _ _ _ h1] at h5
  simp only [List.length_map, List.length_zip, h1, min_self] at h5
  have e : ∀ (e : Ex ℝ) (v : Nat → ℝ), logisticOf e v = f (-(v 0) * (e.label : ℝ)) := by
    intro e v
    unfold logisticOf f
    congr 3
    ring
  have h6 : (suffered logisticOf sts l).sum ≤ (suffered (fun e v => softplus (-(v 0) * (e.label : ℝ))) sts l).sum
      + l.length * Real.exp (-100) := by
    have h7 : (suffered logisticOf sts l).sum ≤ ((sts.zip l).map fun z => softplus
        (-(scoresOf (fun k i => coord (z.1.w.getD k []) i) z.2.1.x 0) * (z.2.1.label : ℝ)) + Real.exp (-100)).sum := by
      refine List.sum_le_sum fun z _ => ?_
      rw [e]
      exact f_le_softplus _
    rw [List.sum_map_add] at h7
    simp only [List.map_const', List.sum_replicate, List.length_zip, h1, min_self, nsmul_eq_mul] at h7
    exact h7
  have h8 : (fixed (fun e v => softplus (-(v 0) * (e.label : ℝ))) U l).sum ≤ (fixed logisticOf U l).sum :=
    List.sum_le_sum fun q _ => by rw [e]; exact softplus_le_f _
  have h9 : (suffered (fun e v => softplus (-(v 0) * (e.label : ℝ))) sts l).sum
      - (fixed (fun e v => softplus (-(v 0) * (e.label : ℝ))) U l).sum - l.length * Real.exp (-100) - eta / 2 * R ^ 2 * l.length
      ≤ energy c D U / (2 * eta) := by
    rw [le_div_iff₀ (by positivity)]
    linarith
  linarith

/-! ### Instances -/

deriving instance DecidableEq for Res
deriving instance DecidableEq for St

/-- Three examples of which no linear function through the origin gets all right. -/
def noisy : List (Ex Rat × Rat) := [(⟨1, [(1, 1)]⟩, 0), (⟨-1, [(1, 1)]⟩, 0), (⟨1, [(1, 1)]⟩, 0)]

/-- The models of online gradient descent with step 1/2. -/
def noisyModels : List (St Rat Unit) :=
  [model1 (), ⟨2, [[0, 1 / 2]], [-1], 1 / 2, 1, 0, 1, 1, 1, 0, false, ()⟩, ⟨2, [[0, 0]], [1], 1 / 2, 1, 0, 2, 2, 2, 1, false, ()⟩]

/-- A run that meets the hypotheses of C63, compared with the function `x ↦ x`: losses 1, 3/2, 1 against 0, 2, 0; the bound
    is 2 + 1 + 3/4. -/
theorem C63_instance :
    letI : FFun Rat := lowFun
    letI : FSqrt Rat := ⟨fun a => a⟩
    (∃ s', Visits (ogd (1 / 2) fun _ => 1) (cfg1 : Cfg Rat) (model1 ()) noisy noisyModels s') ∧
    HingeLoss (cfg1 : Cfg Rat) 1 (hingeOf 1) 1 (fun y => y = 1 ∨ y = -1) (fun _ => True) ∧
    Compares (cfg1 : Cfg Rat) 1 (fun y => y = 1 ∨ y = -1) (fun _ => True) 2 1 (fun _ i => if i = 1 then 1 else 0) (model1 ()) noisy
      noisyModels ∧
    suffered (hingeOf 1) noisyModels noisy = [1, 3 / 2, 1] ∧
    fixed (hingeOf 1) (fun _ i => if i = 1 then 1 else 0) noisy = [0, 2, 0] ∧
    energy (cfg1 : Cfg Rat) 2 (fun _ i => if i = 1 then 1 else 0) = 1 := by
  letI : FFun Rat := lowFun
  letI : FSqrt Rat := ⟨fun a => a⟩
  refine ⟨⟨⟨2, [[0, 1 / 2]], [-1], 1 / 2, 1, 0, 3, 3, 3, 1, false, ()⟩, .cons (by decide +kernel) (.cons (by decide +kernel)
    (.cons (by decide +kernel) (.nil _)))⟩, .binary rfl rfl, ?_, by decide +kernel, by decide +kernel, by decide +kernel⟩
  refine ⟨rfl, le_refl _, rfl, le_refl _, by decide, fun _ _ _ => rfl, ⟨by decide, ⟨rfl, by simp [model1]⟩, rfl, trivial⟩,
    by simp [Blank, model1], rfl, ?_, ?_, fun _ _ => trivial⟩
  · intro q hq
    simp only [noisy, List.mem_cons, List.not_mem_nil, or_false] at hq
    rcases hq with rfl | rfl | rfl <;>
      exact ⟨⟨by simp [Ascending], by simp⟩, by simp, by norm_num [sqnorm, cfg1]⟩
  · intro q hq
    simp only [noisy, List.mem_cons, List.not_mem_nil, or_false] at hq
    rcases hq with rfl | rfl | rfl <;> simp

/-- Three classes, one example each. -/
def three : List (Ex Rat × Rat) := [(⟨0, [(1, 1)]⟩, 0), (⟨1, [(2, 1)]⟩, 0), (⟨2, [(1, 1), (2, 1)]⟩, 0)]

/-- The linear functions compared with: the scores of the example of class 2 differ by 1 as well. -/
def threeFuns (k i : Nat) : Rat :=
  if i = 1 then (if k = 0 then 1 else if k = 1 then -2 else 0) else if i = 2 then (if k = 0 then -2 else if k = 1 then 1 else 0) else 0

/-- The models of PA (step halved for several classes). -/
def threeModels : List (St Rat Unit) :=
  [model3 (), ⟨2, [[0, 1 / 2], [0, -1 / 2], [0, 0]], [-1, 1, 0], 1 / 2, 1, 0, 1, 1, 1, 0, false, ()⟩,
   ⟨3, [[0, 1 / 2, -1 / 2], [0, -1 / 2, 1 / 2], [0, 0, 0]], [1, -1, 0], 1 / 2, 1, 0, 2, 2, 2, 1, false, ()⟩]

/-- A run with three classes that meets the hypotheses of C64 for PA: losses 1, 1, 1; the bound is `2 * 2 * 10`. -/
theorem C64_instance :
    letI : FFun Rat := lowFun
    letI : FSqrt Rat := ⟨fun a => a⟩
    let c : Cfg Rat := { cfg3 with lazyUpdate := false }
    (∃ s', Visits (pa 2) c (model3 ()) three threeModels s') ∧
    HingeLoss c 1 (maxHingeOf 3 1) 2 (fun y => 0 ≤ y ∧ y < 3) (fun v => ∀ k < 3, FFun.lowest < v k) ∧
    Compares c 1 (fun y => 0 ≤ y ∧ y < 3) (fun v => ∀ k < 3, FFun.lowest < v k) 3 2 threeFuns (model3 ()) three threeModels ∧
    (∀ q ∈ three, 0 < sqnorm q.1.x ∧ maxHingeOf 3 1 q.1 (scoresOf threeFuns q.1.x) = 0) ∧
    suffered (maxHingeOf 3 1) threeModels three = [1, 1, 1] ∧ energy c 3 threeFuns = 10 := by
  letI : FFun Rat := lowFun
  letI : FSqrt Rat := ⟨fun a => a⟩
  intro c
  refine ⟨⟨⟨3, [[0, 1 / 4, -3 / 4], [0, -1 / 2, 1 / 2], [0, 1 / 4, 1 / 4]], [1, 0, -1], 1 / 4, 1, 0, 3, 3, 3, 2, false, ()⟩,
    .cons (by decide +kernel) (.cons (by decide +kernel) (.cons (by decide +kernel) (.nil _)))⟩,
    .multi rfl (by decide), ?_, by decide +kernel, by decide +kernel, by decide +kernel⟩
  refine ⟨rfl, le_refl _, rfl, le_refl _, by decide, fun _ _ _ => rfl, ⟨by decide, ⟨rfl, by simp [model3]⟩, rfl, trivial⟩,
    by simp [Blank, model3], rfl, ?_, ?_, by decide +kernel⟩
  · intro q hq
    simp only [three, List.mem_cons, List.not_mem_nil, or_false] at hq
    rcases hq with rfl | rfl | rfl <;>
      exact ⟨⟨by simp [Ascending], by simp⟩, by simp, by norm_num [sqnorm, c, cfg3]⟩
  · intro q hq
    simp only [three, List.mem_cons, List.not_mem_nil, or_false] at hq
    rcases hq with rfl | rfl | rfl <;> simp

end Sol.Props
