import Verif.Proofs.Exact
/-! The mistake bound of the perceptron. -/

set_option linter.unusedSectionVars false
set_option linter.unusedVariables false

namespace Sol.Olm

open Sol.Online Sol.Sparse Sol.Loss Sol.Spec

section
variable {α A : Type} [Field α]

/-- The inner product of weight families with the bias coordinates divided by `b`. -/
def ip (n D : Nat) (b : α) (V U : Nat → Nat → α) : α :=
  ∑ k ∈ Finset.range n, ∑ i ∈ Finset.range D, (if i = 0 then b⁻¹ else 1) * V k i * U k i

theorem ip_comm (n D : Nat) (b : α) (V U : Nat → Nat → α) : ip n D b V U = ip n D b U V := by
  unfold ip
  refine Finset.sum_congr rfl fun k _ => Finset.sum_congr rfl fun i _ => ?_
  ring

theorem ip_congr {n D : Nat} {b : α} {V V' U U' : Nat → Nat → α} (h : ∀ k < n, ∀ i, V k i = V' k i)
    (h' : ∀ k < n, ∀ i, U k i = U' k i) : ip n D b V U = ip n D b V' U' := by
  unfold ip
  refine Finset.sum_congr rfl fun k hk => Finset.sum_congr rfl fun i _ => ?_
  rw [h k (Finset.mem_range.1 hk), h' k (Finset.mem_range.1 hk)]

theorem ip_sub (n D : Nat) (b : α) (V X U : Nat → Nat → α) :
    ip n D b (fun k i => V k i - X k i) U = ip n D b V U - ip n D b X U := by
  unfold ip
  rw [← Finset.sum_sub_distrib]
  refine Finset.sum_congr rfl fun k _ => ?_
  rw [← Finset.sum_sub_distrib]
  refine Finset.sum_congr rfl fun i _ => ?_
  ring

theorem ip_smul (n D : Nat) (b a : α) (V U : Nat → Nat → α) :
    ip n D b (fun k i => a * V k i) U = a * ip n D b V U := by
  unfold ip
  rw [Finset.mul_sum]
  refine Finset.sum_congr rfl fun k _ => ?_
  rw [Finset.mul_sum]
  refine Finset.sum_congr rfl fun i _ => ?_
  ring

/-- The inner product with the direction of an update is the score. -/
theorem ip_dir {n D : Nat} {b : α} {x : SVec α} (hx : Ascending x) (h1 : ∀ p ∈ x, 1 ≤ p.1 ∧ p.1 < D) (hD : 1 ≤ D)
    (g : Nat → α) (U : Nat → Nat → α) (hb : b = 0 → ∀ k < n, U k 0 = 0) :
    ip n D b (fun k i => g k * dir b x i) U = ∑ k ∈ Finset.range n, g k * (linear (U k) x + U k 0) := by
  unfold ip
  refine Finset.sum_congr rfl fun k hk => ?_
  have hk := Finset.mem_range.1 hk
  rw [linear_sum hx fun p hp => (h1 p hp).2, mul_add, Finset.mul_sum]
  have h0 : feat x 0 = 0 := feat_eq_zero fun p hp => by have := (h1 p hp).1; omega
  have : ∀ i ∈ Finset.range D, (if i = 0 then b⁻¹ else 1) * (g k * dir b x i) * U k i
      = g k * (U k i * feat x i) + if i = 0 then g k * U k 0 else 0 := by
    intro i _
    by_cases hi : i = 0
    · subst hi
      simp only [if_true, dir, h0]
      by_cases hb0 : b = 0
      · simp [hb hb0 k hk]
      · field_simp
        ring
    · simp only [hi, if_false, dir]
      ring
  rw [Finset.sum_congr rfl this, Finset.sum_add_distrib, Finset.sum_ite_eq']
  simp [show 0 < D by omega]

end

section
variable {α A : Type} [Field α] [LinearOrder α] [IsStrictOrderedRing α]

theorem ip_nonneg {n D : Nat} {b : α} (hb : 0 ≤ b) (V : Nat → Nat → α) : 0 ≤ ip n D b V V := by
  unfold ip
  refine Finset.sum_nonneg fun k _ => Finset.sum_nonneg fun i _ => ?_
  rw [mul_assoc]
  refine mul_nonneg ?_ (mul_self_nonneg _)
  split
  · exact inv_nonneg.2 hb
  · exact zero_le_one

/-- Cauchy-Schwarz with a vector of norm at most 1. -/
theorem ip_cauchy {n D : Nat} {b : α} (hb : 0 ≤ b) (V U : Nat → Nat → α) (hU : ip n D b U U ≤ 1) :
    ip n D b V U ^ 2 ≤ ip n D b V V := by
  have h := ip_nonneg (n := n) (D := D) hb (fun k i => V k i - ip n D b V U * U k i)
  rw [ip_sub, ip_smul, ip_comm n D b V (fun k i => V k i - ip n D b V U * U k i), ip_sub, ip_smul,
    ip_comm n D b U (fun k i => V k i - ip n D b V U * U k i), ip_sub, ip_smul, ip_comm n D b U V] at h
  have := mul_le_mul_of_nonneg_left hU (sq_nonneg (ip n D b V U))
  nlinarith [ip_comm n D b V U]

/-- One update in terms of the two potentials. -/
theorem ip_update {n D : Nat} {b : α} {x : SVec α} (hx : Ascending x) (h1 : ∀ p ∈ x, 1 ≤ p.1 ∧ p.1 < D) (hD : 1 ≤ D)
    (g : Nat → α) (W W' U : Nat → Nat → α) (hW' : ∀ k < n, ∀ i, W' k i = W k i - g k * dir b x i)
    (hU : b = 0 → ∀ k < n, U k 0 = 0) (hW : b = 0 → ∀ k < n, W k 0 = 0) :
    ip n D b W' U = ip n D b W U - (∑ k ∈ Finset.range n, g k * (linear (U k) x + U k 0)) ∧
    ip n D b W' W' = ip n D b W W - 2 * (∑ k ∈ Finset.range n, g k * (linear (W k) x + W k 0))
      + (∑ k ∈ Finset.range n, g k * g k) * (sqnorm x + b) := by
  have h0 : feat x 0 = 0 := feat_eq_zero fun p hp => by have := (h1 p hp).1; omega
  constructor
  · rw [ip_congr hW' fun _ _ _ => rfl, ip_sub, ip_dir hx h1 hD g U hU]
  · have hexp : ∀ X : Nat → Nat → α, ip n D b (fun k i => W k i - X k i) (fun k i => W k i - X k i)
        = ip n D b W W - 2 * ip n D b X W + ip n D b X X := by
      intro X
      rw [ip_sub, ip_comm n D b W (fun k i => W k i - X k i), ip_sub, ip_comm n D b X (fun k i => W k i - X k i), ip_sub,
        ip_comm n D b W X]
      ring
    rw [ip_congr hW' hW', hexp, ip_dir hx h1 hD g W hW,
      ip_dir hx h1 hD g (fun k i => g k * dir b x i) (by intro hb k _; simp [dir, h0, hb])]
    have : ∀ k, linear (fun i => g k * dir b x i) x + g k * dir b x 0 = g k * (sqnorm x + b) := by
      intro k
      rw [sqnorm_linear hx]
      have : linear (fun i => g k * dir b x i) x = g k * linear (feat x) x := by
        unfold linear
        rw [← List.sum_map_mul_left]
        congr 1
        apply List.map_congr_left
        intro p hp
        have := (h1 p hp).1
        simp [dir, show p.1 ≠ 0 by omega, mul_assoc]
      rw [this]
      simp [dir, h0, mul_add]
    simp only [this, ← mul_assoc, ← Finset.sum_mul]

end

/-! ### The gradients of the 0-1 losses -/

section
variable {α A : Type} [Field α] [LinearOrder α] [IsStrictOrderedRing α] [FFun α] [FSqrt α]

/-- What the bound needs of a gradient: it does not decrease the error on the wrong example, its square is bounded, and
    every separating vector gains at least `γ`. -/
structure Pull (n : Nat) (p : Nat → α) (Γ : α) (Sep : (Nat → α) → α → Prop) (g : Nat → α) : Prop where
  wrong : 0 ≤ ∑ k ∈ Finset.range n, g k * p k
  size : ∑ k ∈ Finset.range n, g k * g k ≤ Γ
  gain : ∀ v γ, Sep v γ → ∑ k ∈ Finset.range n, g k * v k ≤ -γ

/-- Separation by the sign. -/
def SepBin (label : Int) (v : Nat → α) (γ : α) : Prop := γ ≤ (label : α) * v 0

/-- Separation of the true class from all others. -/
def SepMulti (n : Nat) (label : Int) (v : Nat → α) (γ : α) : Prop :=
  ∀ q < n, (q : Int) ≠ label → v q + γ ≤ v label.toNat

theorem pull_bool {m vi l m' v' : α} {label pred : Int} {p g g' : List α} {h : Option (List α → Res (α × α))}
    (hp : p.length = 1) (hg : g.length = 1) (hpred : labelOf 1 p = .ok pred) (hlab : label = 1 ∨ label = -1)
    (hgr : gradient .bool m h vi label p pred g = .ok (l, g', m', v')) (hne : pred ≠ label) :
    Pull 1 (fun k => p.getD k 0) 1 (SepBin label) (fun k => g'.getD k 0) := by
  obtain ⟨a, rfl⟩ := List.length_eq_one_iff.1 hp
  obtain ⟨b, rfl⟩ := List.length_eq_one_iff.1 hg
  have hs : sign a = pred := by simpa [labelOf, lget] using hpred
  simp only [gradient, hne, if_false, lset_ok (w := [b]) (i := 0) _ (by simp), Res.bind_ok, Res.ok.injEq, Prod.mk.injEq] at hgr
  obtain ⟨-, rfl, -⟩ := hgr
  unfold sign at hs
  refine ⟨?_, ?_, ?_⟩
  · rcases hlab with rfl | rfl
    · split at hs
      · exact absurd hs.symm hne
      · rename_i h; simp at h; simp; linarith
    · split at hs
      · rename_i h; simp at h; simpa using h
      · exact absurd hs.symm hne
  · rcases hlab with rfl | rfl <;> simp
  · intro v γ hv
    unfold SepBin at hv
    simp
    linarith

theorem sum_two {n q l : Nat} (hq : q < n) (hl : l < n) (hne : q ≠ l) (f : Nat → α) (u v : α) :
    ∑ k ∈ Finset.range n, (if k = l then v else if k = q then u else 0) * f k = v * f l + u * f q := by
  have : ∀ k ∈ Finset.range n, (if k = l then v else if k = q then u else 0) * f k
      = (if k = l then v * f l else 0) + (if k = q then u * f q else 0) := by
    intro k _
    by_cases h1 : k = l
    · subst h1; simp [Ne.symm hne]
    · by_cases h2 : k = q
      · subst h2; simp [h1]
      · simp [h1, h2]
  rw [Finset.sum_congr rfl this, Finset.sum_add_distrib, Finset.sum_ite_eq', Finset.sum_ite_eq']
  simp [hq, hl]

theorem pairGrad_get {g g' : List α} {n q l : Nat} {u v : α} (hg : g.length = n) (hq : q < n) (hl : l < n) (hne : q ≠ l)
    (h : pairGrad g (q : Int) u (l : Int) v = .ok g') :
    ∀ k, g'.getD k 0 = if k = l then v else if k = q then u else 0 := by
  unfold pairGrad at h
  rw [set_nat _ q u (by simpa [hg] using hq), Res.bind_ok, set_nat _ l v (by simpa [hg] using hl)] at h
  obtain rfl := Res.ok.inj h
  intro k
  simp only [List.getD_eq_getElem?_getD, List.getElem?_set, List.length_set, List.length_map, hg, List.getElem?_map]
  by_cases h1 : k = l
  · subst h1; simp [hl]
  · rw [if_neg (Ne.symm h1), if_neg h1]
    by_cases h2 : k = q
    · subst h2; simp [hq]
    · rw [if_neg (Ne.symm h2), if_neg h2]
      cases g[k]? <;> rfl

theorem label_multi {n : Nat} {p : List α} {pred : Int} (hn : 2 ≤ n) (hp : p.length = n) (h : labelOf n p = .ok pred) :
    ∃ q : Nat, pred = q ∧ q < n ∧ ∀ k < n, p.getD k 0 ≤ p.getD q 0 := by
  unfold labelOf at h
  rw [if_neg (by omega)] at h
  obtain ⟨q, v, h1, h2, h3, -⟩ := maxElement_spec p (by intro h; simp [h] at hp; omega)
  obtain ⟨hq, rfl⟩ := List.getElem?_eq_some_iff.1 h2
  refine ⟨q, by rw [← Res.ok.inj h, h1], by omega, fun k hk => ?_⟩
  have hk' : k < p.length := by omega
  have e : ∀ j (hj : j < p.length), p.getD j 0 = p[j] := fun j hj => by simp [List.getD_eq_getElem?_getD, hj]
  rw [e k hk', e q hq]
  exact h3 _ (List.getElem_mem hk')

theorem pull_maxBool {n : Nat} {m vi l m' v' : α} {label pred : Int} {p g g' : List α} {h : Option (List α → Res (α × α))}
    (hn : 2 ≤ n) (hp : p.length = n) (hg : g.length = n) (hpred : labelOf n p = .ok pred) (hlab : 0 ≤ label ∧ label < n)
    (hgr : gradient .maxBool m h vi label p pred g = .ok (l, g', m', v')) (hne : pred ≠ label) :
    Pull n (fun k => p.getD k 0) 2 (SepMulti n label) (fun k => g'.getD k 0) := by
  obtain ⟨q, rfl, hq, hmax⟩ := label_multi hn hp hpred
  obtain ⟨y, rfl⟩ := Int.eq_ofNat_of_zero_le hlab.1
  have hy : y < n := by omega
  have hqy : q ≠ y := fun h => hne (by rw [h])
  simp only [gradient, if_neg hne] at hgr
  obtain ⟨g2, h1, h2⟩ := Res.bind_eq_ok.1 hgr
  simp only [Res.ok.injEq, Prod.mk.injEq] at h2
  obtain ⟨-, rfl, -⟩ := h2
  have hget := pairGrad_get hg hq hy hqy h1
  refine ⟨?_, ?_, ?_⟩
  · simp only [hget, sum_two hq hy hqy]
    have := hmax y hy
    linarith
  · have := sum_two hq hy hqy (fun k => if k = y then (-1 : α) else if k = q then 1 else 0) 1 (-1)
    simp only [hget, this, if_true, if_neg hqy]
    norm_num
  · intro v γ hv
    have hv := hv q hq hne
    simp only [Int.toNat_natCast] at hv
    simp only [hget, sum_two hq hy hqy]
    linarith

theorem countP_eq_card {β : Type} (P : β → Bool) (d : β) (l : List β) :
    l.countP P = ((Finset.range l.length).filter fun k => P (l.getD k d) = true).card := by
  induction l with
  | nil => simp
  | cons a l ih =>
    rw [Finset.card_filter, List.length_cons, Finset.sum_range_succ', List.countP_cons, ih, Finset.card_filter]
    simp

theorem pull_uniBool {n : Nat} {m vi l m' v' : α} {label pred : Int} {p g g' : List α} {h : Option (List α → Res (α × α))}
    (hn : 2 ≤ n) (hp : p.length = n) (hg : g.length = n) (hpred : labelOf n p = .ok pred) (hlab : 0 ≤ label ∧ label < n)
    (hgr : gradient .uniBool m h vi label p pred g = .ok (l, g', m', v')) (hne : pred ≠ label) :
    Pull n (fun k => p.getD k 0) 2 (SepMulti n label) (fun k => g'.getD k 0) := by
  obtain ⟨q, rfl, hq, hmax⟩ := label_multi hn hp hpred
  obtain ⟨y, rfl⟩ := Int.eq_ofNat_of_zero_le hlab.1
  have hy : y < n := by omega
  have hyp : y < p.length := by omega
  have hqy : q ≠ y := fun h => hne (by rw [h])
  have e : p.getD y 0 = p[y] := by simp [List.getD_eq_getElem?_getD, hyp]
  -- the wrong classes that are not below the true class
  let S := (Finset.range n).filter fun k => k ≠ y ∧ p.getD y 0 ≤ p.getD k 0
  have hqS : q ∈ S := Finset.mem_filter.2 ⟨Finset.mem_range.2 hq, hqy, hmax y hy⟩
  have hcount : (p.countP fun v => p[y] ≤? v) - 1 = S.card := by
    rw [countP_eq_card _ 0, hp]
    have : ((Finset.range n).filter fun k => (p[y] ≤? p.getD k 0) = true) = insert y S := by
      ext k
      simp only [Finset.mem_filter, Finset.mem_range, Finset.mem_insert, S, fle_iff, e]
      by_cases hk : k = y
      · subst hk; simp only [hy, e, le_refl, and_self, true_or]
      · simp [hk]
    rw [this, Finset.card_insert_of_notMem (by simp [S])]
    omega
  have hpos : (0 : α) < S.card := by exact_mod_cast Finset.card_pos.2 ⟨q, hqS⟩
  simp only [gradient, if_neg hne, falseCount, get_nat p y hyp, Res.bind_ok, hcount, uniGrad,
    set_nat (p.map fun x => if p[y] ≤? x then (1 : α) / ((S.card : Int) : α) else 0) y (-1) (by simpa using hyp),
    Res.ok.injEq, Prod.mk.injEq] at hgr
  obtain ⟨-, rfl, -⟩ := hgr
  have hget : ∀ k < n, ((p.map fun x => if p[y] ≤? x then (1 : α) / ((S.card : Int) : α) else 0).set y (-1)).getD k 0
      = (if k = y then -1 else 0) + (if k ∈ S then (1 : α) / S.card else 0) := by
    intro k hk
    have hkp : k < p.length := by omega
    have ek : p.getD k 0 = p[k] := by simp [List.getD_eq_getElem?_getD, hkp]
    simp only [List.getD_eq_getElem?_getD, List.getElem?_set, List.length_map, List.getElem?_map]
    by_cases h1 : k = y
    · subst h1; simp [hkp, S]
    · rw [if_neg (Ne.symm h1), if_neg h1, List.getElem?_eq_getElem hkp]
      simp only [Option.map_some, Option.getD_some, zero_add, Int.cast_natCast]
      have : k ∈ S ↔ (p[y] ≤? p[k]) = true := by
        simp only [Finset.mem_filter, Finset.mem_range, S, e, ek, fle_iff, hk, true_and, ne_eq, h1, not_false_eq_true]
      simp only [this]
  have hsum : ∀ f : Nat → α, ∑ k ∈ Finset.range n,
      ((p.map fun x => if p[y] ≤? x then (1 : α) / ((S.card : Int) : α) else 0).set y (-1)).getD k 0 * f k
      = - f y + (1 : α) / S.card * ∑ k ∈ S, f k := by
    intro f
    rw [Finset.sum_congr rfl fun k hk => by rw [hget k (Finset.mem_range.1 hk), add_mul], Finset.sum_add_distrib]
    congr 1
    · simp only [ite_mul, zero_mul, Finset.sum_ite_eq', Finset.mem_range, hy, if_true]
      ring
    · simp only [ite_mul, zero_mul, Finset.sum_ite, Finset.sum_const_zero, add_zero, ← Finset.mul_sum]
      congr 1
      refine Finset.sum_congr ?_ fun _ _ => rfl
      ext k
      simp only [Finset.mem_filter, Finset.mem_range, S]
      tauto
  refine ⟨?_, ?_, ?_⟩
  · show 0 ≤ ∑ k ∈ Finset.range n, _
    rw [hsum]
    have h1 : (S.card : α) * p.getD y 0 ≤ ∑ k ∈ S, p.getD k 0 := by
      rw [← nsmul_eq_mul, ← Finset.sum_const]
      exact Finset.sum_le_sum fun k hk => (Finset.mem_filter.1 hk).2.2
    have h2 : p.getD y 0 ≤ 1 / S.card * ∑ k ∈ S, p.getD k 0 := by
      rw [div_mul_eq_mul_div, one_mul, le_div_iff₀ hpos]
      linarith
    linarith
  · show ∑ k ∈ Finset.range n, _ ≤ _
    rw [hsum, hget y hy]
    have h1 : ∀ k ∈ S, ((p.map fun x => if p[y] ≤? x then (1 : α) / ((S.card : Int) : α) else 0).set y (-1)).getD k 0
        = 1 / S.card := by
      intro k hk
      rw [hget k (Finset.mem_range.1 (Finset.mem_filter.1 hk).1), if_neg (Finset.mem_filter.1 hk).2.1, if_pos hk, zero_add]
    rw [Finset.sum_congr rfl h1, Finset.sum_const, nsmul_eq_mul, if_pos rfl, if_neg (by simp [S])]
    have h2 : (1 : α) ≤ S.card := by exact_mod_cast Finset.card_pos.2 ⟨q, hqS⟩
    have h3 : (1 : α) / S.card ≤ 1 := by rw [div_le_one hpos]; exact h2
    have h4 : (S.card : α) * (1 / S.card) = 1 := by field_simp
    rw [h4]
    linarith
  · intro v γ hv
    show ∑ k ∈ Finset.range n, _ ≤ _
    rw [hsum]
    have h1 : ∑ k ∈ S, v k ≤ (S.card : α) * (v y - γ) := by
      rw [← nsmul_eq_mul, ← Finset.sum_const]
      refine Finset.sum_le_sum fun k hk => ?_
      have hk' := Finset.mem_filter.1 hk
      have := hv k (Finset.mem_range.1 hk'.1) (by exact_mod_cast hk'.2.1)
      simp only [Int.toNat_natCast] at this
      linarith
    have h2 : 1 / (S.card : α) * ∑ k ∈ S, v k ≤ v y - γ := by
      rw [div_mul_eq_mul_div, one_mul, div_le_iff₀ hpos]
      linarith
    linarith

/-! ### Training -/

theorem fit_happens {c : Cfg α} {G : Alg α A} {inv : Nat → A → Prop} {mid : SVec α → Nat → A → Prop}
    (hG : Safe c G inv mid) (hk : Matches c.kind c.clf) {s s' : St α A} (hs : Fit c inv s) {e : Ex α} {r : α} {ev : Event}
    (hx : Good e.x) (hl : LabelOk c.clf e.label) (hh : Happens G c s e r ev s') : Fit c inv s' := by
  obtain ⟨ev', s'', hh', hf, -⟩ := happens hG hk s hs e r hx hl
  obtain ⟨_, _, _, _, _, _, _, _, h1⟩ := hh
  obtain ⟨_, _, _, _, _, _, _, _, h2⟩ := hh'
  rw [h1] at h2
  exact Res.ok.inj h2 ▸ hf

theorem enter_fit {c : Cfg α} {G : Alg α A} {inv : Nat → A → Prop} {s : St α A} (hs : Fit c inv s) (x : SVec α) :
    Fit c (none' A) (enter G s x) :=
  fit_enter (inv := none' A) x ⟨hs.dim, hs.w, hs.g, trivial⟩ fun _ _ _ _ h => h

theorem gradient_length {k : Kind} {n : Nat} {label pl : Int} {p g : List α} {m vi : α} {l m' v' : α} {g' : List α}
    (hk : Matches k n) (hp : p.length = n) (hg : g.length = n) (hl : LabelOk n label) (hr : InRange n pl)
    (h : gradient k m none vi label p pl g = .ok (l, g', m', v')) : g'.length = n := by
  obtain ⟨r, h1, h2⟩ := gives_gradient m none vi hk hl hp hr hg (by simp)
  rw [h1] at h
  have := Res.ok.inj h
  subst this
  exact h2

theorem perceptron_cell {c : Cfg α} {s : St α Unit} {x : SVec α} {l : α} (h : Fit c (none' Unit) s) (hx : Good x)
    (hd : Sparse.dim x ≤ s.dim) :
    ∃ w', perceptron.update c s x l = .ok { s with eta := 1, w := w' } ∧
      ∀ k < c.clf, ∀ i, cell w' k i = cell s.w k i - s.g.getD k 0 * dir c.biasEta0 x i := by
  simp only [perceptron, plain]
  rw [each1_closed _ _ _ (by rw [h.g, h.w.1]) fun g v hv => step_closed _ _ hx.1 (by rw [h.w.2 v hv]; exact h.dim)]
  refine ⟨_, rfl, ?_⟩
  intro k hk i
  rw [cell_zipWith _ h.g h.w.1 k i hk]
  have hv := h.w.2 _ (cell_mem h.w.1 hk)
  by_cases hg : s.g.getD k 0 = 0
  · rw [if_pos (by simpa using hg), hg]
    simp [cell]
  · rw [if_neg (by simpa using hg)]
    have := coord_step (s.g.getD k 0) c.biasEta0 (x := x) (w := s.w.getD k [])
      (by rw [hv]; exact h.dim) (by rw [hv]; exact fun p hp => lt_of_lt_of_le (hx.lt_dim p hp) hd) i
    simp only [biasEta, mul_comm c.biasEta0, one_mul]
    exact this

theorem perceptron_fired {c : Cfg α} (hk : Matches c.kind c.clf) {s s' : St α Unit} (hs : Fit c (none' Unit) s) {e : Ex α} {r : α}
    {ev : Event} (hx : Good e.x) (hl : LabelOk c.clf e.label) (hh : Happens perceptron c s e r ev s') (hf : ev.fired = true) :
    ∃ p l g m v, p.length = c.clf ∧ labelOf c.clf p = .ok ev.pred ∧
      (∀ k < c.clf, p.getD k 0 = linear (cell s.w k) e.x + cell s.w k 0) ∧
      gradient c.kind (costMargin c e.label (enter perceptron s e.x).margin) none (enter perceptron s e.x).vi
        e.label p ev.pred (enter perceptron s e.x).g = .ok (l, g, m, v) ∧
      (if c.lazyUpdate then ev.pred ≠ e.label else 0 < l) ∧
      ∀ k < c.clf, ∀ i, cell s'.w k i = cell s.w k i - g.getD k 0 * dir c.biasEta0 e.x i := by
  obtain ⟨p, l, g, m, v, s2, h1, h2, h3, h4, n, rfl⟩ := fired .perceptron hh hf
  have hfe : Fit c (none' Unit) (enter perceptron s e.x) := enter_fit hs e.x
  obtain ⟨hp, hlab⟩ := predict_eq hfe hx.1 h1
  have hpl : p.length = c.clf := by rw [hp, List.length_map, hfe.w.1]
  have hc : 1 ≤ c.clf := by
    unfold Matches at hk
    split at hk <;> omega
  obtain ⟨⟨p', pr'⟩, hh1, hh2, hr⟩ := gives_predict (s := enter perceptron s e.x) hc hx.1 hfe.dim hfe.w
  rw [h1] at hh1
  obtain ⟨rfl, rfl⟩ := Prod.mk.inj (Res.ok.inj hh1)
  have hgl : g.length = c.clf := gradient_length hk hpl hfe.g hl hr h2
  refine ⟨p, l, g, m, v, hpl, hlab, ?_, h2, ?_, ?_⟩
  · intro k hk'
    rw [predict_get hfe hx.1 h1 k hk']
    have : ∀ i, cell (enter perceptron s e.x).w k i = cell s.w k i := fun i => enter_cell hs e.x k i hk'
    rw [funext this]
  · split at h3
    · rename_i hz; rw [if_pos hz]; exact h3
    · rename_i hz; rw [if_neg hz]; simpa using h3
  · intro k hk' i
    rw [← enter_cell (G := perceptron) hs e.x k i hk']
    have hfe' : Fit c (none' Unit)
        { enter perceptron s e.x with g := g, margin := m, vi := v, upd := (enter perceptron s e.x).upd + 1 } :=
      ⟨hfe.dim, hfe.w, hgl, trivial⟩
    have hd : Sparse.dim e.x ≤ (enter perceptron s e.x).dim := by rw [enter_dim]; omega
    obtain ⟨w', h5, h6⟩ := perceptron_cell (l := l) hfe' hx hd
    rw [h5] at h4
    obtain rfl := Res.ok.inj h4
    exact h6 k hk' i

theorem novikoff {c : Cfg α} (hk : Matches c.kind c.clf) (hb : 0 ≤ c.biasEta0) (Lab : Int → Prop)
    (Sep : Int → (Nat → α) → α → Prop) (Γ R γ : α) (D : Nat) (U : Nat → Nat → α) (hΓ : 0 ≤ Γ)
    (hpull : ∀ label p pred m vi g l g' m' v', p.length = c.clf → g.length = c.clf → labelOf c.clf p = .ok pred →
      Lab label → gradient c.kind m none vi label p pred g = .ok (l, g', m', v') →
      (if c.lazyUpdate then pred ≠ label else 0 < l) → Pull c.clf (fun k => p.getD k 0) Γ (Sep label) (fun k => g'.getD k 0))
    (hU0 : c.biasEta0 = 0 → ∀ k < c.clf, U k 0 = 0)
    (l : List (Ex α × α)) (hl : ∀ q ∈ l, Good q.1.x ∧ (∀ p ∈ q.1.x, 1 ≤ p.1 ∧ p.1 < D) ∧ LabelOk c.clf q.1.label ∧
      Lab q.1.label ∧ Sep q.1.label (fun k => linear (U k) q.1.x + U k 0) γ ∧ sqnorm q.1.x + c.biasEta0 ≤ R) (hD : 1 ≤ D)
    (s s' : St α Unit) (hs : Fit c (none' Unit) s) (evs : List Event) (ht : Trace perceptron c s l evs s')
    (h0 : c.biasEta0 = 0 → ∀ k < c.clf, cell s.w k 0 = 0) :
    ip c.clf D c.biasEta0 (cell s.w) U + ((evs.countP fun ev => ev.fired : Nat) : α) * γ
      ≤ ip c.clf D c.biasEta0 (cell s'.w) U ∧
    ip c.clf D c.biasEta0 (cell s'.w) (cell s'.w)
      ≤ ip c.clf D c.biasEta0 (cell s.w) (cell s.w) + ((evs.countP fun ev => ev.fired : Nat) : α) * (Γ * R) := by
  induction ht with
  | nil s => simp
  | @cons s s1 s2 e r ev l evs hh ht ih =>
    obtain ⟨hx, hr, hlo, hlab, hsep, hR⟩ := hl (e, r) List.mem_cons_self
    have hf1 : Fit c (none' Unit) s1 := fit_happens (safe_perceptron c) hk hs hx hlo hh
    have ih' := ih (fun q hq => hl q (List.mem_cons_of_mem _ hq)) hf1
    cases hfi : ev.fired with
    | false =>
      have hcell : ∀ k < c.clf, ∀ i, cell s1.w k i = cell s.w k i := by
        intro k hk' i
        rw [(idle .perceptron hh hfi).1]
        exact enter_cell hs e.x k i hk'
      obtain ⟨h1, h2⟩ := ih' fun hb k hk' => by rw [hcell k hk']; exact h0 hb k hk'
      rw [ip_congr hcell fun _ _ _ => rfl] at h1
      rw [ip_congr hcell hcell] at h2
      rw [List.countP_cons_of_neg (by simp [hfi])]
      exact ⟨h1, h2⟩
    | true =>
      obtain ⟨p, lo, g, m, v, hpl, hpred, hscore, hgr, hrule, hcell⟩ := perceptron_fired hk hs hx hlo hh hfi
      have hfe : Fit c (none' Unit) (enter perceptron s e.x) := enter_fit hs e.x
      obtain ⟨hw, hsz, hgain⟩ := hpull e.label p ev.pred _ _ _ lo g m v hpl hfe.g hpred hlab hgr hrule
      have hcell0 : c.biasEta0 = 0 → ∀ k < c.clf, cell s1.w k 0 = 0 := by
        intro hb k hk'
        have hx0 : feat e.x 0 = 0 := feat_eq_zero fun p hp => by have := (hr p hp).1; omega
        rw [hcell k hk', h0 hb k hk']
        simp [dir, hb, hx0]
      obtain ⟨h1, h2⟩ := ih' hcell0
      obtain ⟨h3, h4⟩ := ip_update hx.1 hr hD (fun k => g.getD k 0) (cell s.w) (cell s1.w) U hcell hU0 h0
      have h5 := hgain _ γ hsep
      have h6 : ∑ k ∈ Finset.range c.clf, g.getD k 0 * p.getD k 0
          = ∑ k ∈ Finset.range c.clf, g.getD k 0 * (linear (cell s.w k) e.x + cell s.w k 0) :=
        Finset.sum_congr rfl fun k hk' => by rw [hscore k (Finset.mem_range.1 hk')]
      rw [h6] at hw
      have hsq : 0 ≤ sqnorm e.x := List.sum_nonneg (by
        intro a ha
        obtain ⟨p, -, rfl⟩ := List.mem_map.1 ha
        exact mul_self_nonneg _)
      have h7 : (∑ k ∈ Finset.range c.clf, g.getD k 0 * g.getD k 0) * (sqnorm e.x + c.biasEta0) ≤ Γ * R :=
        mul_le_mul hsz hR (by linarith) hΓ
      rw [List.countP_cons_of_pos (by simp [hfi])]
      push_cast
      constructor
      · linarith
      · linarith

end
end Sol.Olm
