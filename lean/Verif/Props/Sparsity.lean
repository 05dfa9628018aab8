import Verif.Proofs.Sparsity
/-! C104: the reported sparsity of a model. -/

namespace Sol.Props

open Sol.F32 Sol.Sparsity Sol.Spec

/-- C104, the part that holds: a model with a weight, and fewer than 2^32 of them, reports a number from 0 to 1 that is the share of its
    zeros up to `2^-23`. -/
theorem C104_share_partial (w : List (List F32)) (clf dim : Nat) (hw : w.length = clf) (hd : ∀ v ∈ w, v.length = dim) (h1 : 1 ≤ clf)
    (h2 : 2 ≤ dim) (hbig : clf * (dim - 1) < 2 ^ 32) :
    ∃ v, modelSparsity w clf dim = fin v ∧ 0 ≤ v ∧ v ≤ 1 ∧ |v - zeroShare w| ≤ 1 / 2 ^ 23 := by
  have hl := allWeights_length hw hd
  have hn := nonZero_add w
  have hpos : 0 < clf * (dim - 1) := Nat.mul_pos h1 (by omega)
  have hwn : weightNum clf dim = clf * (dim - 1) := Nat.mod_eq_of_lt (by omega)
  obtain ⟨f, f1, f2, f3, f4⟩ := share_value (n := nonZero w) (d := clf * (dim - 1)) hpos (by omega) (by omega)
  obtain ⟨v, v1, v2, v3, v4⟩ := rest_value f2 f3 f4
  refine ⟨v, by unfold modelSparsity; rw [hwn, f1, v1], v2, v3, ?_⟩
  have e : zeroShare w = 1 - (nonZero w : ℚ) / ((clf * (dim - 1) : Nat) : ℚ) := by
    unfold zeroShare
    rw [hl]
    have hne : ((clf * (dim - 1) : Nat) : ℚ) ≠ 0 := by exact_mod_cast hpos.ne'
    have hs : (nonZero w : ℚ) + ((allWeights w).count 0 : ℚ) = ((clf * (dim - 1) : Nat) : ℚ) := by
      rw [← hl]
      exact_mod_cast hn
    rw [eq_sub_iff_add_eq, ← add_div, add_comm, hs, div_self hne]
  rw [e]
  exact v4

/-- A model whose weights are all 0 reports exactly 1, and one without zeros exactly 0. -/
theorem C104_ends_partial (w : List (List F32)) (clf dim : Nat) (hw : w.length = clf) (hd : ∀ v ∈ w, v.length = dim) (h1 : 1 ≤ clf)
    (h2 : 2 ≤ dim) (hbig : clf * (dim - 1) < 2 ^ 32) :
    ((∀ a ∈ allWeights w, a = 0) → modelSparsity w clf dim = 1) ∧ ((∀ a ∈ allWeights w, a ≠ 0) → modelSparsity w clf dim = 0) := by
  have hl := allWeights_length hw hd
  have hn := nonZero_add w
  have hpos : 0 < clf * (dim - 1) := Nat.mul_pos h1 (by omega)
  have hwn : weightNum clf dim = clf * (dim - 1) := Nat.mod_eq_of_lt (by omega)
  unfold modelSparsity
  rw [hwn]
  unfold share
  rw [if_neg hpos.ne']
  constructor
  · intro h
    have : (allWeights w).count 0 = (allWeights w).length := List.count_eq_length.2 fun b hb => (h b hb).symm
    have hz : nonZero w = 0 := by omega
    rw [hz, Nat.cast_zero, zero_div]
    decide +kernel
  · intro h
    have : (allWeights w).count 0 = 0 := List.count_eq_zero.2 fun hm => h 0 hm rfl
    have hz : nonZero w = clf * (dim - 1) := by omega
    have hne : ((clf * (dim - 1) : Nat) : ℚ) ≠ 0 := by exact_mod_cast hpos.ne'
    rw [hz, div_self hne]
    decide +kernel

/-- C104 fails: every model without features reports NaN, and a model with 2^32 weights, one of which is not 0, reports minus infinity. -/
theorem C104_is_violated :
    (∀ (w : List (List F32)) (clf : Nat), w.length = clf → (∀ v ∈ w, v.length = 1) → modelSparsity w clf 1 = nan) ∧
    (∀ (w : List (List F32)) (clf dim : Nat), w.length = clf → (∀ v ∈ w, v.length = dim) → clf * (dim - 1) = 2 ^ 32 →
      (∃ a ∈ allWeights w, a ≠ 0) → modelSparsity w clf dim = ninf) := by
  constructor
  · intro w clf hw hd
    have hl := allWeights_length hw hd
    have hn := nonZero_add w
    have hz : nonZero w = 0 := by rw [Nat.sub_self, Nat.mul_zero] at hl; omega
    have hwn : weightNum clf 1 = 0 := by simp [weightNum]
    unfold modelSparsity
    rw [hz, hwn]
    decide +kernel
  · intro w clf dim hw hd hbig ⟨a, ha, h0⟩
    have hwn : weightNum clf dim = 0 := by unfold weightNum; rw [hbig]; norm_num
    have hz : nonZero w ≠ 0 := by
      rw [nonZero_eq]
      exact (List.countP_pos_iff.2 ⟨a, ha, by simp [h0]⟩).ne'
    unfold modelSparsity share
    rw [hwn, if_pos rfl, if_neg hz]
    decide +kernel

/-! ### Instances -/

/-- Two classes, three features, one weight of six is 0: 1/6 is reported up to a rounding. -/
theorem C104_instance :
    modelSparsity [[0, 1, fin (1 / 2), 0], [fin 5, fin 3, nan, -1]] 2 4 = fin (2796203 / 2 ^ 24) ∧
    zeroShare [[0, 1, fin (1 / 2), 0], [fin 5, fin 3, nan, -1]] = 1 / 6 := by
  decide +kernel

/-- 65536 classes and 65536 features, all weights 1. -/
theorem C104_instance_large : let w : List (List F32) := List.replicate 65536 (List.replicate 65537 1)
    w.length = 65536 ∧ (∀ v ∈ w, v.length = 65537) ∧ 65536 * (65537 - 1) = 2 ^ 32 ∧ ∃ a ∈ allWeights w, a ≠ 0 := by
  intro w
  refine ⟨List.length_replicate, fun v hv => ?_, by norm_num, 1, ?_, by decide⟩
  · rw [(List.mem_replicate.1 hv).2, List.length_replicate]
  · unfold allWeights
    refine List.mem_flatten.2 ⟨List.replicate 65536 1, List.mem_map.2 ⟨_, List.mem_replicate.2 ⟨by norm_num, rfl⟩, ?_⟩,
      List.mem_replicate.2 ⟨by norm_num, rfl⟩⟩
    exact List.tail_replicate

end Sol.Props
