import Verif.Proofs.Sort
/-!
# Property C12: sorting a data point
-/

namespace Sol.Props
open Sol.Sort

variable {V : Type}

/-- **C12.** Sorting any data point (parallel vectors of equal length) terminates without touching memory outside
    the point; afterwards the indexes are in non-decreasing order and the (index, value) pairs are a
    permutation of the original pairs. -/
theorem C12_sort_correct (a : Array UInt32) (b : Array V) (h : b.size = a.size) :
    ∃ a' b', sort a b = .ok (a', b') ∧ a'.size = a.size ∧ b'.size = a.size ∧
      a'.toList.Pairwise (· ≤ ·) ∧
      (a'.toList.zip b'.toList).Perm (a.toList.zip b.toList) := by
  unfold sort
  by_cases hs : isSorted a.toList = false
  · rw [if_pos hs]
    have hpos : 0 < a.size := by
      apply Decidable.byContradiction
      intro hc
      have : a.toList = [] := by
        apply List.length_eq_zero_iff.1
        rw [Array.length_toList]; omega
      rw [this] at hs
      simp [isSorted] at hs
    obtain ⟨a', b', h1, h2, h3, _, h5, h6, _⟩ :=
      quickSort_spec (a.size - 1 - 0) a b 0 (a.size - 1) (Nat.zero_le _) rfl (by omega) h
    refine ⟨a', b', h1, h2, h3, ?_, ?_⟩
    · rw [List.pairwise_iff_getElem]
      intro i j hi hj hij
      rw [Array.length_toList] at hi hj
      refine h6 i j _ _ (Nat.zero_le _) (by omega) (by omega) ?_ ?_
      · rw [Array.getElem?_eq_getElem hi]; simp
      · rw [Array.getElem?_eq_getElem hj]; simp
    · have := Array.perm_iff_toList_perm.1 h5
      simpa [Array.toList_zip] using this
  · rw [if_neg hs]
    have hs' : isSorted a.toList = true := by simpa using hs
    refine ⟨a, b, rfl, rfl, h, ?_, List.Perm.refl _⟩
    exact ((isSorted_iff _).1 hs').imp UInt32.le_of_lt

/-- **C12** (already sorted points are untouched). -/
theorem C12_sort_sorted_unchanged (a : Array UInt32) (b : Array V) (h : a.toList.Pairwise (· < ·)) :
    sort a b = .ok (a, b) := by
  unfold sort
  rw [if_neg]
  simp [(isSorted_iff _).2 h]

/-- **C12** (sorting twice is sorting once, when no index repeats). -/
theorem C12_sort_idempotent (a : Array UInt32) (b : Array V) (h : b.size = a.size) (hnd : a.toList.Nodup) :
    ∃ a' b', sort a b = .ok (a', b') ∧ a'.toList.Pairwise (· < ·) ∧ sort a' b' = .ok (a', b') := by
  obtain ⟨a', b', h1, h2, h3, h4, h5⟩ := C12_sort_correct a b h
  refine ⟨a', b', h1, ?_, ?_⟩
  all_goals
    have hp : a'.toList.Perm a.toList := by
      have := h5.map Prod.fst
      rw [List.map_fst_zip (by simp; omega), List.map_fst_zip (by simp; omega)] at this
      exact this
    have hnd' : a'.toList.Nodup := hp.nodup_iff.2 hnd
    have hst : a'.toList.Pairwise (· < ·) := by
      refine List.Pairwise.imp₂ ?_ h4 hnd'
      intro x y hle hne
      exact UInt32.lt_of_le_of_ne hle hne
  · exact hst
  · exact C12_sort_sorted_unchanged a' b' hst

/-- A non-trivial instance of the hypotheses: repeated and extreme indexes. -/
example : (#['a', 'b', 'c', 'd', 'e', 'f'] : Array Char).size = (#[5, 3, 5, 1, 4294967295, 0] : Array UInt32).size :=
  rfl

/-- An instance for the idempotence theorem. -/
example : (#[5, 3, 1, 4294967295, 0] : Array UInt32).toList.Nodup := by decide

end Sol.Props
