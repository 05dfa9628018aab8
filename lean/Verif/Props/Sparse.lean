import Verif.Proofs.Sparse
import Mathlib.Algebra.Ring.Defs
import Mathlib.Algebra.Order.Group.Abs
import Mathlib.Algebra.Order.Group.Unbundled.Abs
import Mathlib.Algebra.BigOperators.Group.List.Basic
import Mathlib.Tactic.SplitIfs
import Mathlib.Tactic.Linarith
/-!
# Properties C16, C17, C18: dot product, sparse update, soft-thresholding
-/

namespace Sol.Props
open Sol.Sparse

section
variable {α : Type} [Zero α] [Add α] [Mul α]

/-- **C16 (any number type).** The dot product of a weight vector and an ascending data point reads no weight outside
    the vector and adds up, in the order of the data point, weight times value over the features with an index below
    the size of the weight vector. -/
theorem C16_dot_visits_inside_features (w : List α) (x : SVec α) (hx : Ascending x) :
    dotmul w x = .ok ((x.filter (fun p => p.1 < w.length)).foldl (fun v p => v + w.getD p.1 0 * p.2) 0) := by
  unfold dotmul dotOp
  rw [take_trim x hx]
  exact dotLoop_ok _ w _ (fun p hp => by simpa using (List.mem_filter.1 hp).2) 0
end

/-- The score in exact arithmetic: the sum over the features inside the weight vector. -/
def score {α : Type} [Semiring α] (w : List α) (x : SVec α) : α :=
  ((x.filter (fun p => p.1 < w.length)).map (fun p => w.getD p.1 0 * p.2)).sum

theorem foldl_eq_sum {α β : Type} [AddMonoid α] (f : β → α) (l : List β) (v : α) :
    l.foldl (fun v p => v + f p) v = v + (l.map f).sum := by
  induction l generalizing v with
  | nil => simp
  | cons a l ih => simp [ih, add_assoc]

/-- **C16 (exact arithmetic).** The score is the sum over the features inside the weight vector. -/
theorem C16_dot_is_sum {α : Type} [Semiring α] (w : List α) (x : SVec α) (hx : Ascending x) :
    dotmul w x = .ok (score w x) := by
  rw [C16_dot_visits_inside_features w x hx, foldl_eq_sum (fun p : Nat × α => w.getD p.1 0 * p.2), zero_add]
  rfl

theorem score_eq_total {α : Type} [Semiring α] (w : List α) (x : SVec α) :
    score w x = (x.map (fun p => w.getD p.1 0 * p.2)).sum := by
  unfold score
  induction x with
  | nil => rfl
  | cons p x ih =>
    by_cases h : p.1 < w.length
    · rw [List.filter_cons_of_pos (by simpa using h)]
      simp only [List.map_cons, List.sum_cons, ih]
    · rw [List.filter_cons_of_neg (by simpa using h), ih]
      simp only [List.map_cons, List.sum_cons]
      rw [List.getD_eq_getElem?_getD, List.getElem?_eq_none (by omega)]
      simp

/-- **C16 (appended zero weights).** Appending zero weights leaves every score as it was. -/
theorem C16_zero_weights_do_not_matter {α : Type} [Semiring α] (w : List α) (n : Nat) (x : SVec α) (hx : Ascending x) :
    dotmul (w ++ List.replicate n 0) x = dotmul w x := by
  rw [C16_dot_is_sum _ x hx, C16_dot_is_sum _ x hx, score_eq_total, score_eq_total]
  congr 2
  apply List.map_congr_left
  intro p _
  congr 1
  simp only [List.getD_eq_getElem?_getD]
  by_cases h : p.1 < w.length
  · rw [List.getElem?_append_left h]
  · rw [List.getElem?_append_right (by omega), List.getElem?_eq_none (l := w) (by omega)]
    by_cases h2 : p.1 - w.length < n
    · rw [List.getElem?_replicate, if_pos h2]; rfl
    · rw [List.getElem?_eq_none (by simp; omega)]

/-- An instance with features inside and outside the weight vector. -/
example : Ascending ([(1, 2), (3, 5), (9, 7)] : SVec Int) ∧
    dotmul [1, 10, 100, 1000] ([(1, 2), (3, 5), (9, 7)] : SVec Int) = .ok 5020 :=
  ⟨by unfold Ascending; decide, by decide +kernel⟩

/-- Ascending indexes are needed: otherwise the loop only removes the trailing entries and the product reads outside
    the weight vector.  (The binary reader does not sort.) -/
theorem C16_unsorted_point_reads_outside :
    dotmul [1, 10] ([(9, 7), (1, 2)] : SVec Int) = .ub .outOfBounds := by decide +kernel

/-- **C17.** A sparse update with any operator `op` (`+=`, `-=`, `=`, `*=`, `/=`) and any expression `f` that looks at
    the destination only at its own index: with strictly ascending in-range indexes every listed coordinate `i` becomes
    `op old (f i)` and every other coordinate stays. -/
theorem C17_update_changes_listed_coordinates {α : Type} (op : α → α → α) (f : List α → Nat → α → Res α)
    (r : Nat → α → α) (w : List α) (x : SVec α) (hx : Ascending x) (hr : ∀ p ∈ x, p.1 < w.length)
    (hf : ∀ w' : List α, w'.length = w.length → ∀ p ∈ x, w'[p.1]? = w[p.1]? → f w' p.1 p.2 = .ok (r p.1 p.2)) :
    ∃ w', calcExp op f w x = .ok w' ∧ w'.length = w.length ∧
      (∀ p ∈ x, ∃ a, w[p.1]? = some a ∧ w'[p.1]? = some (op a (r p.1 p.2))) ∧
      (∀ i, (∀ p ∈ x, p.1 ≠ i) → w'[i]? = w[i]?) := by
  unfold calcExp
  rw [trim_all x _ hr, List.take_length]
  exact calcLoop_ok op f r w x hr hx.distinct hf

/-- **C17 (out-of-range features).** Features outside the vector are ignored. -/
theorem C17_out_of_range_features_are_ignored {α : Type} (op : α → α → α) (f : List α → Nat → α → Res α)
    (w : List α) (x : SVec α) (hx : Ascending x) :
    calcExp op f w x = calcExp op f w (x.filter (fun p => p.1 < w.length)) := by
  unfold calcExp
  rw [take_trim x hx, take_trim _ (hx.filter _), List.filter_filter]
  simp

/-- An instance: `w -= 2 * x`. -/
example : Ascending ([(0, 3), (2, 5)] : SVec Int) ∧
    calcExp (· - ·) (fun _ _ y => .ok (2 * y)) [1, 10, 100] ([(0, 3), (2, 5)] : SVec Int) = .ok [-5, 10, 90] :=
  ⟨by unfold Ascending; decide, by decide +kernel⟩

section
variable {α : Type} [CommRing α] [LinearOrder α] [IsStrictOrderedRing α]

/-- **C18 (composition).** Truncating by `a` and then by `b` is truncating by `a + b`. -/
theorem C18_truncations_compose (v a b : α) (hb : 0 ≤ b) :
    trunc (trunc v a) b = trunc v (a + b) := by
  unfold trunc
  simp only [fle_iff, flt_iff]
  split_ifs <;> linarith

/-- **C18 (value).** Truncation by a non-negative threshold subtracts the threshold from the magnitude, keeping the
    sign, and gives zero exactly when the magnitude is at most the threshold. -/
theorem C18_truncation_shrinks (v a : α) (ha : 0 ≤ a) :
    (0 ≤ v → 0 ≤ trunc v a ∧ trunc v a ≤ v) ∧ (v ≤ 0 → v ≤ trunc v a ∧ trunc v a ≤ 0) ∧
      |trunc v a| = max (|v| - a) 0 ∧ (trunc v a = 0 ↔ |v| ≤ a) := by
  unfold trunc
  simp only [fle_iff, flt_iff]
  refine ⟨fun h => ?_, fun h => ?_, ?_, ?_⟩
  · split_ifs <;> constructor <;> linarith
  · split_ifs <;> constructor <;> linarith
  · rcases abs_cases v with ⟨e, h⟩ | ⟨e, h⟩ <;> rw [e] <;> split_ifs <;>
      rcases max_cases (v - a) 0 with ⟨e2, h2⟩ | ⟨e2, h2⟩ <;> rcases max_cases (-v - a) 0 with ⟨e3, h3⟩ | ⟨e3, h3⟩ <;>
      simp only [e2, e3, abs_zero] <;> first | linarith | (rw [abs_of_nonneg (by linarith)]; try linarith) |
        (rw [abs_of_nonpos (by linarith)]; linarith)
  · rcases abs_cases v with ⟨e, h⟩ | ⟨e, h⟩ <;> rw [e] <;> split_ifs <;> constructor <;> intro _ <;> linarith

end

/-- An instance of both statements. -/
example : trunc (-7 : Int) 3 = -4 ∧ trunc (trunc (-7 : Int) 3) 5 = 0 ∧ trunc (7 : Int) 7 = 0 := by decide

end Sol.Props
