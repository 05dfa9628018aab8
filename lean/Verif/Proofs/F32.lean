import Verif.Base.F32
import Verif.Proofs.Closed
/-! Facts about binary32 arithmetic with zeros. -/

set_option linter.unusedSectionVars false
set_option linter.unusedVariables false

namespace Sol.F32

/-- A finite binary32 number. -/
def Fl (v : F32) : Prop := ∃ q, v = fin q ∧ round q = fin q

theorem round_zero : round 0 = fin 0 := rfl

theorem round_neg (q : Rat) : round (-q) = neg (round q) := by
  unfold round
  by_cases h : q = 0
  · subst h; simp [neg]
  · simp only [neg_eq_zero, h, if_false, Rat.num_neg_eq_neg_num, Int.natAbs_neg, Rat.den_neg_eq_den, Left.neg_pos_iff]
    rcases lt_or_gt_of_ne h with h1 | h1
    · simp only [h1, if_true, not_lt.2 h1.le, if_false]
      split <;> simp [neg]
    · simp only [h1, if_true, not_lt.2 h1.le, if_false]
      split <;> simp [neg]

theorem Fl.zero : Fl 0 := ⟨0, rfl, rfl⟩
theorem Fl.one : Fl 1 := ⟨1, rfl, by decide +kernel⟩

theorem Fl.neg {v : F32} (h : Fl v) : Fl (-v) := by
  obtain ⟨q, rfl, hq⟩ := h
  exact ⟨-q, rfl, by rw [round_neg, hq]; rfl⟩

theorem fin_mul (a b : Rat) : (fin a : F32) * fin b = round (a * b) := rfl
theorem zero_def : (0 : F32) = fin 0 := rfl
theorem one_def : (1 : F32) = fin 1 := rfl

theorem Fl.zero_mul {v : F32} (h : Fl v) : (0 : F32) * v = 0 := by
  obtain ⟨q, rfl, hq⟩ := h
  rw [zero_def, fin_mul, Rat.zero_mul]; rfl

theorem Fl.mul_zero {v : F32} (h : Fl v) : v * 0 = (0 : F32) := by
  obtain ⟨q, rfl, hq⟩ := h
  rw [zero_def, fin_mul, Rat.mul_zero]; rfl

theorem Fl.mul_one {v : F32} (h : Fl v) : v * 1 = v := by
  obtain ⟨q, rfl, hq⟩ := h
  rw [one_def, fin_mul, _root_.mul_one, hq]

theorem Fl.mul_neg_one {v : F32} (h : Fl v) : v * (-1) = -v := by
  obtain ⟨q, rfl, hq⟩ := h
  have : (-1 : F32) = fin (-1) := rfl
  rw [this, fin_mul, _root_.mul_neg_one, round_neg, hq]; rfl

theorem Fl.sub_zero {v : F32} (h : Fl v) : v - 0 = v := by
  obtain ⟨q, rfl, hq⟩ := h
  show round (q + -0) = fin q
  rw [_root_.neg_zero, add_zero, hq]

theorem Fl.add_zero {v : F32} (h : Fl v) : v + 0 = v := by
  obtain ⟨q, rfl, hq⟩ := h
  show round (q + 0) = fin q
  rw [_root_.add_zero, hq]

end Sol.F32

namespace Sol.Olm

open Sol.Online Sol.Sparse Sol.Loss Sol.Spec Sol.F32

theorem norm2_zero {x : SVec F32} (h : ∀ p ∈ x, p.2 = 0) : norm2 x = 0 := by
  unfold norm2 reduceSum
  induction x with
  | nil => rfl
  | cons p x ih =>
    rw [List.foldl_cons, h p List.mem_cons_self]
    have e : (0 : F32) + (fun a => a * a) (0 : F32) = 0 := by decide +kernel
    rw [e]
    exact ih fun q hq => h q (List.mem_cons_of_mem _ hq)

theorem zipWith_keep {α β : Type} (f : α → β → β) (g : List α) (w : List β) (hlen : g.length = w.length)
    (h : ∀ a ∈ g, ∀ v ∈ w, f a v = v) : List.zipWith f g w = w := by
  induction g generalizing w with
  | nil => exact (List.length_eq_zero_iff.1 hlen.symm).symm ▸ rfl
  | cons a g ih =>
    cases w with
    | nil => simp at hlen
    | cons v w =>
      rw [List.zipWith_cons_cons, h a List.mem_cons_self v List.mem_cons_self,
        ih w (by simpa using hlen) fun a ha v hv => h a (List.mem_cons_of_mem _ ha) v (List.mem_cons_of_mem _ hv)]

/-- One class: a step of finite size along a zero example changes nothing. -/
theorem step_keep {x : SVec F32} (hx : Ascending x) (h0 : ∀ p ∈ x, p.2 = 0) {k b : F32} (hk : Fl k) (hb : b = 0)
    {w : List F32} (hw : ∀ v ∈ w, Fl v) :
    (w.mapIdx (touch x fun _ a y => a - k * y)).mapIdx (atZero (· - b)) = w := by
  subst hb
  apply List.ext_getElem?
  intro i
  rw [List.getElem?_mapIdx, List.getElem?_mapIdx]
  cases hi : w[i]? with
  | none => rfl
  | some a =>
    have ha := hw a (List.mem_of_getElem? hi)
    have ht : touch x (fun _ a y => a - k * y) i a = a := by
      unfold touch
      split
      · rename_i y hy
        have hy0 : y = 0 := h0 _ (featureAt_some hy)
        subst hy0
        show a - k * 0 = a
        rw [hk.mul_zero, ha.sub_zero]
      · rfl
    simp only [Option.map_some, ht, atZero]
    split
    · rw [ha.sub_zero]
    · rfl

end Sol.Olm
