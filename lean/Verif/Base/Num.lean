import Verif.Base.Outcome
import Mathlib.Order.Defs.LinearOrder
/-!
# Numbers

Algorithms are modelled over an arbitrary number type with the C++ operations and comparisons and no laws
(`float` with its NaN is one such type).  Over a linear order the comparisons are the order.
-/

namespace Sol

/-- The comparisons of the C++ number type, as functions to `bool`. -/
class FCmp (α : Type) where
  lt : α → α → Bool
  le : α → α → Bool
  eq : α → α → Bool

infix:50 " <? " => FCmp.lt
infix:50 " ≤? " => FCmp.le
infix:50 " =? " => FCmp.eq

instance (priority := low) {α : Type} [LinearOrder α] : FCmp α :=
  ⟨fun a b => decide (a < b), fun a b => decide (a ≤ b), fun a b => decide (a = b)⟩

section
variable {α : Type} [LinearOrder α] (a b : α)
@[simp] theorem flt_iff : (a <? b) = true ↔ a < b := by simp [FCmp.lt]
@[simp] theorem fle_iff : (a ≤? b) = true ↔ a ≤ b := by simp [FCmp.le]
@[simp] theorem feq_iff : (a =? b) = true ↔ a = b := by simp [FCmp.eq]
@[simp] theorem flt_false_iff : (a <? b) = false ↔ b ≤ a := by simp [FCmp.lt]
@[simp] theorem fle_false_iff : (a ≤? b) = false ↔ b < a := by simp [FCmp.le]
@[simp] theorem feq_false_iff : (a =? b) = false ↔ a ≠ b := by simp [FCmp.eq]
end

/-- `sqrtf`. -/
class FSqrt (α : Type) where
  sqrt : α → α

/-- Element `i` of a vector (`pdata[i]`); outside it is undefined behaviour. -/
def lget {α : Type} (w : List α) (i : Nat) : Res α :=
  match w[i]? with
  | some a => .ok a
  | none => .ub .outOfBounds

/-- Assignment to element `i`. -/
def lset {α : Type} (w : List α) (i : Nat) (a : α) : Res (List α) :=
  if i < w.length then .ok (w.set i a) else .ub .outOfBounds

theorem lget_ok {α : Type} {w : List α} {i : Nat} (h : i < w.length) : lget w i = .ok w[i] := by
  simp [lget, h]

theorem lget_eq_ok {α : Type} {w : List α} {i : Nat} {a : α} : lget w i = .ok a ↔ w[i]? = some a := by
  unfold lget
  split <;> simp_all

theorem lset_ok {α : Type} {w : List α} {i : Nat} (a : α) (h : i < w.length) : lset w i a = .ok (w.set i a) := by
  simp [lset, h]

theorem lset_eq_ok {α : Type} {w w' : List α} {i : Nat} {a : α} :
    lset w i a = .ok w' ↔ i < w.length ∧ w' = w.set i a := by
  unfold lset
  split
  · simp_all [eq_comm]
  · simp only [reduceCtorEq, false_iff]
    omega

end Sol
