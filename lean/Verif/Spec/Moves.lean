import Verif.Spec.Online
import Mathlib.Data.Real.Basic
/-! Vocabulary for theorems about how the numbers of a model move during training. -/

namespace Sol.Spec

open Sol.Online Sol.Sparse

/-- Number `i` of vector `k`, if there. -/
def entry {β : Type} (v : List (List β)) (k i : Nat) : Option β := (v[k]?).bind (·[i]?)

/-- From the numbers `v` to the numbers `v'`: everything that was there still is; each new number stands in relation `R`
    to the old one at the same place, or to `a` if there was none. -/
structure Moved {β : Type} (R : Nat → β → β → Prop) (a : β) (v v' : List (List β)) : Prop where
  classes : v'.length = v.length
  kept : ∀ k i, (entry v k i).isSome → (entry v' k i).isSome
  rel : ∀ k i b, entry v' k i = some b → R i ((entry v k i).getD a) b

/-- Numbers in the interval from zero (excluded) to `a`. -/
def Confident {α : Type} [Zero α] [LT α] [LE α] (a : α) (v : List (List α)) : Prop := ∀ k i b, entry v k i = some b → 0 < b ∧ b ≤ a

/-- Positive and not larger than before. -/
def NotUp {α : Type} [Zero α] [LT α] [LE α] (_ : Nat) (old new : α) : Prop := 0 < new ∧ new ≤ old

/-- Feature `i` occurs in the stream. -/
def Occurs {α : Type} (l : List (Ex α × α)) (i : Nat) : Prop := ∃ p ∈ l, ∃ y, (i, y) ∈ p.1.x

/-- Numbers from `a` on. -/
def Above {α : Type} [LE α] (a : α) (v : List (List α)) : Prop := ∀ k i b, entry v k i = some b → a ≤ b

/-- Not smaller than before, and the same if feature `i` is not in `T` (number 0 belongs to the bias). -/
def NotDown {α : Type} [LE α] (T : Nat → Prop) (i : Nat) (old new : α) : Prop := old ≤ new ∧ (i ≠ 0 → ¬ T i → new = old)

/-- The weights of every class have squared norm at most `b`. -/
def InBall {α : Type} [AddMonoid α] [Mul α] [LE α] (b : α) (ws : List (List α)) : Prop :=
  ∀ w ∈ ws, (w.map fun a => a * a).sum ≤ b

end Sol.Spec
