import Verif.Model.Vector
/-!
# What a vector should be: a window on an endless tape

The tape holds zeros at first; the vector shows its first `size` cells.  Only `Op`, the names of the operations, is
shared with the model.
-/

namespace Sol.Spec
open Sol.Vector (Op)

structure Tape (α : Type) where
  cell : Nat → α
  size : Nat

variable {α : Type}

/-- Change of one cell. -/
def Tape.write (t : Tape α) (i : Nat) (x : α) : Nat → α := fun j => if j = i then x else t.cell j

/-- An operation on the tape; `none` if it is not allowed (writing outside the window). -/
def Tape.step (t : Tape α) : Op α → Option (Tape α)
  | .resize n => some ⟨t.cell, n⟩
  | .reserve _ => some t
  | .push x => some ⟨t.write t.size x, t.size + 1⟩
  | .pop => some ⟨t.cell, t.size - 1⟩
  | .clear => some ⟨t.cell, 0⟩
  | .put i x => if i < t.size then some ⟨t.write i x, t.size⟩ else none

/-- A sequence of allowed operations. -/
def Tape.run (t : Tape α) : List (Op α) → Option (Tape α)
  | [] => some t
  | op :: ops => (t.step op).bind fun t => t.run ops

/-- The empty window on the blank tape. -/
def Tape.blank [Zero α] : Tape α := ⟨fun _ => 0, 0⟩

end Sol.Spec
