/-!
# Specification of the index code

A code is a sequence of groups, one per index.  A group is up to four continuation bytes (value at least 128)
and a final byte (value below 128); a fifth byte may only hold the four bits that are left of a 32-bit number.
-/

namespace Sol.Spec

/-- A well-formed group of bytes for one 32-bit number. -/
def Group (g : List UInt8) : Prop :=
  ∃ (conts : List UInt8) (last : UInt8), g = conts ++ [last] ∧
    (∀ b ∈ conts, 128 ≤ b.toNat) ∧ last.toNat < 128 ∧
    conts.length ≤ 4 ∧ (conts.length = 4 → last.toNat < 16)

/-- A code that consists of exactly `n` groups. -/
def Groups (n : Nat) (codes : List UInt8) : Prop :=
  ∃ gs : List (List UInt8), gs.length = n ∧ codes = gs.flatten ∧ ∀ g ∈ gs, Group g

/-- The number denoted by a group: seven bits per byte, low bits first. -/
def groupValue : List UInt8 → Nat
  | [] => 0
  | b :: g => b.toNat % 128 + 128 * groupValue g

end Sol.Spec
