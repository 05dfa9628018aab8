import Verif.Base.F32
import Mathlib.Tactic.Linarith
import Mathlib.Tactic.Ring
/-!
# The binary32 square root

`sqrtf` rounds the exact square root.  Here the root of the number scaled by a power of four is taken down to an integer
with more than 24 bits, one is added at the end if something was lost (so that a tie is not seen where there is none), and
the result is rounded.
-/

namespace Sol.F32

/-- Integer square root; `k` steps suffice for numbers below `4^k`. -/
def isqrt : Nat → Nat → Nat
  | 0, _ => 0
  | k + 1, n =>
    let r := 2 * isqrt k (n / 4)
    if (r + 1) * (r + 1) ≤ n then r + 1 else r

/-- The integer square root is the integer square root. -/
theorem isqrt_spec (k n : Nat) (h : n < 4 ^ k) : isqrt k n * isqrt k n ≤ n ∧ n < (isqrt k n + 1) * (isqrt k n + 1) := by
  induction k generalizing n with
  | zero =>
    simp only [pow_zero, Nat.lt_one_iff] at h
    simp [isqrt, h]
  | succ k ih =>
    obtain ⟨h1, h2⟩ := ih (n / 4) (by rw [pow_succ] at h; omega)
    simp only [isqrt]
    generalize isqrt k (n / 4) = r at h1 h2
    have h3 : 4 * (n / 4) ≤ n := Nat.mul_div_le n 4
    have h4 : n < 4 * (n / 4) + 4 := by omega
    split
    · rename_i h5
      refine ⟨h5, ?_⟩
      have : n / 4 + 1 ≤ (r + 1) * (r + 1) := h2
      nlinarith
    · rename_i h5
      refine ⟨?_, by omega⟩
      nlinarith

/-- Number of binary digits after the point that are taken. -/
def sqrtScale (a b : Nat) : Nat := 27 + (b.log2 - a.log2)

/-- Twice the scaled root, with the last bit set if the root is not exact. -/
def rootMag (a b : Nat) : Nat :=
  let n := a * 4 ^ sqrtScale a b / b
  let r := isqrt (n.log2 + 1) n
  if r * r * b = a * 4 ^ sqrtScale a b then 2 * r else 2 * r + 1

/-- `sqrtf`. -/
def sqrt : F32 → F32
  | fin q => if q < 0 then nan else
      round ((rootMag q.num.natAbs q.den : Rat) / ((2 * 2 ^ sqrtScale q.num.natAbs q.den : Nat) : Rat))
  | pinf => pinf
  | ninf => nan
  | nan => nan

instance : FSqrt F32 := ⟨sqrt⟩

/-- Known values. -/
theorem sqrt_values : sqrt (fin 4) = fin 2 ∧ sqrt (fin (1 / 16)) = fin (1 / 4) ∧ sqrt (fin 0) = fin 0 ∧
    sqrt (fin 2) = fin (11863283 / 2 ^ 23) ∧ sqrt (fin (-1)) = nan := by decide +kernel

end Sol.F32
