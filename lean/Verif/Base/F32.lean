import Verif.Base.Num
import Mathlib.Data.Rat.Defs
import Mathlib.Data.Rat.Floor
import Mathlib.Algebra.Order.Field.Rat
/-!
# IEEE binary32 numbers

Exact results rounded to nearest, ties to even, with gradual underflow, overflow to infinity, and NaN.
Simplification: one zero (the sign of zero is not kept; a non-zero number divided by zero is the infinity of its own sign).
Used for facts about rounding, overflow and NaN.
-/

namespace Sol

/-- A binary32 value; finite ones by their rational value. -/
inductive F32 where
  | fin (q : Rat)
  | pinf
  | ninf
  | nan
deriving DecidableEq, Repr

namespace F32

/-- Round `a / b` to the nearest natural number, ties to even. -/
def divRound (a b : Nat) : Nat :=
  let q := a / b
  let r := a % b
  if 2 * r < b then q else if b < 2 * r then q + 1 else if q % 2 = 0 then q else q + 1

/-- `2^e` for integer `e`. -/
def pow2 (e : Int) : Rat := if 0 ≤ e then ((2 ^ e.toNat : Nat) : Rat) else 1 / ((2 ^ (-e).toNat : Nat) : Rat)

/-- Exponent of the last of the 24 bits of `a / b` (at least -149). -/
def ulpExp (a b : Nat) : Int :=
  let e : Int := (a.log2 : Int) - (b.log2 : Int) - 23
  -- `2^22 < (a / b) / 2^e < 2^24`
  let e := if (a : Rat) < (b : Rat) * pow2 (e + 23) then e - 1 else e
  max e (-149)

/-- Magnitude `a / b` rounded, in units of `2^ulpExp`. -/
def roundMag (a b : Nat) : Rat :=
  let e := ulpExp a b
  let n := if 0 ≤ e then divRound a (b * 2 ^ e.toNat) else divRound (a * 2 ^ (-e).toNat) b
  (n : Rat) * pow2 e

/-- Rounding of an exact result. -/
def round (q : Rat) : F32 :=
  if q = 0 then fin 0
  else
    let m := roundMag q.num.natAbs q.den
    if pow2 128 ≤ m then (if 0 < q then pinf else ninf)
    else fin (if 0 < q then m else -m)

def neg : F32 → F32
  | fin q => fin (-q)
  | pinf => ninf
  | ninf => pinf
  | nan => nan

def add : F32 → F32 → F32
  | fin a, fin b => round (a + b)
  | nan, _ => nan
  | _, nan => nan
  | pinf, ninf => nan
  | ninf, pinf => nan
  | pinf, _ => pinf
  | _, pinf => pinf
  | ninf, _ => ninf
  | _, ninf => ninf

def sgn : F32 → Int
  | fin q => if 0 < q then 1 else if q < 0 then -1 else 0
  | pinf => 1
  | ninf => -1
  | nan => 0

/-- Infinity with the sign of an integer; NaN for 0. -/
def infOf (s : Int) : F32 := if 0 < s then pinf else if s < 0 then ninf else nan

def mul : F32 → F32 → F32
  | fin a, fin b => round (a * b)
  | nan, _ => nan
  | _, nan => nan
  | a, b => infOf (sgn a * sgn b)

def div : F32 → F32 → F32
  | fin a, fin b => if b = 0 then infOf (sgn (fin a)) else round (a / b)
  | nan, _ => nan
  | _, nan => nan
  | fin _, _ => fin 0
  | a, fin b => if 0 ≤ b then a else neg a
  | _, _ => nan

def lt : F32 → F32 → Bool
  | fin a, fin b => decide (a < b)
  | nan, _ => false
  | _, nan => false
  | ninf, ninf => false
  | ninf, _ => true
  | _, ninf => false
  | pinf, _ => false
  | _, pinf => true

def eq : F32 → F32 → Bool
  | nan, _ => false
  | a, b => decide (a = b)

instance : Zero F32 := ⟨fin 0⟩
instance : One F32 := ⟨fin 1⟩
instance : Neg F32 := ⟨neg⟩
instance : Add F32 := ⟨add⟩
instance : Sub F32 := ⟨fun a b => add a (neg b)⟩
instance : Mul F32 := ⟨mul⟩
instance : Div F32 := ⟨div⟩
instance : IntCast F32 := ⟨fun n => round n⟩
instance : FCmp F32 := ⟨lt, fun a b => lt a b || eq a b, eq⟩

/-- `-FLT_MAX`. -/
def lowest : F32 := fin (-((2 ^ 24 - 1) * 2 ^ 104))

/-- `1e-12f`. -/
def tiny : F32 := round (1 / 10 ^ 12)

/-! Known values. -/

example : (fin (1/2) : F32) + fin (1/4) = fin (3/4) := by decide +kernel
example : tiny + 1 = 1 := by decide +kernel
/-- 2^24 + 1 is not representable. -/
example : ((16777217 : Int) : F32) = fin 16777216 := by decide +kernel
example : ((16777219 : Int) : F32) = fin 16777220 := by decide +kernel
/-- 0.1f = 13421773 * 2^-27. -/
example : (1 : F32) / fin 10 = fin (13421773 / 134217728) := by decide +kernel
/-- Smallest subnormal number, halves round to even. -/
example : (fin (1 / 2 ^ 149) : F32) / fin 2 = 0 := by decide +kernel
example : -lowest + -lowest = pinf := by decide +kernel
example : (0 : F32) / 0 = nan := by decide +kernel
example : (1 : F32) / 0 = pinf := by decide +kernel

end F32

end Sol
