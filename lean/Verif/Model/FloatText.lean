import Mathlib.Data.Int.Log
import Mathlib.Data.Rat.Floor
import Verif.Base.F32
import Verif.Model.Text
import Verif.Model.TextWriters
/-!
# Text of `float` values as the C++ library writes and reads it

`operator<<` and `printf("%g")` (six significant digits, rounded half to even), `std::stof` and `operator>>`.
Simplifications: decimal text only (`stof` also reads hexadecimal text after `0x`); `stof` reports a range error for a result
that is too large, or tiny and inexact (glibc).
-/

namespace Sol.FloatText
open Sol.Text Sol.TextWriters

/-- The nearest natural number to `q ≥ 0`, ties to even. -/
def nearest (q : ℚ) : Nat :=
  let n := q.floor.toNat
  let r := q - n
  if r < 1 / 2 then n else if 1 / 2 < r then n + 1 else if n % 2 = 0 then n else n + 1

/-- A number rounded to six significant decimal digits. -/
def six (q : ℚ) : GVal :=
  if q = 0 then .zero false
  else
    let x := Int.log 10 |q|
    let m := nearest (|q| * 10 ^ (5 - x))
    if m = 1000000 then .num (decide (q < 0)) 100000 (x + 1) else .num (decide (q < 0)) m x

/-- A `float` as `%g` sees it (the sign of a zero or of a NaN is not modelled). -/
def fmtG : F32 → GVal
  | .fin q => six q
  | .pinf => .inf false
  | .ninf => .inf true
  | .nan => .nan false

/-- `os << v`. -/
def put (v : F32) : List Char := gText (fmtG v)

/-- An optional exponent: its value and the rest. -/
def scanExp : List Char → Int × List Char
  | c :: t =>
    if c = 'e' ∨ c = 'E' then
      let (neg, u) := takeSign t
      let es := u.takeWhile isDigit
      if es = [] then (0, c :: t)
      else (if neg then -(digitsVal es : Int) else digitsVal es, u.dropWhile isDigit)
    else (0, c :: t)
  | [] => (0, [])

/-- An optional fraction: its digits and the rest. -/
def scanFrac : List Char → List Char × List Char
  | '.' :: t => (t.takeWhile isDigit, t.dropWhile isDigit)
  | s => ([], s)

/-- A decimal number at the start of the text (`strtof`): its value and the rest. -/
def scanDec (s : List Char) : Option (ℚ × List Char) :=
  let (neg, s) := takeSign s
  let ds := s.takeWhile isDigit
  let (fs, s) := scanFrac (s.dropWhile isDigit)
  if ds = [] ∧ fs = [] then none
  else
    let (x, s) := scanExp s
    let v : ℚ := (digitsVal (ds ++ fs) : ℚ) * 10 ^ (x - fs.length)
    some (if neg then -v else v, s)

/-- The words `strtof` reads. -/
def scanWord (s : List Char) : Option F32 :=
  let (neg, s) := takeSign s
  let w := (s.take 3).map Char.toLower
  if w = ['i', 'n', 'f'] then some (if neg then .ninf else .pinf)
  else if w = ['n', 'a', 'n'] then some .nan
  else none

/-- `std::stof`. -/
def stof (s : List Char) : Except Exn F32 :=
  let s := s.dropWhile isSpace
  match scanDec s with
  | some (q, _) =>
    let r := F32.round q
    if r = .pinf ∨ r = .ninf then .error .outOfRange
    else if |q| < 1 / 2 ^ 126 ∧ r ≠ .fin q then .error .outOfRange
    else .ok r
  | none =>
    match scanWord s with
    | some r => .ok r
    | none => .error .invalidArgument

/-- `is >> v` for a `float`: the value and the rest of the stream; `none` sets the fail bit. -/
def readFloat (s : List Char) : Option (F32 × List Char) :=
  match scanDec (s.dropWhile isSpace) with
  | some (q, rest) =>
    let r := F32.round q
    if r = .pinf ∨ r = .ninf then none
    else
      match rest with
      | c :: _ => if c = 'e' ∨ c = 'E' then none else some (r, rest)
      | [] => some (r, [])
  | none => none

end Sol.FloatText
