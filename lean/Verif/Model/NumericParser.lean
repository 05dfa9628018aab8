import Verif.Base.Outcome
/-!
# Model of include/sol/pario/numeric_parser.h

A `char*` into a zero-terminated buffer is the list of characters from that position to the end of the buffer
(the terminator `'\0'` included); reading at the empty list is reading outside the buffer.  `end == p` is equality of
the two remaining lists' lengths.  `int` arithmetic that leaves the 32-bit range is `signedOverflow`.

`float` results are given exactly as `mant * 10 ^ exp` before the conversion to `float`; `powf(10, k)` converted to an
integer type is taken to be exact, and undefined when out of range of that type.
`num_dec` counts characters and is not bounded (a line has less than 2^31 characters).
-/

namespace Sol.NumericParser

/-- A position in a buffer. -/
abbrev Ptr := List Char

/-- The value of an `int` expression: undefined when it does not fit. -/
def chkInt (x : Int) : Res Int :=
  if -2147483648 ≤ x ∧ x ≤ 2147483647 then .ok x else .ub .signedOverflow

/-- `*p` -/
def peek : Ptr → Res Char
  | [] => .ub .outOfBounds
  | c :: _ => .ok c

/-- `is_space` (numeric_parser.h:18-20). -/
def isSpace (c : Char) : Bool := c == ' ' || c == '\t' || c == '\n' || c == '\r'

/-- `*p >= '0' && *p <= '9'` -/
def isDigit (c : Char) : Bool := '0' ≤ c && c ≤ '9'

/-- `strip_line` (numeric_parser.h:22-25). -/
def stripLine : Ptr → Res Ptr
  | [] => .ub .outOfBounds
  | c :: p => if isSpace c then stripLine p else .ok (c :: p)

/-- `acc * 10 + *p - '0'` in `int` (numeric_parser.h:43). -/
def accInt (acc : Int) (c : Char) : Res Int := do
  let x ← chkInt (acc * 10)
  let y ← chkInt (x + c.toNat)
  chkInt (y - 48)

/-- `while (*p >= '0' && *p <= '9') acc = acc * 10 + *p++ - '0';` for an `int` accumulator
    (numeric_parser.h:43, 57, 118, 139). -/
def intDigits (acc : Int) : Ptr → Res (Int × Ptr)
  | [] => .ub .outOfBounds
  | c :: p =>
    if isDigit c then do
      let acc ← accInt acc c
      intDigits acc p
    else .ok (acc, c :: p)

/-- The same loop counting the digits in `num_dec` (numeric_parser.h:48-51), at most `max` of them
    (`none`: no limit; numeric_parser.h:123-126 has the limit 7). -/
def intDecimals (acc : Int) (numDec : Nat) (max : Option Nat) : Ptr → Res (Int × Nat × Ptr)
  | [] => .ub .outOfBounds
  | c :: p =>
    if isDigit c && max != some numDec then do
      let acc ← accInt acc c
      intDecimals acc (numDec + 1) max p
    else .ok (acc, numDec, c :: p)

/-- `while (*p >= '0' && *p <= '9') p++;` (numeric_parser.h:127). -/
def skipDigits : Ptr → Res Ptr
  | [] => .ub .outOfBounds
  | c :: p => if isDigit c then skipDigits p else .ok (c :: p)

/-- The digit loop with an `unsigned int` accumulator (numeric_parser.h:75): arithmetic modulo 2^32. -/
def uintDigits (acc : UInt32) : Ptr → Res (UInt32 × Ptr)
  | [] => .ub .outOfBounds
  | c :: p =>
    if isDigit c then uintDigits (acc * 10 + UInt32.ofNat c.toNat - 48) p
    else .ok (acc, c :: p)

/-- The counting digit loop with an `unsigned int` accumulator (numeric_parser.h:80-83). -/
def uintDecimals (acc : UInt32) (numDec : Nat) : Ptr → Res (UInt32 × Nat × Ptr)
  | [] => .ub .outOfBounds
  | c :: p =>
    if isDigit c then uintDecimals (acc * 10 + UInt32.ofNat c.toNat - 48) (numDec + 1) p
    else .ok (acc, numDec, c :: p)

/-- `if (*p == c) p++;` -/
def skipChar (c : Char) (p : Ptr) : Res Ptr := do
  let x ← peek p
  if x = c then .ok p.tail else .ok p

/-- The exponent of the two integer parsers (numeric_parser.h:53-58, 85-90). -/
def intExponent (p : Ptr) : Res (Int × Ptr) := do
  let c ← peek p
  if c = 'e' ∨ c = 'E' then do
    let p ← skipChar '+' p.tail
    intDigits 0 p
  else .ok (0, p)

/-- The optional decimals of `ParseInt` (numeric_parser.h:45-52). -/
def intFraction (acc : Int) (p : Ptr) : Res (Int × Nat × Ptr) := do
  let c ← peek p
  if c = '.' then intDecimals acc 0 none p.tail else .ok (acc, 0, p)

/-- The optional decimals of `ParseUint` (numeric_parser.h:77-84). -/
def uintFraction (acc : UInt32) (p : Ptr) : Res (UInt32 × Nat × Ptr) := do
  let c ← peek p
  if c = '.' then uintDecimals acc 0 p.tail else .ok (acc, 0, p)

/-- Sign of `ParseInt` (numeric_parser.h:35-41): one of `+`, `-`. -/
def intSign (p : Ptr) : Res (Int × Ptr) := do
  let c ← peek p
  if c = '+' then .ok (1, p.tail)
  else if c = '-' then .ok (-1, p.tail)
  else .ok (1, p)

/-- Scaling at the end of `ParseInt` (numeric_parser.h:61-62). -/
def scaleInt (acc expAcc : Int) (numDec : Nat) : Res Int :=
  if expAcc > 0 then do
    let k := (expAcc - numDec).toNat
    if k ≥ 10 then .ub .signedOverflow   -- powf(10, k) does not fit `int`
    else chkInt (acc * 10 ^ k)
  else .ok acc

/-- `ParseInt` (numeric_parser.h:28-66): value and end position. -/
def parseInt (p0 : Ptr) : Res (Int × Ptr) := do
  let p ← stripLine p0
  let c ← peek p
  if c = '\x00' then .ok (0, p0) else do
  let (s, p) ← intSign p
  let (acc, p) ← intDigits 0 p
  let (acc, numDec, p) ← intFraction acc p
  let (expAcc, p) ← intExponent p
  if expAcc < numDec then .ok (0, p0) else do
  let acc ← scaleInt acc expAcc numDec
  let e ← stripLine p
  let v ← chkInt (s * acc)
  .ok (v, e)

/-- Scaling at the end of `ParseUint` (numeric_parser.h:93-94). -/
def scaleUint (acc : UInt32) (expAcc : Int) (numDec : Nat) : Res UInt32 :=
  if expAcc > 0 then
    let k := (expAcc - numDec).toNat
    if k ≥ 10 then .ub .signedOverflow   -- powf(10, k) does not fit `unsigned int`
    else .ok (acc * UInt32.ofNat (10 ^ k))
  else .ok acc

/-- `ParseUint` (numeric_parser.h:69-97). -/
def parseUint (p0 : Ptr) : Res (UInt32 × Ptr) := do
  let p ← stripLine p0
  let c ← peek p
  if c = '\x00' then .ok (0, p0) else do
  let (acc, p) ← uintDigits 0 p
  let (acc, numDec, p) ← uintFraction acc p
  let (expAcc, p) ← intExponent p
  if expAcc < numDec then .ok (0, p0) else do
  let acc ← scaleUint acc expAcc numDec
  let e ← stripLine p
  .ok (acc, e)

/-- The exact decimal number `mant * 10 ^ exp`. -/
structure Dec where
  mant : Int
  exp : Int
deriving DecidableEq, Repr

/-- Sign of `ParseFloat` (numeric_parser.h:110-115): an optional `+`, then an optional `-`. -/
def floatSign (p : Ptr) : Res (Int × Ptr) := do
  let p ← skipChar '+' p
  let c ← peek p
  if c = '-' then .ok (-1, p.tail) else .ok (1, p)

/-- Decimals of `ParseFloat` (numeric_parser.h:120-128): at most seven are used, the others are skipped. -/
def floatFraction (acc : Int) (p : Ptr) : Res (Int × Nat × Ptr) := do
  let c ← peek p
  if c = '.' then do
    let (acc, numDec, p) ← intDecimals acc 0 (some 7) p.tail
    let p ← skipDigits p
    .ok (acc, numDec, p)
  else .ok (acc, 0, p)

/-- Exponent of `ParseFloat` (numeric_parser.h:130-141). -/
def floatExponent (p : Ptr) : Res (Int × Ptr) := do
  let c ← peek p
  if c = 'e' ∨ c = 'E' then do
    let (s, p) ← floatSign p.tail
    let (e, p) ← intDigits 0 p
    let e ← chkInt (e * s)
    .ok (e, p)
  else .ok (0, p)

/-- `ParseFloat` (numeric_parser.h:104-149). -/
def parseFloat (p0 : Ptr) : Res (Dec × Ptr) := do
  let p ← stripLine p0
  let c ← peek p
  if c = '\x00' then .ok (⟨0, 0⟩, p0) else do
  let (s, p) ← floatSign p
  let (acc, p) ← intDigits 0 p
  let (acc, numDec, p) ← floatFraction acc p
  let (expAcc, p) ← floatExponent p
  let expAcc ← chkInt (expAcc - numDec)
  let e ← stripLine p
  let m ← chkInt (s * acc)
  .ok (⟨m, expAcc⟩, e)

end Sol.NumericParser
