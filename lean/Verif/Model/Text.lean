import Verif.Base.Outcome
/-!
# The C++ library functions on text that the models use

`std::getline`, `std::stoi` and `std::stoll` (as in the C++ standard, `int` of 32 and `long long` of 64 bits); a string is a list of characters.
-/

namespace Sol.Text

/-- The exceptions of the library. -/
inductive Exn where
  | invalidArgument
  | outOfRange
  | runtimeError
deriving DecidableEq, Repr

/-- `isspace` in the "C" locale. -/
def isSpace (c : Char) : Bool := c == ' ' || c == '\t' || c == '\n' || c == '\x0b' || c == '\x0c' || c == '\r'

/-- `isdigit`. -/
def isDigit (c : Char) : Bool := '0' ≤ c && c ≤ '9'

/-- The value of a string of digits. -/
def digitsVal (ds : List Char) : Nat := ds.foldl (fun n c => 10 * n + (c.toNat - 48)) 0

/-- An optional sign: whether it is `-`, and the rest. -/
def takeSign : List Char → Bool × List Char
  | '-' :: s => (true, s)
  | '+' :: s => (false, s)
  | s => (false, s)

/-- `std::stoi` and its relatives, for integers from `lo` to `hi`: the value and the characters behind the number. -/
def stoInt (lo hi : Int) (s : List Char) : Except Exn (Int × List Char) :=
  let (neg, s) := takeSign (s.dropWhile isSpace)
  let ds := s.takeWhile isDigit
  let v : Int := if neg then -(digitsVal ds : Int) else digitsVal ds
  if ds = [] then .error .invalidArgument
  else if v < lo ∨ hi < v then .error .outOfRange
  else .ok (v, s.dropWhile isDigit)

/-- `std::stoi(s, &pos)`, 32 bits. -/
def stoi : List Char → Except Exn (Int × List Char) := stoInt (-2147483648) 2147483647

/-- `std::stoll(s, &pos)`, 64 bits. -/
def stoll : List Char → Except Exn (Int × List Char) := stoInt (-9223372036854775808) 9223372036854775807

/-- The lines `std::getline` delivers from a file: a last line without a newline counts, an empty one does not. -/
def lines : List Char → List (List Char)
  | [] => []
  | c :: f =>
    if c = '\n' then [] :: lines f
    else
      match lines f with
      | [] => [[c]]
      | l :: ls => (c :: l) :: ls

end Sol.Text
