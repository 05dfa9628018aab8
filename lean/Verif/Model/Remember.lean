import Verif.Base.F64
/-!
# Model of the file with the best value of a cross validation in experiments/liblinear.py (42-61) and experiments/vw.py (148-173)

The two scripts have the same lines but for the name of the value.  Simplifications: the search itself, which is that of another package, is
given by its result, a `double` that is not negative; a text with a number that is too large for a `double` is taken for an exception.
-/

namespace Sol.Remember

/-- The digits of `n` millionths, with six of them behind the point. -/
def millionths (n : Nat) : List Char :=
  let f := Nat.toDigits 10 (n % 1000000)
  Nat.toDigits 10 (n / 1000000) ++ '.' :: (List.replicate (6 - f.length) '0' ++ f)

/-- `'%f' % v`: the nearest number of millionths, ties to even. -/
def fixedText (v : ℚ) : List Char := millionths (F32.divRound (v.num.natAbs * 1000000) v.den)

/-- `float(s)` of digits, a point and digits; `none`: an exception. -/
def pyFloat (s : List Char) : Option ℚ :=
  let i := s.takeWhile (· ≠ '.')
  let f := (s.dropWhile (· ≠ '.')).drop 1
  if i ≠ [] ∧ (i ++ f).all Char.isDigit then F64.round ((Nat.ofDigitChars 10 (i ++ f) 0 : ℚ) / 10 ^ f.length) else none

/-- `line.split('=')[1]`. -/
def afterEqual (line : List Char) : Option (List Char) :=
  match line.dropWhile (· ≠ '=') with
  | [] => none
  | _ :: rest => some (rest.takeWhile (· ≠ '='))

/-- The written line (liblinear.py:59, vw.py:169). -/
def resultLine (name : List Char) (v : ℚ) : List Char := "Best Result: ".toList ++ name ++ '=' :: fixedText v

/-- The value that is used, and the file afterwards (liblinear.py:43-59, vw.py:149-169); `searched`: what a search would find now. -/
def choose (name : List Char) (retrain : Bool) (file : Option (List Char)) (searched : ℚ) : Option (ℚ × List Char) :=
  match file, retrain with
  | some text, false => (afterEqual (text.takeWhile (· ≠ '\n'))).bind fun s => (pyFloat s).map fun v => (v, text)
  | _, _ => some (searched, resultLine name searched)

end Sol.Remember
