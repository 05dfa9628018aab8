/-!
# Decimal text

`Nat.toDigits 10 n` is the decimal text of `n`, `Nat.ofDigitChars 10 ds 0` the number a digit string denotes
(both from Lean's standard library).
-/

namespace Sol.Spec

/-- A string of decimal digits. -/
def Digits (ds : List Char) : Prop := ∀ c ∈ ds, c.isDigit = true

instance (ds : List Char) : Decidable (Digits ds) := inferInstanceAs (Decidable (∀ c ∈ ds, _))

/-- The number denoted by a digit string. -/
abbrev decVal (ds : List Char) : Nat := Nat.ofDigitChars 10 ds 0

/-- The decimal text of a natural number (`printf("%u")`). -/
abbrev decText (n : Nat) : List Char := Nat.toDigits 10 n

/-- The decimal text of an integer (`printf("%d")`). -/
def intText (v : Int) : List Char := if v < 0 then '-' :: decText v.natAbs else decText v.natAbs

/-- Blank characters inside a line. -/
def blank (c : Char) : Bool := c == ' ' || c == '\t' || c == '\n' || c == '\r'

/-- The text that follows a number and does not continue it. -/
def EndsNumber (rest : List Char) : Prop :=
  ∃ c t, rest = c :: t ∧ c.isDigit = false ∧ c ≠ '.' ∧ c ≠ 'e' ∧ c ≠ 'E'

/-- The text of an optional sign and its value. -/
inductive SignText : List Char → Int → Prop
  | none : SignText [] 1
  | plus : SignText ['+'] 1
  | minus : SignText ['-'] (-1)

/-- The text of an optional fraction `.digits` and its digits. -/
inductive FracText : List Char → List Char → Prop
  | none : FracText [] []
  | some (fs : List Char) (h : Digits fs) : FracText ('.' :: fs) fs

/-- The text of an optional exponent `e[sign]digits`, the exponent's sign and its digits. -/
inductive ExpText : List Char → Int → List Char → Prop
  | none : ExpText [] 1 []
  | some (m : Char) (hm : m = 'e' ∨ m = 'E') (sgn : List Char) (s : Int) (hs : SignText sgn s)
      (es : List Char) (h : Digits es) (hne : es ≠ []) : ExpText (m :: (sgn ++ es)) s es

theorem digits_decText (n : Nat) : Digits (decText n) :=
  fun _ hc => Nat.isDigit_of_mem_toDigits (by decide) (by decide) hc

theorem decVal_decText (n : Nat) : decVal (decText n) = n :=
  Nat.ofDigitChars_toDigits (by decide) (by decide)

end Sol.Spec
