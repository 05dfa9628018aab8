import Verif.Spec.Decimal
import Verif.Model.NumericParser
/-!
# The lines accepted by the svm reader, as a grammar

Independent of the parser's functions (only the type `Dec` of exact decimals is shared).
The grammar is permissive: digits may be missing, so `.`, `+` and `e` are numbers.
-/

namespace Sol.Spec
open Sol.NumericParser (Dec)

def Blanks (ws : List Char) : Prop := ∀ c ∈ ws, blank c = true

/-- An optional exponent `e[+]digits` of an integer. -/
inductive ExpTok : List Char → List Char → Prop
  | none : ExpTok [] []
  | some (m : Char) (hm : m = 'e' ∨ m = 'E') (pl : List Char) (hp : pl = [] ∨ pl = ['+']) (es : List Char)
      (h : Digits es) : ExpTok (m :: (pl ++ es)) es

/-- The sign of a value: `+`, `-` or `+-`. -/
inductive FSignTok : List Char → Int → Prop
  | one (sgn : List Char) (s : Int) (h : SignText sgn s) : FSignTok sgn s
  | plusMinus : FSignTok ['+', '-'] (-1)

/-- An optional exponent of a value. -/
inductive FExpTok : List Char → Int → List Char → Prop
  | none : FExpTok [] 1 []
  | some (m : Char) (hm : m = 'e' ∨ m = 'E') (sgn : List Char) (s : Int) (hs : FSignTok sgn s) (es : List Char)
      (h : Digits es) : FExpTok (m :: (sgn ++ es)) s es

/-- An integer with its surrounding blanks; decimals only as far as the exponent makes up for them. -/
def IntTok (tok : List Char) (v : Int) : Prop :=
  ∃ ws sgn s ds ft fs et es ws', Blanks ws ∧ SignText sgn s ∧ Digits ds ∧ FracText ft fs ∧ ExpTok et es ∧ Blanks ws' ∧
    tok = ws ++ (sgn ++ (ds ++ (ft ++ (et ++ ws')))) ∧ fs.length ≤ decVal es ∧
    v = s * ((decVal (ds ++ fs) * 10 ^ (decVal es - fs.length) : Nat) : Int)

/-- An index with its surrounding blanks, taken modulo 2^32. -/
def UintTok (tok : List Char) (v : UInt32) : Prop :=
  ∃ ws ds ft fs et es ws', Blanks ws ∧ Digits ds ∧ FracText ft fs ∧ ExpTok et es ∧ Blanks ws' ∧
    tok = ws ++ (ds ++ (ft ++ (et ++ ws'))) ∧ fs.length ≤ decVal es ∧
    v = UInt32.ofNat (decVal (ds ++ fs) * 10 ^ (decVal es - fs.length))

/-- A value with its surrounding blanks; seven decimals are used. -/
def FloatTok (tok : List Char) (d : Dec) : Prop :=
  ∃ ws sgn s ds ft fs et sx es ws', Blanks ws ∧ FSignTok sgn s ∧ Digits ds ∧ FracText ft fs ∧ FExpTok et sx es ∧
    Blanks ws' ∧ tok = ws ++ (sgn ++ (ds ++ (ft ++ (et ++ ws')))) ∧
    d = ⟨s * (decVal (ds ++ fs.take 7) : Nat), sx * (decVal es : Nat) - (min 7 fs.length : Nat)⟩

/-- A sequence of features `index:value`. -/
inductive FeatsTok : List Char → List (UInt32 × Dec) → Prop
  | nil : FeatsTok [] []
  | cons {it vt r : List Char} {i : UInt32} {d : Dec} {fs : List (UInt32 × Dec)} (hi : UintTok it i) (hi' : it ≠ [])
      (hv : FloatTok vt d) (hv' : vt ≠ []) (hr : FeatsTok r fs) : FeatsTok (it ++ ':' :: (vt ++ r)) ((i, d) :: fs)

end Sol.Spec
