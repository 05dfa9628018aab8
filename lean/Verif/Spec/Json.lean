import Verif.Base.F64
import Verif.Model.Json
import Verif.Spec.Decimal
import Verif.Spec.FloatText
/-!
# JSON text (RFC 8259) and the values it stands for

Characters are bytes; text outside of strings is as in the RFC, strings may also hold any byte from 128 on.  Only the type of values
is shared with the model.
-/

namespace Sol.Spec
open Sol.Json (Value Elems Members)

/-- Blanks between tokens. -/
def Gap (w : List Char) : Prop := ∀ c ∈ w, c = ' ' ∨ c = '\t' ∨ c = '\n' ∨ c = '\r'

instance (w : List Char) : Decidable (Gap w) := inferInstanceAs (Decidable (∀ c ∈ w, _))

/-- A minus sign or nothing, and its value. -/
inductive Minus : List Char → Int → Prop
  | none : Minus [] 1
  | minus : Minus ['-'] (-1)

/-- Digits without needless zeros at the start. -/
def WholePart (ds : List Char) : Prop := Digits ds ∧ (ds = ['0'] ∨ ∃ c r, ds = c :: r ∧ c ≠ '0')

/-- The text of a number.  Whole numbers that 64 bits can hold are kept, others are rounded to binary64. -/
inductive NumText : List Char → Value → Prop
  | int {sgn ds : List Char} {s : Int} (hs : Minus sgn s) (hd : WholePart ds)
      (h1 : -2 ^ 63 ≤ s * (decVal ds : Int)) (h2 : s * (decVal ds : Int) ≤ 2 ^ 64 - 1) :
      NumText (sgn ++ ds) (.int (s * (decVal ds : Int)))
  | real {sgn ds ft fs et es : List Char} {s sx : Int} {r : ℚ} (hs : Minus sgn s) (hd : WholePart ds) (hf : FracText ft fs)
      (hf' : ft ≠ ['.']) (he : ExpText et sx es)
      (hk : ft ++ et ≠ [] ∨ s * (decVal ds : Int) < -2 ^ 63 ∨ 2 ^ 64 - 1 < s * (decVal ds : Int))
      (hr : F64.round (s * ((decVal ds : ℚ) + (decVal fs : ℚ) / 10 ^ fs.length) * 10 ^ (sx * (decVal es : Int))) = some r) :
      NumText (sgn ++ (ds ++ (ft ++ et))) (.real (.fin r))

/-- The two characters of a short escape. -/
inductive Short2 : Char → Char → Prop
  | quote : Short2 '"' '"'
  | backslash : Short2 '\\' '\\'
  | slash : Short2 '/' '/'
  | b : Short2 'b' '\x08'
  | f : Short2 'f' '\x0c'
  | n : Short2 'n' '\n'
  | r : Short2 'r' '\r'
  | t : Short2 't' '\t'

/-- The number that four hexadecimal digits stand for. -/
def Hex4 (h : List Char) (u : Nat) : Prop :=
  h.length = 4 ∧ (∀ c ∈ h, c ∈ "0123456789abcdefABCDEF".toList) ∧
  u = h.foldl (fun a c => 16 * a + "0123456789abcdef".toList.idxOf c.toLower) 0

/-- The bytes of a character (Lean's own encoder). -/
def encode (u : Nat) : List Char := (String.utf8EncodeChar (Char.ofNat u)).map fun b => Char.ofNat b.toNat

/-- The text of a string between the quotes and the bytes it stands for. -/
inductive StrText : List Char → List Char → Prop
  | nil : StrText [] []
  | char {c : Char} {t s : List Char} (h0 : 32 ≤ c.toNat) (h1 : c ≠ '"') (h2 : c ≠ '\\') (h : StrText t s) : StrText (c :: t) (c :: s)
  | short {e c : Char} {t s : List Char} (he : Short2 e c) (h : StrText t s) : StrText ('\\' :: e :: t) (c :: s)
  | unicode {x t s : List Char} {u : Nat} (hx : Hex4 x u) (hu : u < 0xD800 ∨ 0xDFFF < u) (h : StrText t s) :
      StrText ('\\' :: 'u' :: (x ++ t)) (encode u ++ s)
  | pair {x y t s : List Char} {u v : Nat} (hx : Hex4 x u) (hu : 0xD800 ≤ u ∧ u ≤ 0xDBFF) (hy : Hex4 y v)
      (hv : 0xDC00 ≤ v ∧ v ≤ 0xDFFF) (h : StrText t s) :
      StrText ('\\' :: 'u' :: (x ++ ('\\' :: 'u' :: (y ++ t)))) (encode (0x10000 + (u - 0xD800) * 1024 + (v - 0xDC00)) ++ s)

/-- The members of an object in their order. -/
def entries : Members → List (List Char × Value)
  | .nil => []
  | .cons k v l => (k, v) :: entries l

/-- The object with the members `ps`: ordered by name, the last of several members with a name counts. -/
def Object (ps : List (List Char × Value)) (l : Members) : Prop :=
  (entries l).Pairwise (fun a b => a.1 < b.1) ∧ ∀ k, (entries l).lookup k = ps.reverse.lookup k

mutual
/-- The text of a value with at most `n` levels of nesting. -/
inductive ValText : Nat → List Char → Value → Prop
  | null {n : Nat} : ValText (n + 1) "null".toList .null
  | yes {n : Nat} : ValText (n + 1) "true".toList (.bool true)
  | no {n : Nat} : ValText (n + 1) "false".toList (.bool false)
  | num {n : Nat} {t : List Char} {v : Value} (h : NumText t v) : ValText (n + 1) t v
  | str {n : Nat} {t s : List Char} (h : StrText t s) : ValText (n + 1) ('"' :: (t ++ ['"'])) (.str s)
  | arrNil {n : Nat} {w : List Char} (h : Gap w) : ValText (n + 1) ('[' :: (w ++ [']'])) (.arr .nil)
  | arr {n : Nat} {t : List Char} {l : Elems} (h : ElemsText n t l) : ValText (n + 1) ('[' :: (t ++ [']'])) (.arr l)
  | objNil {n : Nat} {w : List Char} (h : Gap w) : ValText (n + 1) ('{' :: (w ++ ['}'])) (.obj .nil)
  | obj {n : Nat} {t : List Char} {ps : List (List Char × Value)} {l : Members} (h : PairsText n t ps) (hl : Object ps l) :
      ValText (n + 1) ('{' :: (t ++ ['}'])) (.obj l)

/-- The text between the brackets of an array. -/
inductive ElemsText : Nat → List Char → Elems → Prop
  | one {n : Nat} {w1 t w2 : List Char} {v : Value} (h1 : Gap w1) (h : ValText n t v) (h2 : Gap w2) :
      ElemsText n (w1 ++ (t ++ w2)) (.cons v .nil)
  | more {n : Nat} {w1 t w2 r : List Char} {v : Value} {l : Elems} (h1 : Gap w1) (h : ValText n t v) (h2 : Gap w2)
      (hr : ElemsText n r l) : ElemsText n (w1 ++ (t ++ (w2 ++ ',' :: r))) (.cons v l)

/-- The text between the braces of an object. -/
inductive PairsText : Nat → List Char → List (List Char × Value) → Prop
  | one {n : Nat} {w1 k w2 w3 t w4 key : List Char} {v : Value} (h1 : Gap w1) (hk : StrText k key) (h2 : Gap w2) (h3 : Gap w3)
      (h : ValText n t v) (h4 : Gap w4) :
      PairsText n (w1 ++ ('"' :: (k ++ ('"' :: (w2 ++ (':' :: (w3 ++ (t ++ w4)))))))) [(key, v)]
  | more {n : Nat} {w1 k w2 w3 t w4 r key : List Char} {v : Value} {ps : List (List Char × Value)} (h1 : Gap w1)
      (hk : StrText k key) (h2 : Gap w2) (h3 : Gap w3) (h : ValText n t v) (h4 : Gap w4) (hr : PairsText n r ps) :
      PairsText n (w1 ++ ('"' :: (k ++ ('"' :: (w2 ++ (':' :: (w3 ++ (t ++ (w4 ++ (',' :: r)))))))))) ((key, v) :: ps)
end

/-- JSON text: a value between blanks. -/
def JsonText (n : Nat) (text : List Char) (v : Value) : Prop :=
  ∃ w1 t w2, Gap w1 ∧ ValText n t v ∧ Gap w2 ∧ text = w1 ++ (t ++ w2)

mutual
/-- Values that can be written: numbers of 64 bits, finite binary32 numbers, strings, objects whose names have no 0. -/
inductive Writable : Nat → Value → Prop
  | null {n : Nat} : Writable (n + 1) .null
  | bool {n : Nat} {b : Bool} : Writable (n + 1) (.bool b)
  | int {n : Nat} {i : Int} (h1 : -2 ^ 63 ≤ i) (h2 : i ≤ 2 ^ 64 - 1) : Writable (n + 1) (.int i)
  | real {n : Nat} {q : ℚ} (h : Single q) : Writable (n + 1) (.real (.fin q))
  | nan {n : Nat} : Writable (n + 1) (.real .nan)
  | str {n : Nat} {s : List Char} : Writable (n + 1) (.str s)
  | obj {n : Nat} {l : Members} (h : WritableAll n l) (ho : (entries l).Pairwise (fun a b => a.1 < b.1)) : Writable (n + 1) (.obj l)

inductive WritableAll : Nat → Members → Prop
  | nil {n : Nat} : WritableAll n .nil
  | cons {n : Nat} {k : List Char} {v : Value} {l : Members} (hk : '\x00' ∉ k) (h : Writable n v) (hl : WritableAll n l) :
      WritableAll n (.cons k v l)
end

/-- The value that the number is read as after it was printed with six digits. -/
def Rounded (q : ℚ) (v : Value) : Prop :=
  ∃ d, SixDigits q d ∧ ((∃ i : Int, d = i ∧ v = .int i) ∨ ∃ r, F64.round d = some r ∧ v = .real (.fin r))

mutual
/-- The second value is the first one after it was written and read: numbers are rounded to six digits, what is not a number is
    lost. -/
inductive Kept : Value → Value → Prop
  | null : Kept .null .null
  | bool {b : Bool} : Kept (.bool b) (.bool b)
  | int {i : Int} : Kept (.int i) (.int i)
  | real {q : ℚ} {v : Value} (h : Rounded q v) : Kept (.real (.fin q)) v
  | nan : Kept (.real .nan) .null
  | str {s : List Char} : Kept (.str s) (.str s)
  | obj {l l' : Members} (h : KeptAll l l') : Kept (.obj l) (.obj l')

inductive KeptAll : Members → Members → Prop
  | nil : KeptAll .nil .nil
  | cons {k : List Char} {v v' : Value} {l l' : Members} (h : Kept v v') (hl : KeptAll l l') : KeptAll (.cons k v l) (.cons k v' l')
end

mutual
/-- There is no real number (and no array) in the value. -/
def NoReals : Value → Prop
  | .real _ => False
  | .arr _ => False
  | .obj l => NoRealsIn l
  | _ => True

def NoRealsIn : Members → Prop
  | .nil => True
  | .cons _ v l => NoReals v ∧ NoRealsIn l
end

end Sol.Spec
