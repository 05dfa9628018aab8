import Verif.Base.F64
import Verif.Model.FloatText
/-!
# Model of the JSON library: external/json/jsoncpp.cpp

`Json::Reader` (lines 292-945), `Json::StyledStreamWriter` (lines 4459-4670) and the conversions they use.  Characters are bytes.

Simplifications: comments are skipped (the reader also attaches them to values, which nothing looks at); the kinds `intValue` and
`uintValue` are one (both print alike); a `double` is a number of type `F32` (a rational, an infinity or NaN), rounded by `F64.round`
when it is read.  Arrays are read but not written (the library writes none).
-/

namespace Sol.Json
open Sol.FloatText Sol.Text

mutual
/-- `Json::Value`. -/
inductive Value where
  | null
  | bool (b : Bool)
  | int (n : Int)
  | real (x : F32)
  | str (s : List Char)
  | arr (l : Elems)
  | obj (l : Members)
deriving DecidableEq, Repr

/-- The elements of an array. -/
inductive Elems where
  | nil
  | cons (v : Value) (l : Elems)
deriving DecidableEq, Repr

/-- The members of an object, a map ordered by name. -/
inductive Members where
  | nil
  | cons (k : List Char) (v : Value) (l : Members)
deriving DecidableEq, Repr
end

/-- An element at the end. -/
def Elems.snoc : Elems → Value → Elems
  | .nil, v => .cons v .nil
  | .cons u l, v => .cons u (l.snoc v)

/-- `CZString::operator<` (jsoncpp.cpp:2573-2585): byte by byte, a prefix comes first. -/
def keyLt : List Char → List Char → Bool
  | [], [] => false
  | [], _ :: _ => true
  | _ :: _, [] => false
  | a :: as, b :: bs => a.toNat < b.toNat || (a.toNat = b.toNat && keyLt as bs)

/-- `currentValue()[name]` and the value put there (`resolveReference`, jsoncpp.cpp:3318-3332). -/
def Members.insert (k : List Char) (v : Value) : Members → Members
  | .nil => .cons k v .nil
  | .cons k' v' l =>
    if keyLt k k' then .cons k v (.cons k' v' l)
    else if k = k' then .cons k v l
    else .cons k' v' (l.insert k v)

/-! ### Tokens -/

/-- A token; strings without their quotes. -/
inductive Token where
  | objBegin | objEnd | arrBegin | arrEnd
  | str (raw : List Char)
  | num (text : List Char)
  | yes | no | null | comma | colon | comment | eos | error
deriving DecidableEq, Repr

/-- `skipSpaces` (jsoncpp.cpp:513-521). -/
def isBlank (c : Char) : Bool := c == ' ' || c == '\t' || c == '\r' || c == '\n'

/-- The fractional part of `readNumber` (jsoncpp.cpp:613-617): the text it takes and the rest. -/
def fracPart (s : List Char) : List Char × List Char :=
  match s with
  | [] => ([], [])
  | c :: t => if c = '.' then (c :: t.takeWhile isDigit, t.dropWhile isDigit) else ([], c :: t)

/-- The exponential part of `readNumber` (jsoncpp.cpp:618-623). -/
def expPart (s : List Char) : List Char × List Char :=
  match s with
  | [] => ([], [])
  | c :: t =>
    if c = 'e' ∨ c = 'E' then
      match t with
      | [] => ([c], [])
      | d :: u =>
        if d = '+' ∨ d = '-' then (c :: d :: u.takeWhile isDigit, u.dropWhile isDigit)
        else (c :: (d :: u).takeWhile isDigit, (d :: u).dropWhile isDigit)
    else ([], c :: t)

/-- `readNumber` (jsoncpp.cpp:608-624) after the first character. -/
def readNumber (s : List Char) : List Char × List Char :=
  let f := fracPart (s.dropWhile isDigit)
  let e := expPart f.2
  (s.takeWhile isDigit ++ (f.1 ++ e.1), e.2)

/-- `readString` (jsoncpp.cpp:626-636): the text up to the quote and the rest; `none` at the end of the text. -/
def readString : List Char → Option (List Char × List Char)
  | [] => none
  | c :: s =>
    if c = '\\' then
      match s with
      | [] => none
      | d :: s => (readString s).map fun (a, b) => (c :: d :: a, b)
    else if c = '"' then some ([], s)
    else (readString s).map fun (a, b) => (c :: a, b)

/-- `readCStyleComment` (jsoncpp.cpp:586-592): the rest. -/
def cComment : List Char → Option (List Char)
  | [] => none
  | c :: s => if c = '*' ∧ s.head? = some '/' then some s.tail else cComment s

/-- `readCppStyleComment` (jsoncpp.cpp:594-606). -/
def cppComment : List Char → List Char
  | [] => []
  | c :: s =>
    if c = '\n' then s
    else if c = '\r' then (if s.head? = some '\n' then s.tail else s)
    else cppComment s

/-- `readComment` after the first `/` (jsoncpp.cpp:532-553). -/
def readComment : List Char → Token × List Char
  | [] => (.error, [])
  | c :: s =>
    if c = '*' then
      match cComment s with
      | some s => (.comment, s)
      | none => (.error, [])
    else if c = '/' then (.comment, cppComment s)
    else (.error, s)

/-- `match` (jsoncpp.cpp:523-530). -/
def readWord (w : List Char) (t : Token) (s : List Char) : Token × List Char :=
  if s.take w.length = w then (t, s.drop w.length) else (.error, s)

/-- `readToken` (jsoncpp.cpp:443-511) from the first character `c` of the token. -/
def tokenFrom (c : Char) (s : List Char) : Token × List Char :=
  if c = '{' then (.objBegin, s)
  else if c = '}' then (.objEnd, s)
  else if c = '[' then (.arrBegin, s)
  else if c = ']' then (.arrEnd, s)
  else if c = '"' then
    match readString s with
    | some (raw, s) => (.str raw, s)
    | none => (.error, [])
  else if c = '/' then readComment s
  else if isDigit c ∨ c = '-' then (.num (c :: (readNumber s).1), (readNumber s).2)
  else if c = 't' then readWord ['r', 'u', 'e'] .yes s
  else if c = 'f' then readWord ['a', 'l', 's', 'e'] .no s
  else if c = 'n' then readWord ['u', 'l', 'l'] .null s
  else if c = ',' then (.comma, s)
  else if c = ':' then (.colon, s)
  else if c = '\x00' then (.eos, s)
  else (.error, s)

/-- `readToken`. -/
def readToken (s : List Char) : Token × List Char :=
  match s.dropWhile isBlank with
  | [] => (.eos, [])
  | c :: s => tokenFrom c s

/-- `skipCommentTokens` (jsoncpp.cpp:433-441), at most `n` comments; `none` if there are more. -/
def skipComments : Nat → List Char → Option (Token × List Char)
  | 0, _ => none
  | n + 1, s => if (readToken s).1 = .comment then skipComments n (readToken s).2 else some (readToken s)

/-- `recoverFromError` (jsoncpp.cpp:923-933), at most `n` tokens. -/
def recover (t : Token) : Nat → List Char → Option (List Char)
  | 0, _ => none
  | n + 1, s => if (readToken s).1 = t ∨ (readToken s).1 = .eos then some (readToken s).2 else recover t n (readToken s).2

/-! ### Numbers and strings -/

/-- The loop of `decodeNumber` (jsoncpp.cpp:749-768); `none`: the number is decoded as a `double`. -/
def decodeDigits (max : Nat) : Nat → List Char → Option Nat
  | v, [] => some v
  | v, c :: cs =>
    if isDigit c then
      if max / 10 ≤ v ∧ (max / 10 < v ∨ cs ≠ [] ∨ max % 10 < c.toNat - 48) then none
      else decodeDigits max (v * 10 + (c.toNat - 48)) cs
    else none

/-- `decodeDouble` (jsoncpp.cpp:788-798): `is >> value` takes the whole text or fails, also for numbers that are too large. -/
def decodeDouble (t : List Char) : Option Value :=
  match scanDec t with
  | some (q, []) => (F64.round q).map fun r => .real (.fin r)
  | _ => none

/-- `decodeNumber` (jsoncpp.cpp:738-777). -/
def decodeNumber (t : List Char) : Option Value :=
  match t with
  | '-' :: ds =>
    match decodeDigits (2 ^ 63) 0 ds with
    | some v => some (.int (-v))
    | none => decodeDouble t
  | ds =>
    match decodeDigits (2 ^ 64 - 1) 0 ds with
    | some v => some (.int v)
    | none => decodeDouble t

/-- A hexadecimal digit. -/
def hexVal (c : Char) : Option Nat :=
  if '0' ≤ c ∧ c ≤ '9' then some (c.toNat - 48)
  else if 'a' ≤ c ∧ c ≤ 'f' then some (c.toNat - 87)
  else if 'A' ≤ c ∧ c ≤ 'F' then some (c.toNat - 55)
  else none

/-- `decodeUnicodeEscapeSequence` (jsoncpp.cpp:887-911). -/
def hex4 (a b c d : Char) : Option Nat :=
  match hexVal a, hexVal b, hexVal c, hexVal d with
  | some a, some b, some c, some d => some (((a * 16 + b) * 16 + c) * 16 + d)
  | _, _, _, _ => none

/-- `codePointToUTF8` (jsoncpp.cpp:99-125). -/
def utf8 (cp : Nat) : List Char :=
  if cp ≤ 0x7f then [Char.ofNat cp]
  else if cp ≤ 0x7FF then [Char.ofNat (0xC0 + cp / 64 % 32), Char.ofNat (0x80 + cp % 64)]
  else if cp ≤ 0xFFFF then [Char.ofNat (0xE0 + cp / 4096 % 16), Char.ofNat (0x80 + cp / 64 % 64), Char.ofNat (0x80 + cp % 64)]
  else if cp ≤ 0x10FFFF then
    [Char.ofNat (0xF0 + cp / 262144 % 8), Char.ofNat (0x80 + cp / 4096 % 64), Char.ofNat (0x80 + cp / 64 % 64),
     Char.ofNat (0x80 + cp % 64)]
  else []

/-- The character after a backslash, but for `u`. -/
def escaped (c : Char) : Option Char :=
  if c = '"' then some '"'
  else if c = '/' then some '/'
  else if c = '\\' then some '\\'
  else if c = 'b' then some '\x08'
  else if c = 'f' then some '\x0c'
  else if c = 'n' then some '\n'
  else if c = 'r' then some '\r'
  else if c = 't' then some '\t'
  else none

/-- `decodeString` (jsoncpp.cpp:810-861) with `decodeUnicodeCodePoint` (lines 863-885). -/
def decodeString : List Char → Option (List Char)
  | [] => some []
  | c :: s =>
    if c = '"' then some []
    else if c = '\\' then
      match s with
      | [] => none
      | e :: s =>
        if e = 'u' then
          match s with
          | a :: b :: c :: d :: s =>
            match hex4 a b c d with
            | none => none
            | some u =>
              if 0xD800 ≤ u ∧ u ≤ 0xDBFF then
                match s with
                | '\\' :: 'u' :: a :: b :: c :: d :: s =>
                  match hex4 a b c d with
                  | none => none
                  | some v => (decodeString s).map (utf8 (0x10000 + u % 1024 * 1024 + v % 1024) ++ ·)
                | _ => none
              else (decodeString s).map (utf8 u ++ ·)
          | _ => none
        else
          match escaped e with
          | none => none
          | some x => (decodeString s).map (x :: ·)
    else (decodeString s).map (c :: ·)

/-! ### The reader -/

/-- How a part of the reader ends. -/
inductive Out (α : Type) where
  | ok (a : α) (rest : List Char)
  /-- `false` -/
  | fail (rest : List Char)
  /-- `std::runtime_error` leaves the reader -/
  | thrown
  /-- not yet, with the given bound on the number of steps -/
  | pending
deriving DecidableEq, Repr

/-- `recoverFromError` and `return false`. -/
def recovered {α : Type} (t : Token) (n : Nat) (s : List Char) : Out α :=
  match recover t n s with
  | some s => .fail s
  | none => .pending

/-- `stackLimit_g` (jsoncpp.cpp:225). -/
def stackLimit : Nat := 1000

mutual
/-- `readValue` (jsoncpp.cpp:354-431) at nesting depth `d`, with at most `n` steps. -/
def readValue : Nat → Nat → List Char → Out Value
  | 0, _, _ => .pending
  | n + 1, d, s =>
    if stackLimit ≤ d then .thrown
    else
      match skipComments n s with
      | none => .pending
      | some (.objBegin, s) =>
        match readObject n (d + 1) .nil [] s with
        | .ok l s => .ok (.obj l) s
        | .fail s => .fail s
        | .thrown => .thrown
        | .pending => .pending
      | some (.arrBegin, s) =>
        -- the start of `readArray`
        match s.dropWhile isBlank with
        | ']' :: s => .ok (.arr .nil) s
        | s =>
          match readArray n (d + 1) .nil s with
          | .ok l s => .ok (.arr l) s
          | .fail s => .fail s
          | .thrown => .thrown
          | .pending => .pending
      | some (.num t, s) =>
        match decodeNumber t with
        | some v => .ok v s
        | none => .fail s
      | some (.str t, s) =>
        match decodeString t with
        | some v => .ok (.str v) s
        | none => .fail s
      | some (.yes, s) => .ok (.bool true) s
      | some (.no, s) => .ok (.bool false) s
      | some (.null, s) => .ok .null s
      | some (_, s) => .fail s

/-- The loop of `readObject` (jsoncpp.cpp:638-690): `l` are the members so far, `last` the previous name. -/
def readObject : Nat → Nat → Members → List Char → List Char → Out Members
  | 0, _, _, _, _ => .pending
  | n + 1, d, l, last, s =>
    match skipComments n s with
    | none => .pending
    | some (.objEnd, s) => if last = [] then .ok l s else recovered .objEnd n s
    | some (.str t, s) =>
      match decodeString t with
      | none => recovered .objEnd n s
      | some name =>
        match readToken s with
        | (.colon, s) =>
          match readValue n d s with
          | .ok v s =>
            match readToken s with
            | (.objEnd, s) => .ok (l.insert name v) s
            | (.comma, s) => readObject n d (l.insert name v) name s
            | (.comment, s) =>
              match skipComments n s with
              | none => .pending
              | some (.objEnd, s) => .ok (l.insert name v) s
              -- whatever comes after a comment is taken for the comma
              | some (_, s) => readObject n d (l.insert name v) name s
            | (_, s) => recovered .objEnd n s
          | .fail s => recovered .objEnd n s
          | .thrown => .thrown
          | .pending => .pending
        | (_, s) => recovered .objEnd n s
    | some (_, s) => recovered .objEnd n s

/-- The loop of `readArray` (jsoncpp.cpp:692-727). -/
def readArray : Nat → Nat → Elems → List Char → Out Elems
  | 0, _, _, _ => .pending
  | n + 1, d, l, s =>
    match readValue n d s with
    | .ok v s =>
      match skipComments n s with
      | none => .pending
      | some (.arrEnd, s) => .ok (l.snoc v) s
      | some (.comma, s) => readArray n d (l.snoc v) s
      | some (_, s) => recovered .arrEnd n s
    | .fail s => recovered .arrEnd n s
    | .thrown => .thrown
    | .pending => .pending
end

/-- How `parse` ends. -/
inductive Parsed where
  | value (v : Value)
  | failed
  | thrown
deriving DecidableEq, Repr

/-- `Reader::parse` (jsoncpp.cpp:292-352), at most `n` steps each.  The reader looks at all of the string's storage
    (`document.capacity()`): `junk` is what is behind the text. -/
def parse (n : Nat) (text junk : List Char) : Option Parsed :=
  match readValue n 0 (text ++ junk) with
  | .ok v s => (skipComments n s).map fun _ => .value v
  | .fail s => (skipComments n s).map fun _ => .failed
  | .thrown => some .thrown
  | .pending => none

/-! ### The writer -/

/-- `isControlCharacter` (jsoncpp.cpp:128) or 0. -/
def isControl (c : Char) : Bool := c.toNat ≤ 31

/-- Upper case hexadecimal digit. -/
def hexDigit (n : Nat) : Char := if n < 10 then Char.ofNat (48 + n) else Char.ofNat (55 + n)

/-- A character in quotes (jsoncpp.cpp:4118-4160). -/
def escape (c : Char) : List Char :=
  if c = '"' then ['\\', '"']
  else if c = '\\' then ['\\', '\\']
  else if c = '\x08' then ['\\', 'b']
  else if c = '\x0c' then ['\\', 'f']
  else if c = '\n' then ['\\', 'n']
  else if c = '\r' then ['\\', 'r']
  else if c = '\t' then ['\\', 't']
  else if isControl c then ['\\', 'u', '0', '0', hexDigit (c.toNat / 16), hexDigit (c.toNat % 16)]
  else [c]

/-- `valueToQuotedStringN` (jsoncpp.cpp:4103-4165). -/
def quoted (s : List Char) : List Char :=
  if s.all fun c => c ≠ '"' && c ≠ '\\' && !isControl c then '"' :: (s ++ ['"']) else '"' :: (s.flatMap escape ++ ['"'])

/-- `valueToString` (jsoncpp.cpp:3950-3982). -/
def intText (n : Int) : List Char := if n < 0 then '-' :: Nat.toDigits 10 n.natAbs else Nat.toDigits 10 n.natAbs

/-- `valueToString` of a `double`, changed to `%g` (jsoncpp.cpp:3986-4022). -/
def realText : F32 → List Char
  | .fin q => put (.fin q)
  | .nan => ['n', 'u', 'l', 'l']
  | .ninf => ['-', '1', 'e', '+', '9', '9', '9', '9']
  | .pinf => ['1', 'e', '+', '9', '9', '9', '9']

mutual
/-- `writeValue` (jsoncpp.cpp:4479-4537): `here` is `indented_`, `ind` is `indentString_`. -/
def writeValue (here : Bool) (ind : List Char) : Value → List Char
  | .null => ['n', 'u', 'l', 'l']
  | .bool b => if b then ['t', 'r', 'u', 'e'] else ['f', 'a', 'l', 's', 'e']
  | .int n => intText n
  | .real x => realText x
  | .str s => quoted s
  | .arr _ => []
  | .obj .nil => ['{', '}']
  | .obj (.cons k v l) =>
    (if here then [] else '\n' :: ind) ++ '{' ::
      (writeMembers ('\t' :: ind) (.cons k v l) ++ '\n' :: (ind ++ ['}']))

/-- The members with their commas; names are C strings (`valueToQuotedString(name.c_str())`). -/
def writeMembers (ind : List Char) : Members → List Char
  | .nil => []
  | .cons k v l =>
    '\n' :: (ind ++ (quoted (k.takeWhile fun c => c != '\x00') ++ (' ' :: ':' :: ' ' :: writeValue false ind v)) ++
      (match l with
       | .nil => []
       | l => ',' :: writeMembers ind l))
end

/-- `StyledStreamWriter::write` (jsoncpp.cpp:4465-4477). -/
def write (v : Value) : List Char := writeValue true [] v ++ ['\n']

/-! ### Access -/

/-- `asString` (jsoncpp.cpp:2949-2973); `none`: `Json::LogicError` is thrown.  (The sign of a zero is not kept.) -/
def asString : Value → Option (List Char)
  | .null => some []
  | .str s => some s
  | .bool b => some (if b then ['t', 'r', 'u', 'e'] else ['f', 'a', 'l', 's', 'e'])
  | .int n => some (intText n)
  | .real x => some (realText x)
  | .arr _ => none
  | .obj _ => none

/-- A number without its fraction. -/
def trunc (q : ℚ) : Int := Int.tdiv q.num q.den

/-- `asInt` (jsoncpp.cpp:2983-3003). -/
def asInt : Value → Option Int
  | .int n => if -2147483648 ≤ n ∧ n ≤ 2147483647 then some n else none
  | .real (.fin q) => if -2147483648 ≤ q ∧ q ≤ 2147483647 then some (trunc q) else none
  | .null => some 0
  | .bool b => some (if b then 1 else 0)
  | _ => none

/-- The member with a name. -/
def Members.lookup (k : List Char) : Members → Option Value
  | .nil => none
  | .cons k' v l => if k = k' then some v else l.lookup k

/-- `find` (jsoncpp.cpp:3341-3352): the outer `none` is an exception. -/
def find (k : List Char) : Value → Option (Option Value)
  | .null => some none
  | .obj l => some (l.lookup k)
  | _ => none

/-- `get` with a default (jsoncpp.cpp:3395-3405) and `operator[]` (jsoncpp.cpp:3353-3357, where the default is null). -/
def get (k : List Char) (dflt v : Value) : Option Value := (find k v).map fun r => r.getD dflt

end Sol.Json
