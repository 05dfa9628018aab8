import Verif.Model.FloatText
/-!
# Model of the command line parser: external/cmdline/cmdline.h

`cmdline::parser` with options of type `string`, `int` and `float`.  Arguments are C strings (no character 0).
Simplifications: descriptions, groups, usage and the texts of error messages are left out; `errors` are in the order in which they
are found, except that missing options are listed in the order of the definitions.
-/

namespace Sol.Cmdline
open Sol.Text Sol.FloatText

/-- The value of an option. -/
inductive Val where
  | str (s : List Char)
  | int (n : Int)
  | real (x : F32)
deriving DecidableEq, Repr

/-- What reads a value (`default_reader`, `oneof_reader`, cmdline.h:144-180). -/
inductive Reader where
  | str
  | oneOf (alts : List (List Char))
  | int
  | real
deriving DecidableEq, Repr

/-- `reader(s)`; `none` for an exception.  Numbers are read with `ss >> ret && ss.eof()` (cmdline.h:76-85). -/
def Reader.read : Reader → List Char → Option Val
  | .str, v => some (.str v)
  | .oneOf alts, v => if v ∈ alts then some (.str v) else none
  | .int, v =>
    match stoi v with
    | .ok (n, []) => some (.int n)
    | _ => none
  | .real, v =>
    match readFloat v with
    | some (x, []) => some (.real x)
    | _ => none

/-- An option as it is defined (`add`, cmdline.h:309-335). -/
structure Opt where
  name : List Char
  /-- `none` for the character 0 -/
  short : Option Char
  /-- `none` for `option_without_value` -/
  reader : Option Reader
  need : Bool
  dflt : Val
deriving DecidableEq, Repr

/-- An option with what the arguments made of it (`has`, `actual`). -/
structure Slot where
  opt : Opt
  has : Bool
  actual : Val
deriving DecidableEq, Repr

inductive Err where
  | noArgs
  | ambiguous
  | undefined (name : List Char)
  | undefinedShort (c : Char)
  | needsValue (name : List Char)
  | invalid (name v : List Char)
  | missing (name : List Char)
deriving DecidableEq, Repr

/-- The parser. -/
structure St where
  slots : List Slot
  others : List (List Char)
  errors : List Err
deriving DecidableEq, Repr

def St.err (s : St) (e : Err) : St := { s with errors := s.errors ++ [e] }

/-- `options[name]`. -/
def St.find (s : St) (name : List Char) : Option Slot := s.slots.find? fun o => o.opt.name == name

/-- The option is set. -/
def St.mark (s : St) (name : List Char) (f : Slot → Val) : St :=
  { s with slots := s.slots.map fun o => if o.opt.name = name then { o with has := true, actual := f o } else o }

/-- `set_option(name)` (cmdline.h:615-624). -/
def setFlag (s : St) (name : List Char) : St :=
  match s.find name with
  | none => s.err (.undefined name)
  | some o => if o.opt.reader = none then s.mark name Slot.actual else s.err (.needsValue name)

/-- `set_option(name, value)` (cmdline.h:626-635). -/
def setValue (s : St) (name v : List Char) : St :=
  match s.find name with
  | none => s.err (.undefined name)
  | some o =>
    match o.opt.reader with
    | none => s.err (.invalid name v)
    | some r =>
      match r.read v with
      | none => s.err (.invalid name v)
      | some x => s.mark name fun _ => x

/-- `lookup[c]` (cmdline.h:419-433). -/
def St.short (s : St) (c : Char) : Option Slot := s.slots.find? fun o => !o.opt.name.isEmpty && o.opt.short == some c

/-- A short option that is not the last of its argument (cmdline.h:463-476). -/
def shortFlag (s : St) (c : Char) : St :=
  match s.short c with
  | none => s.err (.undefinedShort c)
  | some o => setFlag s o.opt.name

/-- The loop over the arguments (cmdline.h:435-496). -/
def parseLoop (s : St) : List (List Char) → St
  | [] => s
  | ('-' :: '-' :: t) :: rest =>
    if '=' ∈ t then parseLoop (setValue s (t.takeWhile (· != '=')) ((t.dropWhile (· != '=')).drop 1)) rest
    else
      match s.find t with
      | none => parseLoop (s.err (.undefined t)) rest
      | some o =>
        if o.opt.reader = none then parseLoop (setFlag s t) rest
        else
          match rest with
          | [] => s.err (.needsValue t)
          | v :: rest => parseLoop (setValue s t v) rest
  | ['-'] :: rest => parseLoop s rest
  | ('-' :: c :: cs) :: rest =>
    let s := (c :: cs).dropLast.foldl shortFlag s
    let last := (c :: cs).getLast (by simp)
    match s.short last with
    | none => parseLoop (s.err (.undefinedShort last)) rest
    | some o =>
      match o.opt.reader, rest with
      | some _, v :: rest => parseLoop (setValue s o.opt.name v) rest
      | _, rest => parseLoop (setFlag s o.opt.name) rest
  | t :: rest => parseLoop { s with others := s.others ++ [t] } rest
termination_by l => l.length

/-- Two options have the same short name (cmdline.h:419-433). -/
def ambiguous : List Opt → Bool
  | [] => false
  | o :: os => (!o.name.isEmpty && o.short.isSome && os.any fun p => !p.name.isEmpty && p.short == o.short) || ambiguous os

/-- The parser before any argument. -/
def start (os : List Opt) : St := ⟨os.map fun o => ⟨o, false, o.dflt⟩, [], []⟩

/-- `parse(argc, argv)` (cmdline.h:409-504); it returns whether `errors` is empty. -/
def parse (os : List Opt) : List (List Char) → St
  | [] => (start os).err .noArgs
  | _ :: args =>
    if ambiguous os then (start os).err .ambiguous
    else
      let s := parseLoop (start os) args
      { s with errors := s.errors ++ (s.slots.filter fun o => o.opt.need && !o.has).map fun o => .missing o.opt.name }

/-- `exist(name)`; `none` for an exception (cmdline.h:341-345). -/
def St.exist (s : St) (name : List Char) : Option Bool := (s.find name).map Slot.has

/-- `get<T>(name)` (cmdline.h:347-355); `none` for an exception. -/
def St.get (s : St) (name : List Char) : Option Val :=
  match s.find name with
  | some o => if o.opt.reader = none then none else some o.actual
  | none => none

end Sol.Cmdline
