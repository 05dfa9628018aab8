/-!
# Outcomes of running a piece of C++

Undefined behaviour is a separate outcome, never a default value, so a theorem that says
"the result is `ok x`" also says that no undefined behaviour was met on the way.
-/

namespace Sol

/-- Kinds of undefined behaviour distinguished by the model. -/
inductive UB where
  /-- read or write outside the live elements of a buffer -/
  | outOfBounds
  /-- null pointer dereference -/
  | nullDeref
  /-- signed integer overflow -/
  | signedOverflow
  /-- shift by at least the width of the type, or of a value that leaves the unsigned range -/
  | badShift
  /-- use of released storage -/
  | useAfterFree
  /-- conversion of a floating-point number to an integer type that cannot hold it -/
  | badCast
  /-- not undefined behaviour: an exception that no caller in the library handles -/
  | exception
deriving DecidableEq, Repr

/-- The outcome of running C++ code: a result, or undefined behaviour of some kind. -/
inductive Res (α : Type u) where
  | ok (a : α)
  | ub (k : UB)
deriving DecidableEq, Repr

namespace Res

/-- Sequencing: undefined behaviour ends the run. -/
def bind {α : Type u} {β : Type v} : Res α → (α → Res β) → Res β
  | .ok a, f => f a
  | .ub k, _ => .ub k

instance : Monad Res where
  pure := .ok
  bind := Res.bind

@[simp] theorem pure_eq {α : Type} (a : α) : (pure a : Res α) = .ok a := rfl
@[simp] theorem bind_ok {α β : Type} (a : α) (f : α → Res β) : (Res.ok a >>= f) = f a := rfl
@[simp] theorem bind_ub {α β : Type} (k : UB) (f : α → Res β) : ((Res.ub k : Res α) >>= f) = .ub k := rfl

theorem bind_eq_ok {α β : Type} {r : Res α} {f : α → Res β} {b : β} :
    (r >>= f) = .ok b ↔ ∃ a, r = .ok a ∧ f a = .ok b := by
  cases r with
  | ok a => simp
  | ub k => simp

/-- The run had no undefined behaviour. -/
def Defined {α : Type u} : Res α → Prop
  | .ok _ => True
  | .ub _ => False

end Res

/-- Array read `a[i]`: outside the array it is undefined behaviour. -/
def rd {α : Type u} (a : Array α) (i : Nat) : Res α :=
  if h : i < a.size then .ok a[i] else .ub .outOfBounds

/-- Array write `a[i] = v`: outside the array it is undefined behaviour. -/
def wr {α : Type u} (a : Array α) (i : Nat) (v : α) : Res (Array α) :=
  if h : i < a.size then .ok (a.set i v) else .ub .outOfBounds

theorem rd_ok {α : Type u} {a : Array α} {i : Nat} (h : i < a.size) : rd a i = .ok a[i] := by
  simp [rd, h]

theorem wr_ok {α : Type u} {a : Array α} {i : Nat} (v : α) (h : i < a.size) :
    wr a i v = .ok (a.set i v) := by
  simp [wr, h]

/-- `Status` codes returned by readers and writers.
    include/sol/util/error_code.h:13-18 (`Status_OK = 0`, `Status_Error`, `Status_IO_Error`,
    `Status_EndOfFile`, `Status_Invalid_Argument`, `Status_Invalid_Format`). -/
inductive Status where
  | ok | error | ioError | endOfFile | invalidArgument | invalidFormat
deriving DecidableEq, Repr

end Sol
