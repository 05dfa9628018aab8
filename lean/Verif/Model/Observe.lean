import Verif.Model.PySol
/-!
# Model of what a Python object tells about its training while it trains (python/pysol.pyx:36-43, 86-87, 142-144)

`Train` calls `iter_callback_` (online_model.cc:169-173, 181-187).  Of a Python object this is `DefaultIterateFunction`, which prints, or
`inspect_iteration` with the handler that `inspect_learning` was given.  The class keeps the address of the handler and no reference to it
(pysol.pyx:144): after the last reference has gone, the next report is told to memory that has been given back.

Simplifications: those of Model/PySol.lean; a handler does nothing to the object that it listens to; what a handler raises is ignored by
Cython; a call in which training goes wrong and in which a handler that is gone is told something is undefined for one of the two reasons.
-/

namespace Sol.Observe
open Sol.Params Sol.Online Sol.Loss Sol.Whole Sol.PySol

variable [FFun F32]

/-- `iter_callback_` and `iter_callback_user_context_` (online_model.h:143-144). -/
inductive Callback where
  /-- `DefaultIterateFunction` (online_model.cc:53-58) -/
  | printed
  /-- `inspect_iteration` with a Python object; `none`: with `None` (pysol.pyx:36-43) -/
  | handler (h : Option Nat)
deriving DecidableEq, Repr

/-- A statement of a program about the object and the handlers, which are numbered. -/
inductive OOp where
  /-- a method of Model/PySol.lean -/
  | call (op : Op)
  /-- `inspect_learning(h)`: there is a reference to `h` -/
  | inspect (h : Option Nat)
  /-- the last reference to `h` is given up -/
  | release (h : Nat)
deriving DecidableEq, Repr

/-- An object, its callback, and the handlers that some variable refers to. -/
structure Obs where
  py : Py
  cb : Callback
  held : List Nat

/-- A new object (pysol.pyx:86-87, online_model.cc:72). -/
def Obs.start (m : M) (size num : Nat) (verbose : Bool) : Obs := ⟨Py.start m size num, if verbose then .printed else .handler none, []⟩

/-- What a statement returns, and what was reported meanwhile, and to whom. -/
structure Out where
  ret : Option Ret
  told : List (Train.Report F32)
  whom : Callback
deriving DecidableEq, Repr

/-- All calls of `iter_callback_` so far. -/
def reportsOf : Obj → List (Train.Report F32)
  | .new _ => []
  | .live l => l.loop.reports

/-- The calls of `iter_callback_` between the two. -/
def newReports (o o' : Obj) : List (Train.Report F32) := (reportsOf o').drop (reportsOf o).length

/-- The callback refers to memory that has been given back. -/
def Gone (cb : Callback) (held : List Nat) : Prop := ∃ h, cb = .handler (some h) ∧ h ∉ held

/-- One statement. -/
inductive OStep (pw : Int → F32) (powf : F32 → F32 → F32) (ρ : Nat → F32) (d : Train.Disp) (W : World) : Obs → OOp → Res (Obs × Out) → Prop
  /-- pysol.pyx:142-144, c_api.cc:145-151, online_model.h:135-139 -/
  | inspect {s : Obs} {h : Option Nat} :
      OStep pw powf ρ d W s (.inspect h) (.ok (⟨s.py, .handler h, h.toList ++ s.held⟩, ⟨none, [], .handler h⟩))
  | release {s : Obs} {h : Nat} :
      OStep pw powf ρ d W s (.release h) (.ok (⟨s.py, s.cb, s.held.filter (· ≠ h)⟩, ⟨none, [], s.cb⟩))
  | fails {s : Obs} {op : Op} {k : UB} (h : Call pw powf ρ d W s.py op (.ub k)) : OStep pw powf ρ d W s (.call op) (.ub k)
  /-- `handler(...)` (pysol.pyx:41-43) with an object that is no more -/
  | gone {s : Obs} {op : Op} {p : Py} {r : Ret} (h : Call pw powf ρ d W s.py op (.ok (p, r))) (hn : newReports s.py.obj p.obj ≠ [])
      (hg : Gone s.cb s.held) : OStep pw powf ρ d W s (.call op) (.ub .useAfterFree)
  | done {s : Obs} {op : Op} {p : Py} {r : Ret} (h : Call pw powf ρ d W s.py op (.ok (p, r)))
      (hg : newReports s.py.obj p.obj = [] ∨ ¬ Gone s.cb s.held) :
      OStep pw powf ρ d W s (.call op) (.ok (⟨p, s.cb, s.held⟩, ⟨some r, newReports s.py.obj p.obj, s.cb⟩))

/-- Statements one after the other. -/
inductive OSession (pw : Int → F32) (powf : F32 → F32 → F32) (ρ : Nat → F32) (d : Train.Disp) (W : World) :
    Obs → List OOp → Res (Obs × List Out) → Prop
  | nil {s : Obs} : OSession pw powf ρ d W s [] (.ok (s, []))
  | stop {s : Obs} {op : OOp} {ops : List OOp} {k : UB} (h : OStep pw powf ρ d W s op (.ub k)) : OSession pw powf ρ d W s (op :: ops) (.ub k)
  | cons {s s' : Obs} {op : OOp} {ops : List OOp} {r : Out} {e : Res (Obs × List Out)} (h : OStep pw powf ρ d W s op (.ok (s', r)))
      (ht : OSession pw powf ρ d W s' ops e) : OSession pw powf ρ d W s (op :: ops) (e.bind fun p => .ok (p.1, r :: p.2))

end Sol.Observe
