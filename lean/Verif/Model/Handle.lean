import Verif.Base.Outcome
/-!
# Model of shared storage (matrix.h:22-108, sparse_vector.h:23-77)

`Matrix`, `Vector` and `SVector` objects share their storage by reference counting; all three objects behind a handle
(storage, shape, counter) are allocated and released together, so they are one block here.
A program's variables are numbered; blocks are numbered in the order of allocation (an address is never compared after
its block is released, so reuse of addresses cannot be observed).
-/

namespace Sol.Handle

/-- A variable: not alive, alive with `count_ == nullptr`, or alive and pointing to a block. -/
inductive Var where
  | dead
  | null
  | block (b : Nat)
deriving DecidableEq, Repr

/-- Variables, the counters of the allocated blocks (`none`: released), and the blocks released so far, in order. -/
structure State where
  vars : List Var
  counts : List (Option Int)
  released : List Nat
deriving DecidableEq, Repr

/-- The program starts without variables. -/
def start : State := ⟨[], [], []⟩

/-- `*count_`; the counter of a released block must not be touched. -/
def readCount (s : State) (b : Nat) : Res Int :=
  match s.counts[b]? with
  | some (some c) => .ok c
  | _ => .ub .useAfterFree

/-- `++(*count_)` on an `int`. -/
def incCount (s : State) (b : Nat) : Res State := do
  let c ← readCount s b
  if c = 2147483647 then .ub .signedOverflow
  else .ok { s with counts := s.counts.set b (some (c + 1)) }

/-- `release` (matrix.h:99-108, sparse_vector.h:68-77). -/
def release (s : State) : Var → Res State
  | .block b => do
    let c ← readCount s b
    if c - 1 = 0 then .ok { s with counts := s.counts.set b none, released := s.released ++ [b] }
    else .ok { s with counts := s.counts.set b (some (c - 1)) }
  | _ => .ok s

/-- `if (count_ != nullptr) ++(*count_)`. -/
def addRef (s : State) : Var → Res State
  | .block b => incCount s b
  | _ => .ok s

/-- What a program can do with handles. -/
inductive Op where
  /-- default construction -/
  | create
  /-- copy construction from variable `j` -/
  | copy (j : Nat)
  /-- `init()`, the first step of sized construction, `resize`, `reserve` and assignment of an expression -/
  | init (i : Nat)
  /-- assignment `i = j` -/
  | assign (i j : Nat)
  /-- destruction -/
  | destroy (i : Nat)
deriving DecidableEq, Repr

/-- The variable `i`, which must be alive. -/
def alive (s : State) (i : Nat) : Prop := ∃ v, s.vars[i]? = some v ∧ v ≠ .dead

/-- The variables used by an operation are alive. -/
def legal (s : State) : Op → Prop
  | .create => True
  | .copy j => alive s j
  | .init i => alive s i
  | .assign i j => alive s i ∧ alive s j
  | .destroy i => alive s i

/-- Contents of variable `i`. -/
def var (s : State) (i : Nat) : Var := s.vars[i]?.getD .dead

/-- One operation (constructors matrix.h:22-53, destructor :56, assignment :72-81, `init` :90-97;
    sparse_vector.h:24-66). -/
def step (s : State) : Op → Res State
  | .create => .ok { s with vars := s.vars ++ [.null] }
  | .copy j => do
    let s' ← addRef s (var s j)
    .ok { s' with vars := s'.vars ++ [var s j] }
  | .init i =>
    match var s i with
    | .null => .ok { s with vars := s.vars.set i (.block s.counts.length), counts := s.counts ++ [some 1] }
    | _ => .ok s
  | .assign i j =>
    if var s i = var s j then .ok s
    else do
      let s1 ← release s (var s i)
      let s2 ← addRef s1 (var s j)
      .ok { s2 with vars := s2.vars.set i (var s j) }
  | .destroy i => do
    let s' ← release s (var s i)
    .ok { s' with vars := s'.vars.set i .dead }

end Sol.Handle
