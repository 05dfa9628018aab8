import Verif.Base.Outcome
/-!
# Model of include/sol/math/vector.h and matrix_storage.h

A vector's storage is the list of all its allocated elements (the capacity is the list's length); its size is
`shape_[1]`.  A vector without storage (`count_ == nullptr`) is the one with empty storage and size 0: `resize`,
`reserve` and `push_back` begin with `init()`.
Simplifications: allocation succeeds, `size_t` does not overflow.  `MatrixStorage::resize` calls `memcpy` with a null
source and length 0 the first time; this is taken to do nothing.
-/

namespace Sol.Vector

variable {α : Type}

/-- The `do ... while` loop of `Vector::resize` (vector.h:60-62), also matrix.h:133-135. -/
def growTo (alloc need : Nat) : Nat :=
  let a := alloc + (if alloc < 1073741824 then alloc else 1073741824) + 3
  if a < need then growTo a need else a
termination_by need - alloc

/-- A vector: allocated elements and size. -/
structure Vec (α : Type) where
  store : List α
  size : Nat
deriving Repr, DecidableEq

/-- `MatrixStorage::resize` (matrix_storage.h:29-39): zero-filled new storage, old elements copied. -/
def storageResize [Zero α] (s : List α) (n : Nat) : List α :=
  if n > s.length then s ++ List.replicate (n - s.length) 0 else s

/-- `Vector::resize` (vector.h:54-68). -/
def resize [Zero α] (v : Vec α) (n : Nat) : Vec α :=
  ⟨if v.store.length < n then storageResize v.store (growTo v.store.length n) else v.store, n⟩

/-- `Matrix::reserve` (matrix.h:116-119). -/
def reserve [Zero α] (v : Vec α) (n : Nat) : Vec α := ⟨storageResize v.store n, v.size⟩

/-- `operator[]` for writing (matrix.h:174): not checked against the size, only the storage bounds it. -/
def put (v : Vec α) (i : Nat) (x : α) : Res (Vec α) :=
  if i < v.store.length then .ok ⟨v.store.set i x, v.size⟩ else .ub .outOfBounds

/-- `operator[]` for reading (matrix.h:175-177). -/
def get (v : Vec α) (i : Nat) : Res α :=
  match v.store[i]? with
  | some x => .ok x
  | none => .ub .outOfBounds

/-- `Vector::push_back` (vector.h:74-77) of an element stored elsewhere. -/
def pushBack [Zero α] (v : Vec α) (x : α) : Res (Vec α) :=
  let v := resize v (v.size + 1)
  put v (v.size - 1) x

/-- `Vector::push_back` (vector.h:74-77) of the vector's own element `i`, passed by reference: when `resize`
    moves the storage, the reference points to released storage. -/
def pushBackOwn [Zero α] (v : Vec α) (i : Nat) : Res (Vec α) :=
  let v' := resize v (v.size + 1)
  if v.store.length < v'.store.length then .ub .useAfterFree
  else do
    let x ← get v' i
    put v' (v'.size - 1) x

/-- `Vector::pop_back` (vector.h:80-86); `none` is the exception. -/
def popBack [Zero α] (v : Vec α) : Option (Vec α) :=
  if v.size = 0 then none else some (resize v (v.size - 1))

/-- `Vector::clear` (vector.h:89). -/
def clear [Zero α] (v : Vec α) : Vec α := resize v 0

/-- The elements of the vector. -/
def contents (v : Vec α) : List α := v.store.take v.size

/-- Operations on a vector. -/
inductive Op (α : Type) where
  | resize (n : Nat)
  | reserve (n : Nat)
  | push (x : α)
  | pop
  | clear
  | put (i : Nat) (x : α)

/-- One operation; a `pop_back` that throws leaves the vector as it is. -/
def step [Zero α] (v : Vec α) : Op α → Res (Vec α)
  | .resize n => .ok (resize v n)
  | .reserve n => .ok (reserve v n)
  | .push x => pushBack v x
  | .pop => .ok ((popBack v).getD v)
  | .clear => .ok (clear v)
  | .put i x => put v i x

/-- A sequence of operations. -/
def run [Zero α] (v : Vec α) : List (Op α) → Res (Vec α)
  | [] => .ok v
  | op :: ops => do
    let v ← step v op
    run v ops

end Sol.Vector
