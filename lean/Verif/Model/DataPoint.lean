import Verif.Model.Vector
import Verif.Model.Sort
/-!
# Model of data points and their storage (include/sol/pario/data_point.h, src/sol/pario/data_point.cc)

A program has numbered data points; the features of a point live in a block (sparse_vector.h: two vectors behind
one counter), which several points can share.  Release of blocks is the subject of `Model/Handle.lean`; here a block
that nobody uses any more just stays.
Simplification: `memcpy` of a block onto itself (cloning into a point that shares the storage) leaves it unchanged.
-/

namespace Sol.DataPoint
open Sol.Vector

/-- The two vectors of a sparse vector (sparse_vector.h:156-158). -/
structure Block (V : Type) where
  idx : Vec UInt32
  val : Vec V
deriving Repr, DecidableEq

/-- A data point: label, and block if the sparse vector has storage (`count_ != nullptr`). -/
structure Point where
  label : Int
  data : Option Nat
deriving Repr, DecidableEq

/-- All points and all blocks. -/
structure State (V : Type) where
  pts : List Point
  heap : List (Block V)
deriving Repr, DecidableEq

variable {V : Type} [Zero V]

/-- Fresh block of `SVector::init` (sparse_vector.h:59-66). -/
def freshBlock : Block V := ⟨⟨[], 0⟩, ⟨[], 0⟩⟩

/-- Changes made through one point. -/
inductive Edit (V : Type) where
  | setLabel (l : Int)
  | addFeat (i : UInt32) (v : V)
  | setIndex (k : Nat) (i : UInt32)
  | setValue (k : Nat) (v : V)
  | reserve (n : Nat)
  | resize (n : Nat)
  | clear
  | sort

/-- The effect of an edit on the block; `SVector::resize`, `reserve`, `push_back`, `clear` (sparse_vector.h:85-113),
    `DataPoint::Sort` (data_point.cc:88-93). -/
def editBlock (b : Block V) : Edit V → Res (Block V)
  | .setLabel _ => .ok b
  | .addFeat i v => do
    let n := b.val.size
    let idx ← put (Vector.resize b.idx (n + 1)) n i
    let val ← put (Vector.resize b.val (n + 1)) n v
    .ok ⟨idx, val⟩
  | .setIndex k i => do
    let idx ← put b.idx k i
    .ok ⟨idx, b.val⟩
  | .setValue k v => do
    let val ← put b.val k v
    .ok ⟨b.idx, val⟩
  | .reserve n => .ok ⟨Vector.reserve b.idx n, Vector.reserve b.val n⟩
  | .resize n => .ok ⟨Vector.resize b.idx n, Vector.resize b.val n⟩
  | .clear => .ok ⟨Vector.resize b.idx 0, Vector.resize b.val 0⟩
  | .sort => do
    let r ← Sort.sort (contents b.idx).toArray (contents b.val).toArray
    .ok ⟨⟨r.1.toList ++ b.idx.store.drop b.idx.size, b.idx.size⟩, ⟨r.2.toList ++ b.val.store.drop b.val.size, b.val.size⟩⟩

/-- The label after an edit; `DataPoint::Clear` (data_point.cc:38-41) resets it. -/
def editLabel (l : Int) : Edit V → Int
  | .setLabel l' => l'
  | .clear => 0
  | _ => l

/-- Edits that begin with `init()`; `setLabel` does not touch the data; the others dereference it. -/
def inits : Edit V → Bool
  | .addFeat _ _ => true
  | .reserve _ => true
  | .resize _ => true
  | .clear => true
  | _ => false

/-- The block behind a handle. -/
def fetch (s : State V) (b : Nat) : Res (Block V) :=
  match s.heap[b]? with
  | some x => .ok x
  | none => .ub .useAfterFree

/-- The point `p`. -/
def point (s : State V) (p : Nat) : Res Point :=
  match s.pts[p]? with
  | some x => .ok x
  | none => .ub .outOfBounds

/-- Edit made through a point that has storage. -/
def editAt (s : State V) (p : Nat) (pt : Point) (b : Nat) (e : Edit V) : Res (State V) := do
  let x ← fetch s b
  let y ← editBlock x e
  .ok ⟨s.pts.set p ⟨editLabel pt.label e, some b⟩, s.heap.set b y⟩

/-- An edit through point `p`. -/
def edit (s : State V) (p : Nat) (e : Edit V) : Res (State V) := do
  let pt ← point s p
  match pt.data, e with
  | _, .setLabel l => .ok { s with pts := s.pts.set p ⟨l, pt.data⟩ }
  | some b, e => editAt s p pt b e
  | none, e =>
    if inits e then editAt { s with heap := s.heap ++ [freshBlock] } p pt s.heap.length e
    else .ub .nullDeref

/-- A sequence of edits through various points. -/
def edits (s : State V) : List (Nat × Edit V) → Res (State V)
  | [] => .ok s
  | (p, e) :: l => do
    let s ← edit s p e
    edits s l

/-- Copy construction (implicit; sparse_vector.h:30-35): the new point is the last one. -/
def copyNew (s : State V) (p : Nat) : Res (State V) := do
  let pt ← point s p
  .ok { s with pts := s.pts ++ [pt] }

/-- `memcpy` of the first `n` elements. -/
def copyInto {α : Type} (src dst : List α) (n : Nat) : Res (List α) :=
  if n ≤ src.length ∧ n ≤ dst.length then .ok (src.take n ++ dst.drop n) else .ub .outOfBounds

/-- `SVector::size` (sparse_vector.h:121-123). -/
def featCount (s : State V) (d : Option Nat) : Res Nat :=
  match d with
  | none => .ok 0
  | some b => do
    let x ← fetch s b
    .ok x.val.size

/-- The two `memcpy` calls of `Clone` (data_point.cc:22-25) into block `bq`. -/
def cloneData (s : State V) (src : Option Nat) (bq n : Nat) : Res (State V) :=
  match src with
  | none => .ub .nullDeref
  | some bp => do
    let x ← fetch s bp
    let y ← fetch s bq
    let is ← copyInto x.idx.store y.idx.store n
    let vs ← copyInto x.val.store y.val.store n
    .ok { s with heap := s.heap.set bq ⟨⟨is, y.idx.size⟩, ⟨vs, y.val.size⟩⟩ }

/-- `DataPoint::Clone(DataPoint&)` (data_point.cc:18-26): from point `p` into point `q`. -/
def cloneInto (s : State V) (p q : Nat) : Res (State V) := do
  let pt ← point s p
  let s ← edit s q (.setLabel pt.label)
  let n ← featCount s pt.data
  let s ← edit s q (.reserve n)
  let n' ← featCount s pt.data
  let s ← edit s q (.resize n')
  let qt ← point s q
  let m ← featCount s pt.data
  match qt.data with
  | none => .ub .nullDeref
  | some bq => cloneData s pt.data bq m

/-- `DataPoint::Clone()` (data_point.cc:28-32): a new point (`label_` 0, no storage) at the end. -/
def cloneNew (s : State V) (p : Nat) : Res (State V) :=
  cloneInto { s with pts := s.pts ++ [⟨0, none⟩] } p s.pts.length

end Sol.DataPoint
