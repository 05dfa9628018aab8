import Verif.Base.F32
import Verif.Base.Outcome
/-!
# Model of the data tools (src/sol/tools.cc, tools/concat.cc)

The tools get the data as mini-batches from a `DataIter` (what it delivers is the subject of C23) and hand points to a
`DataWriter` (what a writer stores is the subject of C02, C08 and C10).  Here a tool is a function from the delivered batches to
the points written, with the dimension passed to `SetExtraInfo`.
Not modelled: creating readers and writers, file names, console output, memory release; 64-bit counters do not overflow.
-/

namespace Sol.Tools

/-- A data point: label, and features in stored order. -/
structure Pt (V : Type) where
  label : Int
  feats : List (UInt32 × V)
deriving DecidableEq, Repr

variable {V : Type}

/-- `SVector::dim` (sparse_vector.h:124-127): one more than the last index, in 32 bits. -/
def dim (p : Pt V) : UInt32 :=
  match p.feats.getLast? with
  | none => 0
  | some f => f.1 + 1

/-- `if (feat_dim < dp.dim()) feat_dim = dp.dim()` (tools.cc:45-47, 131, 204, 242; concat.cc:69). -/
def widen (d : UInt32) (p : Pt V) : UInt32 := if d < dim p then dim p else d

/-- The loop over the points of one batch (tools.cc:199-205, 237-243): points so far, dimension so far. -/
def loadBatch : List (Pt V) → UInt32 → List (Pt V) → List (Pt V) × UInt32
  | acc, d, [] => (acc, d)
  | acc, d, p :: b => loadBatch (acc ++ [p]) (widen d p) b

/-- The loading loop of `shuffle` and `split` (tools.cc:196-207, 234-245). -/
def load : List (Pt V) → UInt32 → List (List (Pt V)) → List (Pt V) × UInt32
  | acc, d, [] => (acc, d)
  | acc, d, b :: bs =>
    let r := loadBatch acc d b
    load r.1 r.2 bs

/-! ### Splitting -/

/-- `ceil` of a `float`. -/
def ceil : F32 → F32
  | .fin q => .fin ⌈q⌉
  | v => v

/-- `size_t(v)`: outside the range of the type the conversion is undefined. -/
def toSize : F32 → Res Nat
  | .fin q => if 0 ≤ q ∧ q < 2 ^ 64 then .ok ⌊q⌋.toNat else .ub .signedOverflow
  | _ => .ub .signedOverflow

/-- `size_t(ceil(data_list.size() / float(fold_num)))` (tools.cc:256). -/
def foldSize (n : Nat) (folds : Int) : Res Nat := toSize (ceil (((n : Int) : F32) / (folds : F32)))

/-- The writing loop of one fold (tools.cc:276-279) on `data_list`: the points written, and the next index. -/
def foldPoints {P : Type} (pts : List P) (idx stop : Nat) : List P × Nat :=
  if idx < stop then
    match pts[idx]? with
    | some p =>
      let r := foldPoints pts (idx + 1) stop
      (p :: r.1, r.2)
    | none => ([], idx)
  else ([], idx)
termination_by stop - idx

/-- The loop over the folds (tools.cc:260-283): number of folds left, next index, end of the fold. -/
def foldLoop {P : Type} (pts : List P) (size : Nat) : Nat → Nat → Nat → List (List P)
  | 0, _, _ => []
  | k + 1, idx, stop =>
    let r := foldPoints pts idx stop
    r.1 :: foldLoop pts size k r.2 (stop + size)

/-- `std::shuffle` as in libstdc++: for `i = 1, 2, …` exchange element `i` with the element number `choice i`, drawn from
    `0 … i` (numbers outside are cut off). -/
def shuffleLoop {P : Type} (choice : Nat → Nat) : Nat → Nat → List P → List P
  | 0, _, l => l
  | n + 1, i, l =>
    let j := min (choice i) i
    let l' := match l[i]?, l[j]? with
      | some a, some b => (l.set i b).set j a
      | _, _ => l
    shuffleLoop choice n (i + 1) l'

/-- `std::shuffle` of a vector. -/
def shuffled {P : Type} (choice : Nat → Nat) (l : List P) : List P := shuffleLoop choice (l.length - 1) 1 l

/-- `split` (tools.cc:223-285): for every fold the dimension and the points; `choice`: random numbers if the data is shuffled. -/
def split (batches : List (List (Pt V))) (folds : Int) (choice : Option (Nat → Nat)) : Res (List (UInt32 × List (Pt V))) :=
  let r := load [] 0 batches
  if r.1.length = 0 then .ok []
  else
    let l := match choice with
      | none => r.1
      | some c => shuffled c r.1
    do
    let size ← foldSize l.length folds
    .ok ((foldLoop l size folds.toNat 0 size).map fun f => (r.2, f))

/-! ### Shuffling -/

/-- `shuffle` (tools.cc:171-221): the dimension and the points written. -/
def shuffle (batches : List (List (Pt V))) (choice : Nat → Nat) : UInt32 × List (Pt V) :=
  let r := load [] 0 batches
  (r.2, shuffled choice r.1)

/-! ### Conversion -/

/-- The dimension found in the first pass for csv (tools.cc:124-133, concat.cc:64-71), batch by batch. -/
def dimLoop : UInt32 → List (List (Pt V)) → UInt32
  | d, [] => d
  | d, b :: bs => dimLoop (b.foldl widen d) bs

/-- `dp.feature(i) = dp.feature(i) > binaryize_thresh ? 1 : -1` (tools.cc:152-159). -/
def binarise [One V] [Neg V] [FCmp V] (t : V) (p : Pt V) : Pt V :=
  ⟨p.label, p.feats.map fun f => (f.1, if t <? f.2 then 1 else -1)⟩

/-- The writing loop (tools.cc:144-164, concat.cc:82-93). -/
def writeLoop [One V] [Neg V] [FCmp V] (t : Option V) : List (Pt V) → List (List (Pt V)) → List (Pt V)
  | acc, [] => acc
  | acc, b :: bs =>
    let b' := match t with
      | none => b
      | some t => b.map (binarise t)
    writeLoop t (acc ++ b') bs

/-- What was given to a writer: the argument of `SetExtraInfo`, and the points. -/
structure Written (V : Type) where
  extra : Option UInt32
  points : List (Pt V)
deriving DecidableEq, Repr

/-- `convert` (tools.cc:101-169).  `first`: the batches of the first pass, only made for csv; `second`: those of the other one. -/
def convert [One V] [Neg V] [FCmp V] (csv : Bool) (t : Option V) (first second : List (List (Pt V))) : Status × Written V :=
  if csv then
    let d := dimLoop 0 first
    if d = 0 then (.invalidFormat, ⟨some d, []⟩) else (.ok, ⟨some d, writeLoop t [] second⟩)
  else (.ok, ⟨none, writeLoop t [] second⟩)

/-- The main program of tools/concat.cc (lines 39-99): all files are readers of one iterator, so the batches come one file after
    the other. -/
def concat [One V] [Neg V] [FCmp V] (csv : Bool) (first second : List (List (Pt V))) : Status × Written V :=
  if csv then (.ok, ⟨some (dimLoop 0 first), writeLoop none [] second⟩) else (.ok, ⟨none, writeLoop none [] second⟩)

/-! ### Analysis -/

/-- The local variables of `analyze` (tools.cc:30-34); `std::map` by its entries in the order of the keys. -/
structure Tally where
  num : Nat
  featNum : Nat
  dim : Nat
  flags : List Bool
  classes : List (Int × Nat)
deriving DecidableEq, Repr

/-- `map[label] += 1`, or `= 1` for a new label (tools.cc:63-68). -/
def bump (l : Int) : List (Int × Nat) → List (Int × Nat)
  | [] => [(l, 1)]
  | (k, n) :: m => if l < k then (l, 1) :: (k, n) :: m else if l = k then (k, n + 1) :: m else (k, n) :: bump l m

/-- `feat_flags[dp.index(i)] = 1` for all `i` (tools.cc:58-60). -/
def mark : List Bool → List (UInt32 × V) → Res (List Bool)
  | flags, [] => .ok flags
  | flags, f :: fs => do
    let flags ← lset flags f.1.toNat true
    mark flags fs

/-- One point (tools.cc:43-68); `num` is added per batch. -/
def tally (a : Tally) (p : Pt V) : Res Tally := do
  let d := if a.dim < (dim p).toNat then (dim p).toNat else a.dim
  let flags := if d > a.flags.length then a.flags ++ List.replicate (d - a.flags.length) false else a.flags
  let flags ← mark flags p.feats
  .ok ⟨a.num, a.featNum + p.feats.length, d, flags, bump p.label a.classes⟩

/-- One batch (tools.cc:40-69). -/
def tallyBatch (a : Tally) : List (Pt V) → Res Tally
  | [] => .ok a
  | p :: b => do
    let a ← tally a p
    tallyBatch a b

/-- The loop over the batches (tools.cc:37-75). -/
def tallyLoop (a : Tally) : List (List (Pt V)) → Res Tally
  | [] => .ok a
  | b :: bs => do
    let a ← tallyBatch { a with num := a.num + b.length } b
    tallyLoop a bs

/-- The numbers printed (tools.cc:87-97), without the sparsity in percent. -/
structure Report where
  num : Nat
  featNum : Nat
  dim : UInt64
  nonzero : Nat
  classes : List (Int × Nat)
deriving DecidableEq, Repr

/-- `analyze` (tools.cc:22-99). -/
def analyze (batches : List (List (Pt V))) : Res Report := do
  let a ← tallyLoop ⟨0, 0, 0, [], []⟩ batches
  .ok ⟨a.num, a.featNum, UInt64.ofNat a.dim - 1, a.flags.count true, a.classes⟩

end Sol.Tools
