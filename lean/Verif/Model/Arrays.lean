import Verif.Base.F32
import Verif.Model.Sort
import Verif.Model.StrUtil
import Verif.Model.Text
import Verif.Model.Tools
import Verif.Spec.Decimal
/-!
# Model of the readers of in-memory matrices

src/sol/pario/numpy_reader.cc, src/sol/pario/csr_matrix_reader.cc.  Memory is a map from byte addresses to the `double` or `int`
stored there; a read at an address without such an object is undefined.  A pointer is its value as a `long long`.
`double` values are exact rationals, infinities or NaN; converting to `float` rounds, converting to `int` truncates and is undefined
outside the range.  Text output of integers is `Sol.Spec.intText`.
-/

namespace Sol.Arrays

open Sol.Text Sol.StrUtil Sol.Tools

/-- A `double`. -/
inductive F64 where
  | fin (q : Rat)
  | pinf
  | ninf
  | nan
deriving DecidableEq, Repr

/-- `static_cast<float>`. -/
def narrow : F64 → F32
  | .fin q => F32.round q
  | .pinf => .pinf
  | .ninf => .ninf
  | .nan => .nan

/-- `v != 0`. -/
def nonzero : F64 → Bool
  | .fin q => q != 0
  | _ => true

/-- `label_t(v)`. -/
def toLabel : F64 → Res Int
  | .fin q =>
    let n : Int := if 0 ≤ q then ⌊q⌋ else ⌈q⌉
    if -2147483648 ≤ n ∧ n ≤ 2147483647 then .ok n else .ub .signedOverflow
  | _ => .ub .signedOverflow

/-- An `int` result. -/
def int32 (v : Int) : Res Int := if -2147483648 ≤ v ∧ v ≤ 2147483647 then .ok v else .ub .signedOverflow

/-- Memory. -/
structure Mem where
  dbl : Int → Option F64
  int : Int → Option Int

/-- Read a `double`. -/
def loadD (m : Mem) (a : Int) : Res F64 :=
  match m.dbl a with
  | some v => .ok v
  | none => .ub .outOfBounds

/-- Read an `int`. -/
def loadI (m : Mem) (a : Int) : Res Int :=
  match m.int a with
  | some v => .ok v
  | none => .ub .outOfBounds

/-! ### Paths -/

/-- Integers separated by `;` (numpy_reader.cc:33-34, csr_matrix_reader.cc:35-36). -/
def pathText : List Int → List Char
  | [] => []
  | [v] => Sol.Spec.intText v
  | v :: vs => Sol.Spec.intText v ++ ';' :: pathText vs

/-- `NumpyReader::GeneratePath` (numpy_reader.cc:30-36). -/
def densePath (x y rows cols stride : Int) : List Char := pathText [x, y, rows, cols, stride]

/-- `CsrMatrixReader::GeneratePath` (csr_matrix_reader.cc:31-38). -/
def csrPath (indices indptr features y n : Int) : List Char := pathText [indices, indptr, features, y, n]

/-- The conversion `(T)(v)` of a `long long`: kept as a pointer, reduced to 32 bits as an `int`. -/
def narrowInt (v : Int) : Int := (v + 2147483648) % 4294967296 - 2147483648

/-- `ParseAddr` (numpy_reader.cc:38-52, csr_matrix_reader.cc:40-54), before the conversion; `out_of_range` leaves the function.
    `none` for `Status_IO_Error`.  `tmp[sz]` is the character behind the number (a string ends with a zero character). -/
def parseAddr (src : List Char) : Res (Option Int) :=
  match stoll (strip src) with
  | .ok (v, []) => .ok (some v)
  | .ok (v, c :: _) => if c = '\x00' then .ok (some v) else .ok none
  | .error .invalidArgument => .ok none
  | .error _ => .ub .exception

/-- Parse the parts one after the other, stopping at the first bad one. -/
def parseParts : List (List Char) → Res (Option (List Int))
  | [] => .ok (some [])
  | p :: ps => do
    match ← parseAddr p with
    | none => .ok none
    | some v =>
      match ← parseParts ps with
      | none => .ok none
      | some vs => .ok (some (v :: vs))

/-- The common part of both `ParsePath`s: five parts. -/
def parsePath (path : List Char) : Res (Option (List Int)) :=
  let parts := split ';' path
  if parts.length ≠ 5 then .ok none else parseParts parts

/-! ### Dense matrices -/

/-- `NumpyReader`. -/
structure Dense where
  x : Int
  y : Int
  samples : Int
  features : Int
  stride : Int
  row : Int
deriving DecidableEq, Repr

/-- `NumpyReader::Open` (numpy_reader.cc:20-26) with `ParsePath` (54-72). -/
def openDense (path : List Char) : Res (Option Dense) := do
  match ← parsePath path with
  | some [x, y, n, d, s] => .ok (some ⟨x, y, narrowInt n, narrowInt d, narrowInt s, 0⟩)
  | _ => .ok none

/-- The label (numpy_reader.cc:80-82, csr_matrix_reader.cc:84-86): `Clear` has set it to 0. -/
def label (m : Mem) (y row : Int) : Res Int :=
  if y ≠ 0 then do
    let v ← loadD m (y + 8 * row)
    toLabel v
  else .ok 0

/-- The loop over the columns (numpy_reader.cc:86-90): columns left, column, address. -/
def denseRow (m : Mem) : Nat → Nat → Int → Res (List (UInt32 × F32))
  | 0, _, _ => .ok []
  | k + 1, j, p => do
    let v ← loadD m p
    let fs ← denseRow m k (j + 1) (p + 8)
    .ok (if nonzero v then (UInt32.ofNat (j + 1), narrow v) :: fs else fs)

/-- `NumpyReader::Next` (numpy_reader.cc:74-93). -/
def Dense.next (m : Mem) (r : Dense) : Res (Status × Option (Pt F32) × Dense) :=
  if r.row = r.samples then .ok (if 0 < r.samples then .endOfFile else .ioError, none, r)
  else do
    let l ← label m r.y r.row
    let off ← int32 (r.row * r.stride)
    let fs ← denseRow m r.features.toNat 0 (r.x + off)
    .ok (.ok, some ⟨l, fs⟩, { r with row := r.row + 1 })

/-! ### Sparse matrices -/

/-- `CsrMatrixReader`. -/
structure Csr where
  indices : Int
  indptr : Int
  features : Int
  y : Int
  samples : Int
  row : Int
deriving DecidableEq, Repr

/-- `CsrMatrixReader::Open` (csr_matrix_reader.cc:21-27) with `ParsePath` (56-75). -/
def openCsr (path : List Char) : Res (Option Csr) := do
  match ← parsePath path with
  | some [i, p, f, y, n] => .ok (some ⟨i, p, f, y, narrowInt n, 0⟩)
  | _ => .ok none

/-- The loop over the stored entries of a row (csr_matrix_reader.cc:94-96): entries left, addresses. -/
def csrRow (m : Mem) : Nat → Int → Int → Res (List (UInt32 × F32))
  | 0, _, _ => .ok []
  | k + 1, fp, ip => do
    let i ← loadI m ip
    let i ← int32 (i + 1)
    let v ← loadD m fp
    let fs ← csrRow m k (fp + 8) (ip + 4)
    .ok ((UInt32.ofNat (i % 4294967296).toNat, narrow v) :: fs)

/-- `DataPoint::Sort` on the features. -/
def sorted (fs : List (UInt32 × F32)) : Res (List (UInt32 × F32)) := do
  let r ← Sort.sort (fs.map (·.1)).toArray (fs.map (·.2)).toArray
  .ok (r.1.toList.zip r.2.toList)

/-- `CsrMatrixReader::Next` (csr_matrix_reader.cc:77-100). -/
def Csr.next (m : Mem) (r : Csr) : Res (Status × Option (Pt F32) × Csr) :=
  if r.row = r.samples then .ok (if 0 < r.samples then .endOfFile else .ioError, none, r)
  else do
    let l ← label m r.y r.row
    let b ← loadI m (r.indptr + 4 * (r.row + 1))
    let a ← loadI m (r.indptr + 4 * r.row)
    let num ← int32 (b - a)
    let z ← loadI m r.indptr
    let off ← int32 (a - z)
    let fs ← csrRow m num.toNat (r.features + 8 * off) (r.indices + 4 * off)
    let fs ← sorted fs
    .ok (.ok, some ⟨l, fs⟩, { r with row := r.row + 1 })

/-! ### Reading to the end -/

/-- What repeated calls of `next` deliver until one does not return `Status_OK`: the points and that status. -/
inductive Reads {R : Type} (next : R → Res (Status × Option (Pt F32) × R)) : R → List (Pt F32) → Status → Prop
  | stop {r r' st} (h : next r = .ok (st, none, r')) : Reads next r [] st
  | point {r r' p ps st} (h : next r = .ok (.ok, some p, r')) (t : Reads next r' ps st) : Reads next r (p :: ps) st

end Sol.Arrays
