import Verif.Model.Sparse
/-!
# Model of the vector expressions (include/sol/math/expression.h, matrix_expression.h, matrix.h)

`w -= k * x / H` builds an object that refers to `x` and `H`; nothing is computed until the operator `-=` asks it for one element after
the other, and each answer is computed from what the vectors hold then.  Model/Sparse.lean and Model/Olm.lean have the values that
come out; this file has the evaluation itself, with the vectors in a memory, so that the destination of a statement may occur in it.
Simplifications: sizes do not overflow; a sparse vector shares no storage with a dense one.  What the types of C++ rule out (sparse
with sparse, `operator[]` of a sparse operand) cannot be written here either.
-/

namespace Sol.Expr

open Sol.Sparse

variable {α : Type}

/-- A matrix: the shape and the whole storage, which may be longer (matrix.h:125-140).  Vectors have one row. -/
structure Mat (α : Type) where
  rows : Nat
  cols : Nat
  data : List α
deriving DecidableEq

/-- The number of elements. -/
def Mat.size (m : Mat α) : Nat := m.rows * m.cols

/-- All matrices; `none` is one without storage, as the default constructor makes it (matrix.h:23). -/
abbrev Mem (α : Type) := Nat → Option (Mat α)

/-- Replace a matrix. -/
def Mem.put (M : Mem α) (h : Nat) (m : Mat α) : Mem α := fun k => if k = h then some m else M k

/-- An expression that can be asked for any element: `ScalarExp`, a matrix, `UnaryMapExp`, `BinaryMapExp` (expression.h:86-97,
    117-154, 386-405). -/
inductive Flat (α : Type) where
  | scalar (a : α)
  | mat (h : Nat)
  | un (f : α → α) (e : Flat α)
  | bin (f : α → α → α) (l r : Flat α)

/-- An expression with a sparse vector in it (expression.h:156-206, 386-405; `slice`: vector.h:125-132). -/
inductive Sp (α : Type) where
  | vec (x : SVec α)
  | un (f : α → α) (s : Sp α)
  | left (f : α → α → α) (s : Sp α) (e : Flat α)
  | right (f : α → α → α) (e : Flat α) (s : Sp α)

/-- `shape()` of a matrix (matrix.h:149). -/
def shapeOf (M : Mem α) (h : Nat) : Res (Nat × Nat) :=
  match M h with
  | none => .ub .nullDeref
  | some m => .ok (m.rows, m.cols)

/-- `shape()` (expression.h:96, 140-153, 404). -/
def Flat.shape (M : Mem α) : Flat α → Res (Nat × Nat)
  | .scalar _ => .ok (0, 0)
  | .mat h => shapeOf M h
  | .un _ e => e.shape M
  | .bin _ l r => do
    let s1 ← l.shape M
    let s2 ← r.shape M
    if s1.1 * s1.2 = 0 then .ok s2
    else if s2.1 * s2.2 = 0 then .ok s1
    else if s1 = s2 then .ok s1
    else .ub .exception

/-- `operator[]` (expression.h:92, 136-138, 398, matrix.h:175-177). -/
def Flat.at (M : Mem α) (i : Nat) : Flat α → Res α
  | .scalar a => .ok a
  | .mat h => match M h with
    | none => .ub .nullDeref
    | some m => lget m.data i
  | .un f e => do
    let a ← e.at M i
    .ok (f a)
  | .bin f l r => do
    let a ← l.at M i
    let b ← r.at M i
    .ok (f a b)

/-- The sparse vector in the expression. -/
def Sp.vector : Sp α → SVec α
  | .vec x => x
  | .un _ s => s.vector
  | .left _ s _ => s.vector
  | .right _ _ s => s.vector

/-- `shape().size()` (expression.h:179, 205, 404, sparse_vector.h:129-132). -/
def Sp.size (s : Sp α) : Nat := s.vector.length

/-- `index(idx)` (expression.h:173, 199, 400, sparse_vector.h:140). -/
def Sp.index (s : Sp α) (j : Nat) : Res Nat := do
  let p ← lget s.vector j
  .ok p.1

/-- `value(idx)` (expression.h:175-177, 201-203, 402, sparse_vector.h:145). -/
def Sp.value (M : Mem α) (j : Nat) : Sp α → Res α
  | .vec x => do
    let p ← lget x j
    .ok p.2
  | .un f s => do
    let a ← s.value M j
    .ok (f a)
  | .left f s e => do
    let v ← s.value M j
    let i ← s.index j
    let a ← e.at M i
    .ok (f v a)
  | .right f e s => do
    let i ← s.index j
    let a ← e.at M i
    let v ← s.value M j
    .ok (f a v)

/-- `OP::map(pdata[i], v)`. -/
def modify (op : α → α → α) (M : Mem α) (h i : Nat) (v : α) : Res (Mem α) :=
  match M h with
  | none => .ub .nullDeref
  | some m => do
    let a ← lget m.data i
    let d ← lset m.data i (op a v)
    .ok (M.put h { m with data := d })

/-- The loop of the dense `CalcExp` (matrix_expression.h:113-115): `n` elements from `i` on. -/
def calcLoop (op : α → α → α) (h : Nat) (e : Flat α) : Nat → Nat → Mem α → Res (Mem α)
  | _, 0, M => .ok M
  | i, n + 1, M => do
    let v ← e.at M i
    let M ← modify op M h i v
    calcLoop op h e (i + 1) n M

/-- `CalcExp<OP>(dense, dense or scalar)` (matrix_expression.h:99-116). -/
def calcFlat (op : α → α → α) (M : Mem α) (h : Nat) (e : Flat α) : Res (Mem α) := do
  let s ← shapeOf M h
  let s1 ← e.shape M
  if s1.1 * s1.2 ≠ 0 ∧ s ≠ s1 then .ub .exception
  else calcLoop op h e 0 (s.1 * s.2) M

/-- `while (sz > 0 && svec.index(sz - 1) >= dsz) --sz` (matrix_expression.h:159, 173). -/
def trimSp (s : Sp α) (dsz : Nat) : Nat → Res Nat
  | 0 => .ok 0
  | sz + 1 => do
    let i ← s.index sz
    if dsz ≤ i then trimSp s dsz sz else .ok (sz + 1)

/-- The loop of the sparse `CalcExp` (matrix_expression.h:161-163): `n` entries from `j` on. -/
def calcSpLoop (op : α → α → α) (h : Nat) (s : Sp α) : Nat → Nat → Mem α → Res (Mem α)
  | _, 0, M => .ok M
  | j, n + 1, M => do
    let i ← s.index j
    let v ← s.value M j
    let M ← modify op M h i v
    calcSpLoop op h s (j + 1) n M

/-- `CalcExp<OP>(dense, sparse)` (matrix_expression.h:150-164). -/
def calcSp (op : α → α → α) (M : Mem α) (h : Nat) (s : Sp α) : Res (Mem α) := do
  let d ← shapeOf M h
  let sz ← trimSp s (d.1 * d.2) s.size
  calcSpLoop op h s 0 sz M

/-- `CalcExp<OP>(sparse, scalar)` (matrix_expression.h:182-193). -/
def calcScalar (op : α → α → α) (x : SVec α) (a : α) : SVec α := x.map fun p => (p.1, op p.2 a)

/-- `init()` (matrix.h:90-97). -/
def initMat (M : Mem α) (h : Nat) : Mem α :=
  match M h with
  | none => M.put h ⟨0, 0, []⟩
  | some _ => M

/-- `Matrix::operator=` from an expression (matrix.h:59-64). -/
def assign (M : Mem α) (h : Nat) (e : Flat α) : Res (Mem α) := calcFlat (fun _ v => v) (initMat M h) h e

/-- `Matrix::operator=` from a sparse expression (matrix.h:59-64). -/
def assignSp (M : Mem α) (h : Nat) (s : Sp α) : Res (Mem α) := calcSp (fun _ v => v) (initMat M h) h s

/-- `Matrix(const Exp&)` (matrix.h:37-42): a new matrix `h` from an expression. -/
def construct (M : Mem α) (h : Nat) (e : Flat α) : Res (Mem α) := assign (fun k => if k = h then none else M k) h e

/-- `operator()(x, y)` (matrix.h:168). -/
def element (m : Mat α) (x y : Nat) : Res α := lget m.data (y * m.cols + x)

/-- `operator()(x, y) const` (matrix.h:170-172), the one that expressions use. -/
def elementConst (m : Mat α) (x _y : Nat) : Res α := lget m.data x

section
variable [Zero α] [Add α]

/-- The loop of the dense `dot` (matrix_expression.h:131-133). -/
def dotLoop (op : α → α → α) (M : Mem α) (l r : Flat α) : Nat → Nat → α → Res α
  | _, 0, v => .ok v
  | i, n + 1, v => do
    let a ← l.at M i
    let b ← r.at M i
    dotLoop op M l r (i + 1) n (v + op a b)

/-- `dot<OP>(dense, dense)` (matrix_expression.h:118-135). -/
def dot (op : α → α → α) (M : Mem α) (l r : Flat α) : Res α := do
  let s1 ← l.shape M
  let s2 ← r.shape M
  if s1 ≠ s2 then .ub .exception else dotLoop op M l r 0 (s1.1 * s1.2) 0

/-- The loop of the sparse `dot` (matrix_expression.h:175-178). -/
def dotSpLoop (op : α → α → α) (M : Mem α) (l : Flat α) (s : Sp α) : Nat → Nat → α → Res α
  | _, 0, v => .ok v
  | j, n + 1, v => do
    let i ← s.index j
    let a ← l.at M i
    let b ← s.value M j
    dotSpLoop op M l s (j + 1) n (v + op a b)

/-- `dot<OP>(dense, sparse)` (matrix_expression.h:166-180). -/
def dotSp (op : α → α → α) (M : Mem α) (l : Flat α) (s : Sp α) : Res α := do
  let d ← l.shape M
  let sz ← trimSp s (d.1 * d.2) s.size
  dotSpLoop op M l s 0 sz 0

/-- The loop of the dense `reduce` (matrix_expression.h:143-145). -/
def reduceLoop (op : α → α → α) (M : Mem α) (e : Flat α) : Nat → Nat → α → Res α
  | _, 0, v => .ok v
  | i, n + 1, v => do
    let a ← e.at M i
    reduceLoop op M e (i + 1) n (op v a)

/-- `reduce<OP>(dense)` (matrix_expression.h:137-147). -/
def reduce (op : α → α → α) (M : Mem α) (e : Flat α) : Res α := do
  let s ← e.shape M
  reduceLoop op M e 0 (s.1 * s.2) 0

/-- The loop of the sparse `reduce` (matrix_expression.h:202-204). -/
def reduceSpLoop (op : α → α → α) (M : Mem α) (s : Sp α) : Nat → Nat → α → Res α
  | _, 0, v => .ok v
  | j, n + 1, v => do
    let a ← s.value M j
    reduceSpLoop op M s (j + 1) n (op v a)

/-- `reduce<OP>(sparse)` (matrix_expression.h:195-206). -/
def reduceSp (op : α → α → α) (M : Mem α) (s : Sp α) : Res α := reduceSpLoop op M s 0 s.size 0

end

/-! ### The statements of the algorithms -/

section
variable [Zero α] [One α] [Add α] [Sub α] [Mul α] [Div α] [Neg α] [FCmp α] [FSqrt α]

/-- `op::abs` (operator.h:143-148). -/
def absE (a : α) : α := if 0 <? a then a else -a
/-- `op::square` (operator.h:150-155). -/
def sqE (a : α) : α := a * a

/-- `k * x` (perceptron.cc:43, ogd.cc:39, pa.cc:26, :48, :73, alma2.cc:78, fofs.cc:63, rda.cc:55, sop.cc:69, ada_rda.cc:59). -/
def scaledX (k : α) (x : SVec α) : Sp α := .right (· * ·) (.scalar k) (.vec x)

/-- `L2(x)` (sop.cc:73, model.cc:308, pa.cc:22). -/
def squares (x : SVec α) : Sp α := .un sqE (.vec x)

/-- `k * Sigma * x` (arow.cc:66, :180, cw.cc:96, eccw.cc:102). -/
def scaledSigma (k : α) (sig : Nat) (x : SVec α) : Sp α := .right (· * ·) (.bin (· * ·) (.scalar k) (.mat sig)) (.vec x)

/-- `1.f + Sigma * L2(x) * r1` (arow.cc:72, :207). -/
def arowDivisor (r1 : α) (sig : Nat) (x : SVec α) : Sp α :=
  .right (· + ·) (.scalar 1) (.left (· * ·) (.right (· * ·) (.mat sig) (squares x)) (.scalar r1))

/-- `1.f + tmp * Sigma * L2(x)` (cw.cc:101, eccw.cc:106). -/
def cwDivisor (tmp : α) (sig : Nat) (x : SVec α) : Sp α :=
  .right (· + ·) (.scalar 1) (.right (· * ·) (.bin (· * ·) (.scalar tmp) (.mat sig)) (squares x))

/-- `w.slice(x)` (vector.h:125-132). -/
def sliced (w : Nat) (x : SVec α) : Sp α := .right (fun a _ => a) (.mat w) (.vec x)

/-- `rate * (t - last)` (ogd.cc:118, :150, :162). -/
def lateness (rate t : α) (last : Nat) : Flat α := .bin (· * ·) (.scalar rate) (.bin (· - ·) (.scalar t) (.mat last))

/-- `truncate(w.slice(x), rate * (t - last))` (ogd.cc:149-150). -/
def lazyTrunc (rate t : α) (w last : Nat) (x : SVec α) : Sp α := .left trunc (sliced w x) (lateness rate t last)

/-- `truncate(w.slice(x), rate * (t - last) / H)` (ada_fobos.cc:106-107). -/
def adaLazyTrunc (rate t : α) (w last H : Nat) (x : SVec α) : Sp α :=
  .left trunc (sliced w x) (.bin (· / ·) (lateness rate t last) (.mat H))

/-- `-eta * u.slice(x)` (rda.cc:44); `k` is `-eta`. -/
def dualX (k : α) (u : Nat) (x : SVec α) : Sp α := .right (· * ·) (.scalar k) (sliced u x)

/-- `-eta * truncate(u.slice(x), th)` (rda.cc:116, :157). -/
def dualTruncX (k th : α) (u : Nat) (x : SVec α) : Sp α :=
  .right (· * ·) (.scalar k) (.left trunc (sliced u x) (.scalar th))

/-- `-eta * u.slice(x) / H` (ada_rda.cc:62, :255). -/
def adaDualX (k : α) (u H : Nat) (x : SVec α) : Sp α := .left (· / ·) (dualX k u x) (.mat H)

/-- `-eta * truncate(u.slice(x), th) / H` (ada_rda.cc:135). -/
def adaDualTruncX (k th : α) (u H : Nat) (x : SVec α) : Sp α := .left (· / ·) (dualTruncX k th u x) (.mat H)

/-- `v / (a + X + L2(x))` (sop.cc:58). -/
def sopX (a : α) (v X : Nat) (x : SVec α) : Sp α :=
  .right (· / ·) (.mat v) (.right (· + ·) (.bin (· + ·) (.scalar a) (.mat X)) (squares x))

/-- `Sqrt(L2(H - delta) + L2(g * x)) + delta` (ada_fobos.cc:48, :203, ada_rda.cc:55, :229). -/
def adaScale (delta g : α) (H : Nat) (x : SVec α) : Sp α :=
  .left (· + ·) (.un FSqrt.sqrt (.right (· + ·) (.un sqE (.bin (· - ·) (.mat H) (.scalar delta))) (.un sqE (scaledX g x)))) (.scalar delta)

/-- `k * x / H` (ada_fobos.cc:52, :226). -/
def adaX (k : α) (H : Nat) (x : SVec α) : Sp α := .left (· / ·) (scaledX k x) (.mat H)

/-- `L1(w.slice(x))` (ogd.cc:211, :213, fofs.cc:76, :78). -/
def absX (w : Nat) (x : SVec α) : Sp α := .un absE (sliced w x)

/-- `truncate(w, rate * (t - last))` (ogd.cc:118, :162). -/
def endTrunc (rate t : α) (w last : Nat) : Flat α := .bin trunc (.mat w) (lateness rate t last)

/-- `truncate(w, rate * (t - last) / H)` (ada_fobos.cc:119-120). -/
def adaEndTrunc (rate t : α) (w last H : Nat) : Flat α := .bin trunc (.mat w) (.bin (· / ·) (lateness rate t last) (.mat H))

/-- `-eta * u` (rda.cc:64). -/
def dualAll (k : α) (u : Nat) : Flat α := .bin (· * ·) (.scalar k) (.mat u)

/-- `-eta * truncate(u, th)` (rda.cc:128, :170). -/
def dualTruncAll (k th : α) (u : Nat) : Flat α := .bin (· * ·) (.scalar k) (.bin trunc (.mat u) (.scalar th))

/-- `-eta * u / H` (ada_rda.cc:70, :275). -/
def adaDualAll (k : α) (u H : Nat) : Flat α := .bin (· / ·) (dualAll k u) (.mat H)

/-- `-eta * truncate(u, th) / H` (ada_rda.cc:146). -/
def adaDualTruncAll (k th : α) (u H : Nat) : Flat α := .bin (· / ·) (dualTruncAll k th u) (.mat H)

/-- `v / (a + X)` (sop.cc:50). -/
def sopAll (a : α) (v X : Nat) : Flat α := .bin (· / ·) (.mat v) (.bin (· + ·) (.scalar a) (.mat X))

/-- `L1(w)` (ogd.cc:197, fofs.cc:49). -/
def absAllE (w : Nat) : Flat α := .un absE (.mat w)

end

end Sol.Expr
