import Verif.Base.Num
/-!
# Model of dense and sparse vector operations (include/sol/math/matrix_expression.h, expression.h, operator.h)

A dense vector is a list, a sparse vector the list of its (index, value) pairs.
-/

namespace Sol.Sparse

/-- A sparse vector; indexes are `uint32_t` values. -/
abbrev SVec (α : Type) := List (Nat × α)

/-- The loop `while (sz > 0 && svec.index(sz - 1) >= dsz) --sz` (matrix_expression.h:159, :173). -/
def trim {α : Type} (x : SVec α) (dsz : Nat) : Nat → Nat
  | 0 => 0
  | sz + 1 =>
    match x[sz]? with
    | some (i, _) => if dsz ≤ i then trim x dsz sz else sz + 1
    | none => sz + 1

section
variable {α : Type} [Zero α] [Add α] [Mul α]

/-- The summation loop of the dense-sparse `dot` (matrix_expression.h:174-178) from the running value `v`, with
    operator `op`. -/
def dotLoop (op : α → α → α) (w : List α) : SVec α → α → Res α
  | [], v => .ok v
  | (i, y) :: l, v => do
    let a ← lget w i
    dotLoop op w l (v + op a y)

/-- `dot<OP>(dense, sparse)` (matrix_expression.h:166-180). -/
def dotOp (op : α → α → α) (w : List α) (x : SVec α) : Res α := dotLoop op w (x.take (trim x w.length x.length)) 0

/-- `dotmul` of a dense and a sparse vector (expression.h:363-368). -/
def dotmul (w : List α) (x : SVec α) : Res α := dotOp (· * ·) w x
end

/-- The loop of the dense-from-sparse `CalcExp` (matrix_expression.h:161-163).  The expression `f` gets the current
    destination (it may occur in the expression), the index and the value of the sparse vector in it. -/
def calcLoop {α : Type} (op : α → α → α) (f : List α → Nat → α → Res α) : SVec α → List α → Res (List α)
  | [], w => .ok w
  | (i, y) :: l, w => do
    let r ← f w i y
    let a ← lget w i
    let w ← lset w i (op a r)
    calcLoop op f l w

/-- `CalcExp<OP>(dense, sparse)` (matrix_expression.h:150-164). -/
def calcExp {α : Type} (op : α → α → α) (f : List α → Nat → α → Res α) (w : List α) (x : SVec α) : Res (List α) :=
  calcLoop op f (x.take (trim x w.length x.length)) w

/-- `SVector::dim` (sparse_vector.h:124-127), `index_t` arithmetic. -/
def dim {α : Type} (x : SVec α) : Nat :=
  match x.getLast? with
  | none => 0
  | some (i, _) => (i + 1) % 4294967296

section
variable {α : Type} [Zero α] [Add α] [Sub α] [Neg α] [FCmp α]

/-- `op::trunc` (operator.h:100-108). -/
def trunc (a b : α) : α :=
  if 0 ≤? a then (if b <? a then a - b else 0)
  else (if b <? -a then a + b else 0)

end

/-- `reduce<plus>` of a sparse vector after mapping `f` over the values (matrix_expression.h:195-206). -/
def reduceSum {α : Type} [Zero α] [Add α] (f : α → α) (x : SVec α) : α := x.foldl (fun v p => v + f p.2) 0

/-- `Norm1` (matrix_expression.h:208-211); `op::abs` (operator.h:143-148). -/
def norm1 {α : Type} [Zero α] [Add α] [Neg α] [FCmp α] (x : SVec α) : α :=
  reduceSum (fun a => if 0 <? a then a else -a) x

/-- `Norm2` (matrix_expression.h:213-216), the squared norm; `op::square` (operator.h:150-155). -/
def norm2 {α : Type} [Zero α] [Add α] [Mul α] (x : SVec α) : α := reduceSum (fun a => a * a) x

/-- `Norm2` of a dense vector (matrix_expression.h:137-147, 213-216). -/
def dnorm2 {α : Type} [Zero α] [Add α] [Mul α] (w : List α) : α := w.foldl (fun v a => v + a * a) 0

/-- Indexes in ascending order, as delivered by the readers after `Sort`. -/
def Ascending {α : Type} (x : SVec α) : Prop := x.Pairwise (fun p q => p.1 < q.1)

end Sol.Sparse
