import Verif.Model.Arrays
/-! Matrices in memory, dense and in compressed rows, and the data points of their rows. -/

namespace Sol.Spec

open Sol.Arrays Sol.Tools

/-- A dense matrix `M` of `double`s with the given distance between rows. -/
def DenseAt (m : Mem) (x stride : Int) (rows cols : Nat) (M : Nat → Nat → F64) : Prop :=
  ∀ r < rows, ∀ c < cols, m.dbl (x + r * stride + 8 * c) = some (M r c)

/-- Labels stored as whole `double`s; a null address stands for labels 0. -/
def LabelsAt (m : Mem) (y : Int) (rows : Nat) (L : Nat → Int) : Prop :=
  ∀ r < rows, -2147483648 ≤ L r ∧ L r ≤ 2147483647 ∧ (y = 0 → L r = 0) ∧ (y ≠ 0 → m.dbl (y + 8 * r) = some (.fin (L r)))

/-- Where row `r` starts among the stored entries. -/
def rowStart (rows : List (List (Nat × F64))) (r : Nat) : Nat := ((rows.take r).map List.length).sum

/-- A matrix in compressed rows: columns at `indices`, values at `features`, row boundaries (from any base) at `indptr`. -/
structure CsrAt (m : Mem) (indices indptr features base : Int) (rows : List (List (Nat × F64))) : Prop where
  bounds : ∀ r ≤ rows.length, m.int (indptr + 4 * r) = some (base + rowStart rows r)
  entry : ∀ (r : Nat) row, rows[r]? = some row → ∀ (k : Nat) e, row[k]? = some e →
    m.int (indices + 4 * ((rowStart rows r + k : Nat) : Int)) = some (e.1 : Int) ∧
      m.dbl (features + 8 * ((rowStart rows r + k : Nat) : Int)) = some e.2
  few : rowStart rows rows.length ≤ 2147483647
  narrow : ∀ row ∈ rows, ∀ e ∈ row, e.1 < 2147483647

/-- The non-zero entries of a row, by column. -/
def nonzeros (cols : Nat) (f : Nat → F64) : List (Nat × F64) :=
  ((List.range cols).filter fun c => f c ≠ .fin 0).map fun c => (c, f c)

/-- An entry as a feature: index column + 1, value rounded to `float`. -/
def asFeat (e : Nat × F64) : UInt32 × F32 := (UInt32.ofNat (e.1 + 1), Sol.Arrays.narrow e.2)

/-- The data points of a matrix. -/
def matrixPoints (rows cols : Nat) (M : Nat → Nat → F64) (L : Nat → Int) : List (Pt F32) :=
  (List.range rows).map fun r => ⟨L r, (nonzeros cols (M r)).map asFeat⟩

end Sol.Spec
