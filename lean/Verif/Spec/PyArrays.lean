import Verif.Model.PyArrays
import Verif.Spec.Arrays
import Verif.Spec.PySol
/-!
# Specification of the Python objects with arrays for data
-/

namespace Sol.Spec
open Sol.Params Sol.Online Sol.Loss Sol.Whole Sol.PySol Sol.Arrays Sol.PyArrays

/-- The value fits a pointer or a `long long`. -/
def Address (v : Int) : Prop := -9223372036854775808 ≤ v ∧ v ≤ 9223372036854775807

/-- A matrix with labels in memory, and its points.  Rows are not more than 2^31 bytes away from the first one; in compressed rows no
    zero and no column twice are stored. -/
inductive MatrixData (m : Mem) : Data → List DataFile.Point → Prop
  | dense {x y stride : Int} {rows cols : Nat} {M : Nat → Nat → F64} {L : Nat → Int} (hd : DenseAt m x stride rows cols M)
      (hl : LabelsAt m y rows L) (h0 : 0 < rows) (hr : rows < 2147483648) (hc : cols < 2147483648)
      (hs : -2147483648 ≤ stride ∧ stride ≤ 2147483647) (ho : ∀ r < rows, -2147483648 ≤ r * stride ∧ r * stride ≤ 2147483647)
      (hx : Address x) (hy : Address y) : MatrixData m (.dense x (some y) rows cols stride) (matrixPoints rows cols M L)
  | csr {indices indptr features y base : Int} {rows : List (List (Nat × F64))} {cols : Nat} {M : Nat → Nat → F64} {L : Nat → Int}
      (hc : CsrAt m indices indptr features base rows) (hl : LabelsAt m y rows.length L) (h0 : rows ≠ []) (hr : rows.length < 2147483648)
      (hw : cols < 2147483648) (hM : ∀ (r : Nat) row, rows[r]? = some row → row.Perm (nonzeros cols (M r))) (hi : Address indices)
      (hp : Address indptr) (hf : Address features) (hy : Address y) :
      MatrixData m (.csr indices indptr features (some y) rows.length) (matrixPoints rows.length cols M L)

/-- The data give these examples in so many passes. -/
def DataGives (pw : Int → F32) (W : World) (m : Mem) (d : Data) (passes : Int) (l : List (Ex F32)) : Prop :=
  match d with
  | .file p f => FileGives pw W p f passes l
  | d => ∃ pts, MatrixData m d pts ∧ l = lessons pts .endOfFile passes

/-- The examples of a call. -/
def AOpGives (pw : Int → F32) (W : World) (m : Mem) : AOp → List (Ex F32) → Prop
  | .fit d n, l => DataGives pw W m d n l
  | .score d, l => DataGives pw W m d 1 l
  | .predict d, l => DataGives pw W m d 1 l
  | _, l => l = []

/-- The file holds the data. -/
def FileHolds (pw : Int → F32) (W : World) (m : Mem) (W' : World) (p f : List Char) : Data → Prop
  | .file p' f' => W'.reads p = W.reads p' ∧ f = f'
  | d => ∃ pts file, MatrixData m d pts ∧ W'.reads p = some file ∧ ReadsAs pw f file pts .endOfFile

/-- The same call with a file instead of the data. -/
inductive Stands (pw : Int → F32) (W : World) (m : Mem) (W' : World) : AOp → Op → Prop
  | fit {d : Data} {p f : List Char} {n : Int} (h : FileHolds pw W m W' p f d) : Stands pw W m W' (.fit d n) (.fit p f n)
  | score {d : Data} {p f : List Char} (h : FileHolds pw W m W' p f d) : Stands pw W m W' (.score d) (.score p f)
  | predict {d : Data} {p f : List Char} (h : FileHolds pw W m W' p f d) : Stands pw W m W' (.predict d) (.predict p f)
  | sparsity : Stands pw W m W' .sparsity .sparsity
  | save {p : List Char} (h : W'.writes p = W.writes p) : Stands pw W m W' (.save p) (.save p)

end Sol.Spec
