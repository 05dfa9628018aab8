import Verif.Model.Arrays
import Verif.Model.PySol
/-!
# Model of the Python class `SOL` (python/pysol.pyx) with arrays for data

`fit`, `score`, `predict` and `decision_function` take a file, an array of numpy or a matrix in compressed rows of scipy.

Simplifications: those of Model/PySol.lean and Model/Arrays.lean; arrays of `float64` (pysol.pyx:165-166), in C order and with labels
in one piece (what Cython makes of the casts in 172-184 for other layouts is not modelled); `mem` is the memory while the data are read,
that is, after `__load_data` has returned, since readers start in `Next` (data_iter.cc:91); the data are read when they are added, so an
array must not change before a later call takes them, and undefined behaviour of a reader is attributed to the call that adds it.
-/

namespace Sol.PyArrays
open Sol.Params Sol.Online Sol.Loss Sol.Whole Sol.PySol Sol.Arrays

/-- The data of a call (pysol.pyx:146-186).  For arrays: the addresses, sizes and strides; no labels: `None`. -/
inductive Data where
  | file (path fmt : List Char)
  | dense (x : Int) (y : Option Int) (rows cols stride : Int)
  | csr (indices indptr features : Int) (y : Option Int) (rows : Int)
deriving DecidableEq, Repr

/-- Memory of which the doubles from `a` on were released. -/
def release (m : Mem) (a rows : Int) : Mem := { m with dbl := fun p => if a ≤ p ∧ p < a + 8 * rows then none else m.dbl p }

/-- The labels that are read (pysol.pyx:163-164, 168): without labels, `np.zeros` at the address `z`, which only `__load_data` holds. -/
def labels (z : Int) (m : Mem) (rows : Int) : Option Int → Int × Mem
  | some y => (y, m)
  | none => (z, release m z rows)

/-- Reading ends in undefined behaviour. -/
inductive Breaks {R : Type} (next : R → Res (Status × Option (Tools.Pt F32) × R)) : R → UB → Prop
  | now {r k} (h : next r = .ub k) : Breaks next r k
  | later {r r' p k} (h : next r = .ok (.ok, some p, r')) (t : Breaks next r' k) : Breaks next r k

/-- The iterator with a further reader (data_iter.cc:65-78). -/
def addPoints (i : DataIter.State DataFile.Point) (pts : List DataFile.Point) (st : Status) (passes : Int) : DataIter.State DataFile.Point :=
  if passes ≤ 0 then { i with rd := i.rd ++ [DataIter.newReader ([], false, 0)], ended := false }
  else { i with rd := i.rd ++ [DataIter.newReader (pts, decide (st ≠ .endOfFile), passes.toNat)], ended := false }

/-- `AddReader` with a reader of arrays; `none`: the reader is not good. -/
inductive AddsArray {R : Type} (next : R → Res (Status × Option (Tools.Pt F32) × R)) (opened : Res (Option R)) (n : Int)
    (i : DataIter.State DataFile.Point) : Res (Option (DataIter.State DataFile.Point)) → Prop
  | lost {k : UB} (h : opened = .ub k) : AddsArray next opened n i (.ub k)
  | refused (h : opened = .ok none) : AddsArray next opened n i (.ok none)
  | unread {r : R} (h : opened = .ok (some r)) (hn : n ≤ 0) : AddsArray next opened n i (.ok (some (addPoints i [] .endOfFile n)))
  | breaks {r : R} {k : UB} (h : opened = .ok (some r)) (hn : 0 < n) (hb : Breaks next r k) : AddsArray next opened n i (.ub k)
  | reads {r : R} {pts : List DataFile.Point} {st : Status} (h : opened = .ok (some r)) (hn : 0 < n) (hr : Arrays.Reads next r pts st) :
      AddsArray next opened n i (.ok (some (addPoints i pts st n)))

/-- `__load_data` (pysol.pyx:158-189) with `sol_LoadData`, `sol_loadArray` and `sol_loadCsrMatrix` (c_api.cc:38-42, 154-168). -/
def Adds (pw : Int → F32) (W : World) (m : Mem) (z : Int) : Data → Int → DataIter.State DataFile.Point →
    Res (Option (DataIter.State DataFile.Point)) → Prop
  | .file p f, n, i, r => r = load pw W p f n i
  | .dense x y rows cols stride, n, i, r =>
    AddsArray (Dense.next (labels z m rows y).2)
      (openDense (densePath x (labels z m rows y).1 (narrowInt rows) (narrowInt cols) (narrowInt stride))) n i r
  | .csr indices indptr features y rows, n, i, r =>
    AddsArray (Csr.next (labels z m rows y).2) (openCsr (csrPath indices indptr features (labels z m rows y).1 (narrowInt rows))) n i r

/-- A call of a method. -/
inductive AOp where
  | fit (d : Data) (passes : Int)
  | score (d : Data)
  | predict (d : Data)
  | sparsity
  | save (path : List Char)
deriving DecidableEq, Repr

/-- The data of a call and the number of passes. -/
def AOp.source : AOp → Option (Data × Int)
  | .fit d n => some (d, n)
  | .score d => some (d, 1)
  | .predict d => some (d, 1)
  | .sparsity => none
  | .save _ => none

/-- The call without its data. -/
def AOp.kind : AOp → Op
  | .fit _ n => .fit [] [] n
  | .score _ => .score [] []
  | .predict _ => .predict [] []
  | .sparsity => .sparsity
  | .save p => .save p

variable [FFun F32]

/-- One call of a method (pysol.pyx:106-110, 191-307), in some interleaving of the threads. -/
inductive ACall (pw : Int → F32) (powf : F32 → F32 → F32) (ρ : Nat → F32) (d : Train.Disp) (W : World) (m : Mem) (z : Int) :
    Py → AOp → Res (Py × Ret) → Prop
  | bad {s : Py} {op : AOp} {x : Data} {n : Int} {k : UB} (ho : op.source = some (x, n)) (hl : Adds pw W m z x n s.iter (.ub k)) :
      ACall pw powf ρ d W m z s op (.ub k)
  | closed {s : Py} {op : AOp} {x : Data} {n : Int} (ho : op.source = some (x, n)) (hl : Adds pw W m z x n s.iter (.ok none)) :
      ACall pw powf ρ d W m z s op (.ok (s, .raises))
  | unready {s : Py} {op : AOp} {x : Data} {n : Int} {i : DataIter.State DataFile.Point} {k : UB}
      (ho : op.source = some (x, n)) (hl : Adds pw W m z x n s.iter (.ok (some i))) (hr : ready powf d op.kind s.obj = .ub k) :
      ACall pw powf ρ d W m z s op (.ub k)
  | refused {s : Py} {op : AOp} {x : Data} {n : Int} {i : DataIter.State DataFile.Point}
      (ho : op.source = some (x, n)) (hl : Adds pw W m z x n s.iter (.ok (some i))) (hr : ready powf d op.kind s.obj = .ok none) :
      ACall pw powf ρ d W m z s op (.ok (⟨s.obj, i⟩, .rate 0))
  | fails {s : Py} {op : AOp} {x : Data} {n : Int} {i i' : DataIter.State DataFile.Point} {o : Obj} {k : UB}
      (ho : op.source = some (x, n)) (hl : Adds pw W m z x n s.iter (.ok (some i))) (hr : ready powf d op.kind s.obj = .ok (some o))
      (hd : Drains i i') (ht : treat ρ op.kind o (batchesFrom i i') = .ub k) : ACall pw powf ρ d W m z s op (.ub k)
  | done {s : Py} {op : AOp} {x : Data} {n : Int} {i i' : DataIter.State DataFile.Point} {o o' : Obj} {r : Ret}
      (ho : op.source = some (x, n)) (hl : Adds pw W m z x n s.iter (.ok (some i))) (hr : ready powf d op.kind s.obj = .ok (some o))
      (hd : Drains i i') (ht : treat ρ op.kind o (batchesFrom i i') = .ok (o', r)) : ACall pw powf ρ d W m z s op (.ok (⟨o', i'⟩, r))
  /-- pysol.pyx:106-110, 298-307 -/
  | other {s : Py} {op : AOp} {e : Res (Py × Ret)} (ho : op.source = none) (h : Call pw powf ρ d W s op.kind e) : ACall pw powf ρ d W m z s op e

/-- Calls one after the other: the object in the end and what they returned. -/
inductive ASession (pw : Int → F32) (powf : F32 → F32 → F32) (ρ : Nat → F32) (d : Train.Disp) (W : World) (m : Mem) (z : Int) :
    Py → List AOp → Res (Py × List Ret) → Prop
  | nil {s : Py} : ASession pw powf ρ d W m z s [] (.ok (s, []))
  | stop {s : Py} {op : AOp} {ops : List AOp} {k : UB} (h : ACall pw powf ρ d W m z s op (.ub k)) : ASession pw powf ρ d W m z s (op :: ops) (.ub k)
  | cons {s s' : Py} {op : AOp} {ops : List AOp} {r : Ret} {e : Res (Py × List Ret)} (h : ACall pw powf ρ d W m z s op (.ok (s', r)))
      (ht : ASession pw powf ρ d W m z s' ops e) : ASession pw powf ρ d W m z s (op :: ops) (e.bind fun p => .ok (p.1, r :: p.2))

end Sol.PyArrays
