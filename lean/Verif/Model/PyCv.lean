import Verif.Model.PySol
/-!
# Model of a worker process of cross validation with the objects of the Python class (python/cv.py:45-73)

Simplifications: those of Model/PySol.lean and Model/Cv.lean; an accuracy that is not a number is taken for 0; undefined behaviour of
a worker is taken for an exception; so are batch and buffer sizes that are not positive; other values of `verbose` than `False` leave the default report, which does not change the model.
-/

namespace Sol.PyCv
open Sol.Params Sol.Loss Sol.Whole Sol.PySol Sol.Cv

/-- Values of Python: `str(v)` and the conversion to `int` by Cython (`none`: an exception). -/
class PyVal (V : Type) where
  str : V → List Char
  toInt : V → Option Int

/-- Strings, which are the values that sol_train.py:188 makes. -/
instance : PyVal (List Char) := ⟨id, fun _ => none⟩

variable [FFun F32] {V : Type} [PyVal V]

/-- `1 - rate` (pysol.pyx:211, 231). -/
def accuracy : F32 → ℚ
  | .fin q => 1 - q
  | _ => 0

/-- The arguments of the constructor that are not handed to the model (pysol.pyx:52-53). -/
def ownNames : List String := ["batch_size", "buf_size", "verbose"]

/-- `**params`: the other arguments, as texts (pysol.pyx:126-127). -/
def settings (d : Dict V) : Dict (List Char) := (d.filter fun p => p.1 ∉ ownNames).map fun p => (p.1, PyVal.str p.2)

/-- The model of `SOL(algo, class_num, …)` (pysol.pyx:71-75, 123-129); `none`: an exception. -/
def createWith (files : List Char → Option (List Char)) (cls : Cls) (classNum : Int) (d : Dict V) : Option M :=
  match create cls classNum with
  | none => none
  | some m =>
    match setAll files m (settings d) with
    | (m, .accepted) => some m
    | _ => none

/-- An argument of the constructor that is a number (pysol.pyx:52-53, 81-84); `none`: an exception. -/
def sizeOf (d : Dict V) (name : String) (default : Nat) : Option Nat :=
  match d.lookup name with
  | none => some default
  | some v =>
    match PyVal.toInt v with
    | some n => if 0 < n then some n.toNat else none
    | none => none

/-- `SOL(algo, class_num, …)` (pysol.pyx:52-88); `none`: an exception. -/
def newObject (files : List Char → Option (List Char)) (cls : Cls) (classNum : Int) (d : Dict V) : Option Py :=
  (createWith files cls classNum d).bind fun m =>
    (sizeOf d "batch_size" 256).bind fun size => (sizeOf d "buf_size" 2).bind fun num => some (Py.start m size num)

/-- What a call returns, as an accuracy. -/
def asAccuracy : Res (Py × Ret) → Option (Py × ℚ)
  | .ok (s, .rate x) => some (s, accuracy x)
  | _ => none

/-- The methods of the library, in some interleaving of the threads (cv.py:57, 63-64); `path i`: the file of fold `i`, of the type `ty`. -/
structure Follows (pw : Int → F32) (powf : F32 → F32 → F32) (ρ : Nat → F32) (d : Train.Disp) (W : World) (cls : Cls) (classNum : Int)
    (path : Nat → List Char) (ty : List Char) (lib : Lib V Py ℚ) : Prop where
  create : ∀ p, lib.create p = newObject W.files cls classNum p
  fit : ∀ s i e₀, Call pw powf ρ d W s (.fit (path i) ty 1) e₀ → ∃ e, Call pw powf ρ d W s (.fit (path i) ty 1) e ∧ lib.fit s i = asAccuracy e
  score : ∀ s i e₀, Call pw powf ρ d W s (.score (path i) ty) e₀ →
    ∃ e, Call pw powf ρ d W s (.score (path i) ty) e ∧ lib.score s i = (asAccuracy e).map (·.2)

end Sol.PyCv
