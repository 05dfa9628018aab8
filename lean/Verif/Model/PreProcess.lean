import Verif.Model.Online
import Verif.Model.Text
/-!
# Model of the pre-processing of examples (src/sol/model/model.cc)

`PreProcess`, `CalibrateLabel`, `FilterFeatures` and `LoadPreSelFeatures`.  Failing allocations are left out (a list with
a negative index makes the code ask for up to 4 GB).
-/

namespace Sol.PreProcess

open Sol.Online Sol.Sparse Sol.Text

/-- `norm_type_` (operator.h:17). -/
inductive Norm where
  | none
  | l1
  | l2
deriving DecidableEq, Repr

/-- The pre-selected features: `max_index_` and `sel_feat_flags_` (model.h:183-186). -/
structure Sel where
  maxIndex : Nat
  flags : List Bool
deriving DecidableEq, Repr

/-- A new model's selection (model.cc:46). -/
def Sel.none : Sel := ⟨0, []⟩

/-- How `LoadPreSelFeatures` ends. -/
inductive Verdict where
  | ok
  | ioError
  | invalidFormat
  | threw (e : Exn)
deriving DecidableEq, Repr

/-- The line is a comment: blanks and `#` (model.cc:342-345). -/
def isComment (l : List Char) : Bool := (l.dropWhile fun c => c == ' ' || c == '\t').head? == some '#'

/-- The loop over the lines (model.cc:341-353): how it ends and the indexes so far. -/
def loadLoop : List (List Char) → List Nat → Verdict × List Nat
  | [], is => (.ok, is)
  | l :: ls, is =>
    if isComment l then loadLoop ls is
    else
      match stoi l with
      | .error e => (.threw e, is)
      | .ok (v, _) =>
        let index := (v % 4294967296).toNat
        if index = 0 then (.invalidFormat, is) else loadLoop ls (is ++ [index])

/-- `sel_feat_flags_[i] = 1` for all indexes (model.cc:361-363). -/
def setFlags : List Nat → List Bool → Res (List Bool)
  | [], f => .ok f
  | i :: is, f => do
    let f ← lset f i true
    setFlags is f

/-- `std::max_element`, dereferenced (model.cc:356); of an empty vector it is a null pointer. -/
def maxOf : List Nat → Res Nat
  | [] => .ub .nullDeref
  | i :: is => .ok (is.foldl max i)

/-- `LoadPreSelFeatures` (model.cc:327-366); `none` is a file that cannot be opened. -/
def loadPreSel (file : Option (List Char)) : Res (Verdict × Sel) :=
  match file with
  | Option.none => .ok (.ioError, Sel.none)
  | some f =>
    match loadLoop (lines f) [] with
    | (.ok, is) => do
      let m ← maxOf is
      let flags ← setFlags is (List.replicate ((m + 1) % 4294967296) false)
      .ok (.ok, ⟨m, flags⟩)
    | (v, _) => .ok (v, Sel.none)

/-- `CalibrateLabel` (model.h:140-142). -/
def calibrate (clf : Nat) (label : Int) : Int := if clf = 1 then (if label = 1 then 1 else -1) else label

section
variable {α : Type} [Zero α] [One α] [Add α] [Sub α] [Mul α] [Neg α] [Div α] [FCmp α] [FSqrt α]

/-- The loop of `FilterFeatures` (model.cc:319-324). -/
def filterLoop (s : Sel) : SVec α → Res (SVec α)
  | [] => .ok []
  | (i, y) :: x => do
    let y ← (if s.maxIndex < i then .ok 0
      else do
        let b ← lget s.flags i
        .ok (if b then y else 0) : Res α)
    let x ← filterLoop s x
    .ok ((i, y) :: x)

/-- `FilterFeatures` (model.cc:316-325). -/
def filterFeatures (s : Sel) (x : SVec α) : Res (SVec α) := if s.maxIndex = 0 then .ok x else filterLoop s x

/-- `x.data() /= k`. -/
def scale (x : SVec α) (k : α) : SVec α := x.map fun p => (p.1, p.2 / k)

/-- The normalisation (model.cc:300-313). -/
def normalise (n : Norm) (x : SVec α) : SVec α :=
  match n with
  | .none => x
  | .l1 => scale x (norm1 x)
  | .l2 => scale x (FSqrt.sqrt (norm2 x))

/-- `PreProcess` (model.cc:293-314). -/
def preProcess (clf : Nat) (s : Sel) (n : Norm) (e : Ex α) : Res (Ex α) := do
  let x ← filterFeatures s e.x
  .ok ⟨calibrate clf e.label, normalise n x⟩

end

end Sol.PreProcess
