import Verif.Model.DataFile
import Verif.Spec.DataFile
/-!
# Specification of the data tools: what a file holds
-/

namespace Sol.Spec
open Sol.DataFile
open Sol.Tools (Pt)

/-- The name of a format on the command line. -/
def typeName : Format → List Char
  | .svm => "svm".toList
  | .csv => "csv".toList
  | .bin => "bin".toList

/-- What a file of the given type delivers, and how its reading ends. -/
def ReadsAs (pw : Int → F32) (type : List Char) (f : File) (pts : List (Pt F32)) (s : Status) : Prop :=
  ∃ o, addReader type (some f) = .ok (some o) ∧ contents pw o = .ok (pts, s)

/-- What a format keeps of a point: everything, or everything but some digits. -/
def Keeps : Format → Pt F32 → Pt F32 → Prop
  | .bin, p, q => q = p
  | _, p, q => NearPoint p q

/-- Data sets that a format can hold; csv needs a feature. -/
def Suits : Format → List (Pt F32) → Prop
  | .bin, pts => ∀ p ∈ pts, BinaryPoint p
  | .svm, pts => ∀ p ∈ pts, SvmPoint p
  | .csv, pts => (∀ p ∈ pts, CsvPoint (2 ^ 25) p) ∧ ∃ p ∈ pts, p.feats ≠ []

/-- The file holds the data set. -/
def Saved (pw : Int → F32) (fmt : Format) (pts : List (Pt F32)) (f : File) : Prop :=
  ∃ qs, ReadsAs pw (typeName fmt) f qs .endOfFile ∧ List.Forall₂ (Keeps fmt) pts qs

/-- `v` is greater than `t`. -/
def Exceeds : F32 → F32 → Prop
  | .fin t, .fin v => t < v
  | .fin _, .pinf => True
  | .ninf, .fin _ => True
  | .ninf, .pinf => True
  | _, _ => False

/-- The point `q` is `p` with the values 1 (above the threshold) and -1. -/
def CutAt (t : F32) (p q : Pt F32) : Prop :=
  q.label = p.label ∧ List.Forall₂ (fun f g => g.1 = f.1 ∧ (Exceeds t f.2 → g.2 = .fin 1) ∧ (¬ Exceeds t f.2 → g.2 = .fin (-1))) p.feats q.feats

/-- The point with every value replaced by 1. -/
def allOnes (p : Pt F32) : Pt F32 := ⟨p.label, p.feats.map fun f => (f.1, .fin 1)⟩

end Sol.Spec
