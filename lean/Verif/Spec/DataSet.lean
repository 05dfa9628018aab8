import Verif.Model.DataSet
import Verif.Spec.DataTools
import Verif.Spec.ToolMains
/-!
# Specification of data sets: what the files of a cache directory are
-/

namespace Sol.Spec
open Sol.DataFile (File Format)
open Sol.DataSet (Files DataSet)
open Sol.Tools (Pt)

/-- The file of a fold. -/
def foldAt (pre : List Char) (fmt : Format) (i : Nat) : List Char := pre ++ decText i ++ '.' :: typeName fmt

/-- The first `n` files of folds hold the data set, every point in one of them. -/
def Folded (pw : Int → F32) (pre : List Char) (fmt : Format) (pts : List (Pt F32)) (n : Nat) (fs : Files) : Prop :=
  ∃ parts : List (List (Pt F32)), parts.length = n ∧ parts.flatten.Perm pts ∧
    ∀ (i : Nat) p, parts[i]? = some p → ∃ f, fs (foldAt pre fmt i) = some f ∧ Saved pw fmt p f

/-- A cache directory that can be written, and does not hold the data file itself. -/
structure Aside (writes : List Char → Bool) (ds : DataSet) : Prop where
  name : '/' ∉ ds.dataName
  writes : ∀ s, writes (DataSet.join ds.workDir (ds.dataName ++ s)) = true
  data : ∀ s, ds.dataPath ≠ DataSet.join ds.workDir (ds.dataName ++ s)

/-- What is in the cache directory belongs to the data set; `t`: the threshold of the binarised files.  If there are files of the folds
    `0` to `n - 1` and none of fold `n`, they are the data set split in `n`. -/
structure Coherent (pw : Int → F32) (t : F32) (pts : List (Pt F32)) (ds : DataSet) (fs : Files) : Prop where
  data : ∃ file, fs ds.dataPath = some file ∧ ReadsAs pw ds.dtype file pts .endOfFile
  folds : ∀ fmt n, 1 ≤ n → (∀ i < n, fs (foldAt ds.foldPrefix fmt i) ≠ none) → fs (foldAt ds.foldPrefix fmt n) = none →
    Folded pw ds.foldPrefix fmt pts n fs
  converted : ∀ fmt f, fs (ds.convertPath (typeName fmt)) = some f → Saved pw fmt pts f
  binary : ∀ fmt f, fs (ds.binaryPath (typeName fmt)) = some f →
    ∃ qs, ReadsAs pw (typeName fmt) f qs .endOfFile ∧ List.Forall₂ (CutAt t) pts qs
  shuffled : ∀ fmt f, fs (ds.shufflePath (typeName fmt)) = some f → ∃ l, l.Perm pts ∧ Saved pw fmt l f
  info : ∀ f, fs ds.infoPath = some f → Reports (· + 1) pts (DataFile.chars f)

/-- The numbers of the object are those of the data set. -/
structure Counted (pts : List (Pt F32)) (ds : DataSet) : Prop where
  num : ds.dataNum = pts.length
  dim : ds.dim ∈ indexesOf pts ∧ ∀ i ∈ indexesOf pts, i ≤ ds.dim
  classes : ds.classNum = (pts.map (·.label)).toFinset.card

/-- Data sets that can be analysed, split and counted. -/
structure Workable (pts : List (Pt F32)) : Prop where
  some : 1 ≤ pts.length
  few : pts.length ≤ 2 ^ 24
  ascending : ∀ p ∈ pts, (p.feats.map (·.1)).Pairwise (· < ·)
  small : ∀ i ∈ indexesOf pts, i < 2 ^ 32 - 1
  feats : indexesOf pts ≠ []

/-- A call of a method, or the creation of another object for the same file. -/
inductive Call where
  | split (n : Nat) (fmt : Format) (choice : Nat → Nat)
  | convert (fmt : Format)
  | binarize (fmt : Format)
  | shuffle (fmt : Format) (force : Bool) (choice : Nat → Nat)
  | again

/-- Calls that make sense for the data set. -/
def Call.Apt (pts : List (Pt F32)) : Call → Prop
  | .split n fmt _ => 1 ≤ n ∧ n < 2 ^ 31 ∧ Suits fmt pts
  | .convert fmt => Suits fmt pts
  | .binarize fmt => Suits fmt (pts.map allOnes)
  | .shuffle fmt _ _ => Suits fmt pts
  | .again => True

section
variable (pw : Int → F32) (writes : List Char → Bool) (pct : Nat → Nat → List Char) (name path dtype : List Char) (t : F32)

/-- The call returns, with this object and these files afterwards. -/
def Call.Returns : Call → DataSet → Files → DataSet → Files → Prop
  | .split n fmt choice, ds, fs, ds', fs' => ds.splitFile pw writes n (some (typeName fmt)) choice fs = .ok (.gives ds' fs')
  | .convert fmt, ds, fs, ds', fs' => ds' = ds ∧ ∃ p, ds.convert pw writes (typeName fmt) fs = .ok (.gives p fs')
  | .binarize fmt, ds, fs, ds', fs' => ds' = ds ∧ ∃ p, ds.binarize pw writes (typeName fmt) t fs = .ok (.gives p fs')
  | .shuffle fmt force choice, ds, fs, ds', fs' => ds' = ds ∧ ∃ p, ds.randPath pw writes (some (typeName fmt)) force choice fs = .ok (.gives p fs')
  | .again, _, fs, ds', fs' => DataSet.new pw writes pct name path dtype fs = .ok (.gives ds' fs')

/-- The calls return one after the other. -/
inductive Return : List Call → DataSet → Files → DataSet → Files → Prop
  | nil (ds fs) : Return [] ds fs ds fs
  | cons (c cs ds fs ds₁ fs₁ ds₂ fs₂) : c.Returns pw writes pct name path dtype t ds fs ds₁ fs₁ → Return cs ds₁ fs₁ ds₂ fs₂ →
      Return (c :: cs) ds fs ds₂ fs₂

end

end Sol.Spec
