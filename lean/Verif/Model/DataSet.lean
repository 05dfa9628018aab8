import Verif.Model.DataFile
/-!
# Model: data sets and their cache directory

`python/dataset.py` (Python 2): the class `DataSet`, which keeps converted, shuffled and split copies of a data file in a directory and uses
them again.  The functions of pysol that it calls hand their arguments to the tools (pysol.pyx:334-352, c_api.cc:171-193), which are in
`Model/DataFile`.

Simplifications: directories are not modelled (`os.makedirs`; whether a file can be written is given); files can always be removed
and read; the path `-` is an ordinary file; numbers of folds are not negative; log messages are left out, but for the one that fails.
-/

namespace Sol.DataSet
open Sol.DataFile (File Machine Done foldName)

/-- The contents of files by path, `none`: there is no such file. -/
abbrev Files := List Char → Option File

/-- How a call ends: a value, an exception, or `sys.exit()`; with the files afterwards. -/
inductive Out (α : Type) where
  | gives (a : α) (fs : Files)
  | raises (fs : Files)
  | exits (fs : Files)

/-- The files after some were written, in order. -/
def Files.after (fs : Files) (out : List (List Char × File)) : Files :=
  out.foldl (fun fs o p => if p = o.1 then some o.2 else fs p) fs

/-- `os.remove`. -/
def Files.without (fs : Files) (path : List Char) : Files := fun p => if p = path then none else fs p

/-- What the tools see of the files; `writes`: the paths that can be written. -/
def seen (writes : List Char → Bool) (fs : Files) : Machine := ⟨fs, fs, writes⟩

/-- `os.path.join` of two paths (posixpath). -/
def join (a b : List Char) : List Char :=
  if b.head? = some '/' then b else if a = [] ∨ a.getLast? = some '/' then a ++ b else a ++ '/' :: b

/-- `os.path.basename`. -/
def basename (p : List Char) : List Char := (p.reverse.takeWhile (· ≠ '/')).reverse

/-- `os.path.splitext(p)[0]` of a path without `/`: the last dot begins the extension, unless only dots come before it. -/
def root (p : List Char) : List Char :=
  match p.reverse.dropWhile (· ≠ '.') with
  | [] => p
  | _ :: pre => if pre.all (· = '.') then p else pre.reverse

/-! ### The patterns `…\s*:\s*(\d+)` -/

/-- `\s`. -/
def space (c : Char) : Bool := c = ' ' ∨ c = '\t' ∨ c = '\n' ∨ c = '\r' ∨ c.toNat = 11 ∨ c.toNat = 12

/-- The pattern at the beginning of `s`: the group, and what follows the match.  The repetitions are greedy; as what follows each of
    them is no character of it, there is no other match. -/
def matchAt (lit s : List Char) : Option (List Char × List Char) :=
  if lit.isPrefixOf s then
    match (s.drop lit.length).dropWhile space with
    | ':' :: r =>
      let r := r.dropWhile space
      if r.takeWhile Char.isDigit = [] then none else some (r.takeWhile Char.isDigit, r.dropWhile Char.isDigit)
    | _ => none
  else none

/-- `pattern.findall`: the groups of the matches from left to right, none of which overlaps another; first skip some characters. -/
def findAll (lit : List Char) : Nat → List Char → List (List Char)
  | _, [] => []
  | k + 1, _ :: s => findAll lit k s
  | 0, c :: s =>
    match matchAt lit (c :: s) with
    | some (d, rest) => d :: findAll lit (s.length - rest.length) s
    | none => findAll lit 0 s

/-- The only match as a number. -/
def single (l : List (List Char)) : Option Nat :=
  match l with
  | [d] => some (Spec.decVal d)
  | _ => none

/-! ### The class -/

/-- A `DataSet` (dataset.py:12-31); the name and the number of passes are not used by the methods. -/
structure DataSet where
  dataPath : List Char
  dtype : List Char
  sliceType : List Char
  workDir : List Char
  dataName : List Char
  dataNum : Nat
  dim : Nat
  classNum : Nat
deriving DecidableEq

/-- The numbers in a report (dataset.py:44-70). -/
def parse (text : List Char) : Option (Nat × Nat × Nat) := do
  let n ← single (findAll "data number".toList 0 text)
  let d ← single (findAll "dimension".toList 0 text)
  let c ← single (findAll "class num".toList 0 text)
  some (n, d, c)

/-- The paths in the cache directory (dataset.py:36, 74, 83, 95, 104, 115, 132). -/
def DataSet.infoPath (ds : DataSet) : List Char := join ds.workDir (ds.dataName ++ "_info.txt".toList)
def DataSet.foldPrefix (ds : DataSet) : List Char := join ds.workDir (ds.dataName ++ ".split.".toList)
def DataSet.convertPath (ds : DataSet) (type : List Char) : List Char := join ds.workDir (ds.dataName ++ '.' :: type)
def DataSet.binaryPath (ds : DataSet) (type : List Char) : List Char := join ds.workDir (ds.dataName ++ "-binary.".toList ++ type)
def DataSet.shufflePath (ds : DataSet) (type : List Char) : List Char := join ds.workDir (ds.dataName ++ ".shuffle.".toList ++ type)

/-- What is left of a call of a tool: the files, or `sys.exit()`. -/
def finish {α : Type} (fs : Files) (r : Done) (a : α) : Out α :=
  if r.code = 0 then .gives a (fs.after r.out) else .exits (fs.after r.out)

section
variable (pw : Int → F32) (writes : List Char → Bool)

/-- Reading the report (dataset.py:44-70). -/
def DataSet.numbers (ds : DataSet) (fs : Files) : Out DataSet :=
  match fs ds.infoPath with
  | none => .raises fs
  | some f =>
    match parse (DataFile.chars f) with
    | some (n, d, c) => .gives { ds with dataNum := n, dim := d, classNum := c } fs
    | none => .exits fs

/-- `__analyze_dataset` (dataset.py:33-70). -/
def DataSet.info (pct : Nat → Nat → List Char) (ds : DataSet) (fs : Files) : Res (Out DataSet) :=
  if (fs ds.infoPath).isSome then .ok (ds.numbers fs)
  else (DataFile.analyze pw pct (seen writes fs) ds.dataPath ds.dtype ds.infoPath).bind fun d =>
    .ok (if d.code = 0 then ds.numbers (fs.after d.out) else .exits (fs.after d.out))

/-- The data path of a new object (dataset.py:17-19). -/
def pathOf (name path : List Char) : List Char := if path = [] then name ++ '/' :: name ++ "_train".toList else path

/-- The attributes of a new object (dataset.py:12-28). -/
def unread (name path dtype : List Char) : DataSet :=
  ⟨pathOf name path, dtype, dtype, join "./cache/".toList name, root (basename (pathOf name path)), 0, 0, 0⟩

/-- `DataSet(name, data_path, dtype)` (dataset.py:12-31). -/
def new (pct : Nat → Nat → List Char) (name path dtype : List Char) (fs : Files) : Res (Out DataSet) :=
  if (fs (pathOf name path)).isNone then .ok (.raises fs) else (unread name path dtype).info pw writes pct fs

/-- `split_path` (dataset.py:73-77). -/
def DataSet.splitPath (ds : DataSet) (i : Nat) (fs : Files) : Out (List Char) :=
  let path := foldName ds.foldPrefix ds.sliceType i
  if (fs path).isNone then .raises fs else .gives path fs

/-- `cache_path` (dataset.py:79-89): the log message has one place for two values, which raises a `TypeError`. -/
def DataSet.cachePath (ds : DataSet) (fs : Files) : Out (List Char) :=
  if ds.dtype = "bin".toList then .gives ds.dataPath fs
  else if (fs (ds.convertPath "bin".toList)).isSome then .gives (ds.convertPath "bin".toList) fs
  else .raises fs

/-- `convert` (dataset.py:91-101). -/
def DataSet.convert (ds : DataSet) (type : List Char) (fs : Files) : Res (Out (List Char)) :=
  if ds.dtype = type then .ok (.gives ds.dataPath fs)
  else if (fs (ds.convertPath type)).isSome then .ok (.gives (ds.convertPath type) fs)
  else (DataFile.convert pw (seen writes fs) ds.dataPath ds.dtype (ds.convertPath type) type none).bind fun d =>
    .ok (finish fs d (ds.convertPath type))

/-- `binarize` (dataset.py:103-110). -/
def DataSet.binarize (ds : DataSet) (type : List Char) (thresh : F32) (fs : Files) : Res (Out (List Char)) :=
  if (fs (ds.binaryPath type)).isSome then .ok (.gives (ds.binaryPath type) fs)
  else (DataFile.convert pw (seen writes fs) ds.dataPath ds.dtype (ds.binaryPath type) type (some thresh)).bind fun d =>
    .ok (finish fs d (ds.binaryPath type))

/-- `rand_path` (dataset.py:113-121); `choice`: the random numbers. -/
def DataSet.randPath (ds : DataSet) (type : Option (List Char)) (force : Bool) (choice : Nat → Nat) (fs : Files) : Res (Out (List Char)) :=
  let type := type.getD ds.dtype
  if (fs (ds.shufflePath type)).isSome && !force then .ok (.gives (ds.shufflePath type) fs)
  else (DataFile.shuffle pw (seen writes fs) choice ds.dataPath ds.dtype (ds.shufflePath type) type).bind fun d =>
    .ok (finish fs d (ds.shufflePath type))

/-- `split_file` (dataset.py:123-149): the object afterwards.  The names that are looked for end in `None` if no type is given
    (dataset.py:135, 138). -/
def DataSet.splitFile (ds : DataSet) (n : Nat) (type : Option (List Char)) (choice : Nat → Nat) (fs : Files) : Res (Out DataSet) :=
  let ds := { ds with sliceType := type.getD ds.dtype }
  let named := type.getD "None".toList
  let exist := (List.range n).all fun i => (fs (foldName ds.foldPrefix named i)).isSome
  let extra := foldName ds.foldPrefix named n
  let keep := exist && (fs extra).isNone
  let fs := if (fs extra).isSome then fs.without extra else fs
  if keep then .ok (.gives ds fs)
  else (DataFile.split pw (seen writes fs) (some choice) ds.dataPath ds.dtype n ds.foldPrefix ds.sliceType).bind fun d =>
    .ok (finish fs d ds)

end

end Sol.DataSet
