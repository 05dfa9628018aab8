import Verif.Base.Outcome
/-!
# Model of the string helpers and the class registry

include/sol/util/str_util.h, src/sol/util/reflector.cc, include/sol/util/reflector.h.  A string is a list of characters (bytes:
codes up to 255); `char` is signed, as on x86.
-/

namespace Sol.StrUtil

/-- `split(str, delim)` (str_util.h:19-31): skip separators, take the text up to the next one, and so on. -/
def split (d : Char) (s : List Char) : List (List Char) :=
  match h : s.dropWhile (· == d) with
  | [] => []
  | c :: t => (c :: t).takeWhile (· != d) :: split d ((c :: t).dropWhile (· != d))
termination_by s.length
decreasing_by
  have h1 := (List.dropWhile_suffix (· == d) (l := s)).length_le
  have hc : (c == d) = false := by
    have := List.head?_dropWhile_not (· == d) s
    rw [h] at this
    simpa using this
  have h2 := (List.dropWhile_suffix (· != d) (l := t)).length_le
  have h3 : (c :: t).dropWhile (· != d) = t.dropWhile (· != d) := by
    simp only [List.dropWhile_cons, bne, hc, Bool.not_false, if_true]
  rw [h] at h1
  rw [h3]
  simp only [List.length_cons] at h1
  omega

/-- A blank for `strip`. -/
def stripped (c : Char) : Bool := c == ' ' || c == '\t'

/-- `strip` (str_util.h:33-39): the first run without blanks. -/
def strip (s : List Char) : List Char := (s.dropWhile stripped).takeWhile fun c => !stripped c

/-- `tolower` on a `char` in the "C" locale: undefined for a negative value other than `EOF` (C11 7.4p1). -/
def tolower (c : Char) : Res Char :=
  if 128 ≤ c.toNat ∧ c.toNat ≠ 255 then .ub .outOfBounds
  else if 'A' ≤ c ∧ c ≤ 'Z' then .ok (Char.ofNat (c.toNat + 32))
  else .ok c

/-- `lower` (str_util.h:41-47). -/
def lower : List Char → Res (List Char)
  | [] => .ok []
  | c :: s => do
    let c ← tolower c
    let s ← lower s
    .ok (c :: s)

/-! ### The registry -/

/-- `ClsInfoMapType`: lower-case names with their class informations. -/
abbrev Registry (I : Type) := List (List Char × I)

variable {I : Type}

/-- `cls_info_map.find`. -/
def find (m : Registry I) (k : List Char) : Option I := (List.find? (fun e => e.1 == k) m).map (·.2)

/-- `ClassFactory::Register` (reflector.cc:27-36).  `none`: the program exits, as the name is taken. -/
def register (m : Registry I) (name : List Char) (info : I) : Res (Option (Registry I)) := do
  let k ← lower name
  match find m k with
  | none => .ok (some ((k, info) :: m))
  | some _ => .ok none

/-- The registrations before `main` (one `ClassInfo` object each, in any order). -/
def registerAll : Registry I → List (List Char × I) → Res (Option (Registry I))
  | m, [] => .ok (some m)
  | m, r :: rs => do
    match ← register m r.1 r.2 with
    | none => .ok none
    | some m => registerAll m rs

/-- `CreateObject` (reflector.h:59-70): `none` for the null pointer. -/
def createObject (m : Registry I) (name : List Char) : Res (Option I) := do
  let k ← lower name
  .ok (find m k)

/-- The four kinds of registered classes; their creation functions have different types. -/
inductive Kind where
  | model
  | loss
  | reader
  | writer
deriving DecidableEq, Repr

/-- What the registration macros append to the name (model.h:207, loss.h:87, data_reader.h:103, data_writer.h:77). -/
def suffix : Kind → List Char
  | .model => "_model".toList
  | .loss => "_loss".toList
  | .reader => "_reader".toList
  | .writer => "_writer".toList

/-- `Model::Create`, `Loss::Create`, `DataReader::Create`, `DataWriter::Create` up to calling the function found. -/
def create (m : Registry I) (k : Kind) (name : List Char) : Res (Option I) := createObject m (name ++ suffix k)

/-- The registrations of the library (`RegisterModel`, `RegisterLoss`, `RegisterDataReader`, `RegisterDataWriter`): kind, name,
    class. -/
def library : List (Kind × String × String) :=
  [(.model, "ada-fobos", "AdaFOBOS"), (.model, "ada-fobos-l1", "AdaFOBOS_L1"), (.model, "adafobos-ofs", "AdaFOBOS_OFS"),
   (.model, "ada-rda", "AdaRDA"), (.model, "ada-rda-l1", "AdaRDA_L1"), (.model, "adarda-ofs", "AdaRDA_OFS"), (.model, "cw", "CW"),
   (.model, "ogd", "OGD"), (.model, "stg", "STG"), (.model, "fobos-l1", "FOBOS_L1"), (.model, "pet", "PET"),
   (.model, "arow", "AROW"), (.model, "sofs", "SOFS"), (.model, "perceptron", "Perceptron"), (.model, "alma2", "ALMA2"),
   (.model, "rda", "RDA"), (.model, "rda-l1", "RDA_L1"), (.model, "erda-l1", "ERDA_L1"), (.model, "eccw", "ECCW"),
   (.model, "sop", "SOP"), (.model, "pa", "PA"), (.model, "pa1", "PAI"), (.model, "pa2", "PAII"), (.model, "fofs", "FOFS"),
   (.loss, "bool", "BoolLoss"), (.loss, "maxscore-bool", "MaxScoreBoolLoss"), (.loss, "uniform-bool", "UniformBoolLoss"),
   (.loss, "square", "SquareLoss"), (.loss, "logistic", "LogisticLoss"), (.loss, "maxscore-logistic", "MaxScoreLogisticLoss"),
   (.loss, "uniform-logistic", "UniformLogisticLoss"), (.loss, "hinge", "HingeLoss"),
   (.loss, "maxscore-hinge", "MaxScoreHingeLoss"), (.loss, "uniform-hinge", "UniformHingeLoss"),
   (.reader, "csr_matrix", "CsrMatrixReader"), (.reader, "csv", "CSVReader"), (.reader, "bin", "BinaryReader"),
   (.reader, "numpy", "NumpyReader"), (.reader, "svm", "SVMReader"),
   (.writer, "bin", "BinaryWriter"), (.writer, "svm", "SVMWriter"), (.writer, "csv", "CSVWriter")]

/-- The library's registrations as the macros make them. -/
def registrations : List (List Char × Kind × String) :=
  library.map fun e => (e.2.1.toList ++ suffix e.1, e.1, e.2.2)

end Sol.StrUtil
