import Verif.Model.NumericParser
import Verif.Model.ReadLine
import Verif.Model.Sort
import Verif.Proofs.NumericParser
/-!
# Model of the svm and csv readers and writers

src/sol/pario/svm_reader.cc, svm_writer.cc, csv_reader.cc, csv_writer.cc.
A value is an exact decimal (`Dec`), see `Verif.Model.NumericParser`.
-/

namespace Sol.TextReaders
open Sol.NumericParser

/-- A data point read from text: label, indexes, values. -/
structure TextPoint where
  label : Int
  indexes : List UInt32
  values : List Dec
deriving DecidableEq, Repr

/-- The feature loop of `SVMReader::Next` (svm_reader.cc:39-64).
    `none` stands for `return Status_Invalid_Format`. -/
def svmFeats (iter : Ptr) (idx : List UInt32) (vals : List Dec) : Res (Option (List UInt32 × List Dec)) :=
  match iter with
  | [] => .ub .outOfBounds
  | c :: iter' =>
    if c = '\x00' then .ok (some (idx, vals))
    else
      match hu : parseUint (c :: iter') with
      | .ub k => .ub k
      | .ok (index, e) =>
        if e.length = (c :: iter').length then .ok none
        else
          match e with
          | [] => .ub .outOfBounds
          | d :: e' =>
            if d ≠ ':' then .ok none
            else
              match hf : parseFloat e' with
              | .ub k => .ub k
              | .ok (feat, e'') =>
                if e''.length = e'.length then .ok none
                else
                  have _h1 := parseUint_length hu
                  have _h2 := parseFloat_length hf
                  svmFeats e'' (idx ++ [index]) (vals ++ [feat])
termination_by iter.length
decreasing_by simp only [List.length_cons] at *; omega

/-- `SVMReader::Next` (svm_reader.cc:22-67) on the zero-terminated line in the read buffer. -/
def svmLine (line : Ptr) : Res (Status × TextPoint) := do
  let c ← peek line
  if c = '\x00' then .ok (.invalidFormat, ⟨0, [], []⟩) else do
  let (label, e) ← parseInt line
  if e.length = line.length then .ok (.invalidFormat, ⟨label, [], []⟩) else do
  match ← svmFeats e [] [] with
  | none => .ok (.invalidFormat, ⟨label, [], []⟩)
  | some (idx, vals) => do
    let (a, b) ← Sort.sort idx.toArray vals.toArray
    .ok (.ok, ⟨label, a.toList, b.toList⟩)

/-- `SVMReader::Next` (svm_reader.cc:18-68) on a file: status, point, buffer capacity, rest of the file. -/
def svmNext (cap : Nat) (f : List Char) : Res (Status × TextPoint × Nat × List Char) := do
  let r ← ReadLine.readLine cap f
  if r.status ≠ .ok then .ok (r.status, ⟨0, [], []⟩, r.cap, r.rest) else do
  let (s, p) ← svmLine (r.buf ++ ['\x00'])
  .ok (s, p, r.cap, r.rest)

/-- A decimal that is not zero. -/
def nonzero (d : Dec) : Bool := decide (d.mant ≠ 0)

/-- The feature loop of `CSVReader::Next` (csv_reader.cc:57-77).  `keep`: the test `feat != 0`, which is made with the `float`
    (Model/DataFile.lean); for exact values it is `nonzero`. -/
def csvFeats (keep : Dec → Bool) (iter : Ptr) (index : UInt32) (idx : List UInt32) (vals : List Dec) :
    Res (Option (List UInt32 × List Dec)) :=
  match iter with
  | [] => .ub .outOfBounds
  | c :: iter' =>
    if c = '\x00' then .ok (some (idx, vals))
    else if c ≠ ',' then .ok none
    else
      match hf : parseFloat iter' with
      | .ub k => .ub k
      | .ok (feat, e) =>
        if e.length = iter'.length then .ok none
        else
          have h := parseFloat_length hf
          if keep feat then csvFeats keep e (index + 1) (idx ++ [index]) (vals ++ [feat])
          else csvFeats keep e (index + 1) idx vals
termination_by iter.length
decreasing_by all_goals (simp only [List.length_cons] at *; omega)

/-- `CSVReader::Next` (csv_reader.cc:38-79) on the zero-terminated line in the read buffer. -/
def csvLine (keep : Dec → Bool) (line : Ptr) : Res (Status × TextPoint) := do
  let c ← peek line
  if c = '\x00' then .ok (.invalidFormat, ⟨0, [], []⟩) else do
  let (label, e) ← parseInt line
  if e.length = line.length then .ok (.invalidFormat, ⟨label, [], []⟩) else do
  match ← csvFeats keep e 1 [] [] with
  | none => .ok (.invalidFormat, ⟨label, [], []⟩)
  | some (idx, vals) => .ok (.ok, ⟨label, idx, vals⟩)

/-- `CSVReader::Next` (csv_reader.cc:34-80) on a file. -/
def csvNext (keep : Dec → Bool) (cap : Nat) (f : List Char) : Res (Status × TextPoint × Nat × List Char) := do
  let r ← ReadLine.readLine cap f
  if r.status ≠ .ok then .ok (r.status, ⟨0, [], []⟩, r.cap, r.rest) else do
  let (s, p) ← csvLine keep (r.buf ++ ['\x00'])
  .ok (s, p, r.cap, r.rest)

/-- `CSVReader::LoadFeatDim`, called by `Open` (csv_reader.cc:82-92, 19-26): reads the header line and counts its
    commas.  Result: status, `feat_dim_`, buffer capacity, rest of the file. -/
def csvOpen (cap : Nat) (f : List Char) : Res (Status × Nat × Nat × List Char) := do
  let r ← ReadLine.readLine cap f
  if r.status ≠ .ok then .ok (r.status, 0, r.cap, r.rest) else
  .ok (.ok, (ReadLine.cstr r.buf).count ',' + 1, r.cap, r.rest)

end Sol.TextReaders
