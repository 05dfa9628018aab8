import Verif.Spec.Decimal
/-!
# Model of the svm and csv writers

src/sol/pario/svm_writer.cc, csv_writer.cc.  `printf` is modelled by its documented behaviour: `%d` of an `int` is
`Spec.intText`; `%g` (six significant digits, trailing zeros removed) is `gText` below.
The rounding of a `float` to six significant decimal digits is not modelled: a value is given by those digits.
-/

namespace Sol.TextWriters
open Sol.Spec

/-- A value as `%g` sees it: zero, infinite, not a number, or six significant digits `m` (10^5 ≤ m < 10^6) and the
    decimal exponent `x` of the first digit, standing for ± m * 10 ^ (x - 5). -/
inductive GVal where
  | zero (neg : Bool)
  | inf (neg : Bool)
  | nan (neg : Bool)
  | num (neg : Bool) (m : Nat) (x : Int)
deriving DecidableEq, Repr

/-- Trailing zeros removed. -/
def stripZeros (ds : List Char) : List Char := (ds.reverse.dropWhile (· == '0')).reverse

/-- A fraction after `%g` removed its trailing zeros: no point if nothing is left. -/
def fracOf (fs : List Char) : List Char := if stripZeros fs = [] then [] else '.' :: stripZeros fs

/-- Exponents have at least two digits. -/
def pad2 (ds : List Char) : List Char := if ds.length < 2 then '0' :: ds else ds

/-- Sign as printed. -/
def signOf (neg : Bool) : List Char := if neg then ['-'] else []

/-- `printf("%g", v)` (C standard 7.21.6.1: style e if the exponent is below -4 or at least the precision 6). -/
def gText : GVal → List Char
  | .zero neg => signOf neg ++ ['0']
  | .inf neg => signOf neg ++ ['i', 'n', 'f']
  | .nan neg => signOf neg ++ ['n', 'a', 'n']
  | .num neg m x =>
    signOf neg ++
      if x < -4 ∨ 6 ≤ x then
        (decText m).take 1 ++ fracOf ((decText m).drop 1) ++
          'e' :: (if x < 0 then '-' else '+') :: pad2 (decText x.natAbs)
      else if 0 ≤ x then
        (decText m).take (x.toNat + 1) ++ fracOf ((decText m).drop (x.toNat + 1))
      else '0' :: fracOf (List.replicate ((-x).toNat - 1) '0' ++ decText m)

/-- A data point to be written. -/
structure OutPoint where
  label : Int
  feats : List (UInt32 × GVal)
deriving DecidableEq, Repr

/-- An `index_t` passed for `%d` is read as an `int`. -/
def indexText (i : UInt32) : List Char := intText (Int32.ofBitVec i.toBitVec).toInt

/-- One feature as written by `SVMWriter::Write` (svm_writer.cc:20). -/
def svmFeat (f : UInt32 × GVal) : List Char := ' ' :: (indexText f.1 ++ ':' :: gText f.2)

/-- `SVMWriter::Write` (svm_writer.cc:16-24). -/
def svmWrite (p : OutPoint) : List Char := intText p.label ++ p.feats.flatMap svmFeat ++ ['\n']

/-- The two loops of `CSVWriter::Write` (csv_writer.cc:20-29) from column `j` on. -/
def csvCells (feats : List (UInt32 × GVal)) (j dim : Nat) : List Char :=
  if h : j < dim then
    match feats with
    | [] => ',' :: '0' :: csvCells [] (j + 1) dim
    | (i, v) :: feats =>
      if i.toNat = j then ',' :: (gText v ++ csvCells feats (j + 1) dim)
      else ',' :: '0' :: csvCells ((i, v) :: feats) (j + 1) dim
  else []
termination_by dim - j

/-- `CSVWriter::Write` (csv_writer.cc:16-33) with `feat_dim_ = dim`. -/
def csvWrite (dim : Nat) (p : OutPoint) : List Char := intText p.label ++ csvCells p.feats 1 dim ++ ['\n']

/-- The column names of `CSVWriter::SetExtraInfo` (csv_writer.cc:40-45) from `i` on. -/
def csvNames (i dim : Nat) : List Char :=
  if i < dim then ',' :: 'v' :: (decText i ++ csvNames (i + 1) dim) else []
termination_by dim - i

/-- `CSVWriter::SetExtraInfo` (csv_writer.cc:35-48). -/
def csvHeader (dim : Nat) : List Char := ['c', 'l', 'a', 's', 's'] ++ csvNames 1 dim ++ ['\n']

end Sol.TextWriters
