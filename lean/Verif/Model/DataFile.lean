import Verif.Model.BinaryIO
import Verif.Model.Cli
import Verif.Model.FloatText
import Verif.Model.FloatValue
import Verif.Model.TextReaders
import Verif.Model.Tools
/-!
# Model of data files, and of the data tools from the command line to the files they write

src/sol/pario/data_reader.cc, data_writer.cc (creation and opening), svm, csv and binary readers and writers with `float` values,
src/sol/tools.cc and the main programs tools/analyze.cc, concat.cc, converter.cc, shuffle.cc, split.cc.

A file is the list of its bytes.  What the operating system does is given (`Machine`).  `pw` is `powf` (Model/FloatValue.lean).
Simplifications: one zero and one NaN (Base/F32.lean), so the sign of a zero and the payload of a NaN are not kept; type names are
ASCII; the readers of arrays in memory, which take addresses instead of paths, count as undefined; console output is left out; the
bytes handed to the standard library are the contents of the file (the tools do not look at the results of writing).
-/

namespace Sol.DataFile
open Sol.TextReaders Sol.TextWriters Sol.FloatText Sol.FloatValue Sol.Tools

/-- The contents of a file. -/
abbrev File := List UInt8

/-- A data point in memory. -/
abbrev Point := Pt F32

/-- The characters of a file. -/
def chars (f : File) : List Char := f.map fun b => Char.ofNat b.toNat

/-- The bytes of a text. -/
def ofChars (t : List Char) : File := t.map fun c => UInt8.ofNat c.toNat

/-! ### Values and labels in binary files -/

/-- The `float` with the given memory image (IEEE 754 binary32). -/
def ofBits (b : UInt32) : F32 :=
  let n := b.toNat
  let m : Nat := n % 2 ^ 23
  let e : Nat := n / 2 ^ 23 % 256
  let neg : Bool := decide (2 ^ 31 ≤ n)
  if e = 255 then (if m = 0 then (if neg then .ninf else .pinf) else .nan)
  else
    let q : ℚ := if e = 0 then (m : ℚ) * 2 ^ (-149 : ℤ) else (2 ^ 23 + (m : ℚ)) * 2 ^ ((e : ℤ) - 150)
    .fin (if neg then -q else q)

/-- The memory image of a `float`: exponent and mantissa. -/
def magBits (q : ℚ) : Nat :=
  if q = 0 then 0
  else
    let e := max (Int.log 2 q) (-126)
    let m := ⌊q / 2 ^ (e - 23)⌋.toNat
    if m < 2 ^ 23 then m else (e + 127).toNat * 2 ^ 23 + (m - 2 ^ 23)

/-- The memory image of a `float`. -/
def toBits : F32 → UInt32
  | .fin q => UInt32.ofNat (magBits |q| + if q < 0 then 2 ^ 31 else 0)
  | .pinf => 0x7f800000
  | .ninf => 0xff800000
  | .nan => 0x7fc00000

/-- The memory image of a label (`int32_t`). -/
def labelBits (l : Int) : UInt32 := UInt32.ofNat (l % 4294967296).toNat

/-- The label with the given memory image. -/
def labelOf (b : UInt32) : Int := if b.toNat < 2147483648 then b.toNat else (b.toNat : Int) - 4294967296

/-- A point as the binary writer sees it. -/
def toRaw (p : Point) : BinaryIO.RawPoint := ⟨labelBits p.label, p.feats.map (·.1), p.feats.map fun f => toBits f.2⟩

/-- A point that the binary reader delivered. -/
def ofRaw (r : BinaryIO.RawPoint) : Point := ⟨labelOf r.label, r.indexes.zip (r.values.map ofBits)⟩

/-! ### Readers -/

/-- The formats of files. -/
inductive Format where
  | svm | csv | bin
deriving DecidableEq, Repr

/-- What the readers are registered as (without `_reader`), the arrays left out. -/
def formatNamed (type : List Char) : Option Format :=
  let t := type.map Char.toLower
  if t = "svm".toList then some .svm else if t = "csv".toList then some .csv else if t = "bin".toList then some .bin else none

/-- The names of the readers that read from memory. -/
def inMemory (type : List Char) : Bool := type.map Char.toLower == "numpy".toList || type.map Char.toLower == "csr_matrix".toList

/-- An opened reader: its format, the size of its buffer, and the rest of the file. -/
structure Opened where
  fmt : Format
  cap : Nat
  rest : File
deriving DecidableEq, Repr

/-- `DataReader::Create` and `Open`, as called by `AddReader` (data_reader.cc:20-23, 41-48, data_read_task.cc:14-28,
    data_iter.cc:65-78; buffer: data_reader.cc:28-32); `f`: the file, if it can be opened.  `none`: the reader cannot be added. -/
def addReader (type : List Char) (f : Option File) : Res (Option Opened) :=
  if inMemory type then .ub .outOfBounds
  else
    match formatNamed type, f with
    | none, _ => .ok none
    | some _, none => .ok none
    | some .csv, some f => do
      -- csv_reader.cc:19-26: opening reads the header
      let (s, _, cap, rest) ← csvOpen 4096 (chars f)
      if s = .ok then .ok (some ⟨.csv, cap, ofChars rest⟩) else .ok none
    | some fmt, some f => .ok (some ⟨fmt, 4096, f⟩)

/-- A point read from text, with its values as `float`.  (The points are sorted by their indexes after the conversion; the order
    does not depend on the values.) -/
def ofText (pw : Int → F32) (p : TextPoint) : Point := ⟨p.label, p.indexes.zip (p.values.map (floatOf pw))⟩

/-- `feat != 0` (csv_reader.cc:73) for the `float`. -/
def keepsF (pw : Int → F32) (d : NumericParser.Dec) : Bool := floatOf pw d != .fin 0

/-- `Next` of the svm and the csv reader. -/
def textNext (pw : Int → F32) (csv : Bool) (cap : Nat) (f : List Char) : Res (Status × TextPoint × Nat × List Char) :=
  if csv then csvNext (keepsF pw) cap f else svmNext cap f

/-- The loop of `DataReadTask::run` (data_read_task.cc:40-53) over a text file, for one pass: the points delivered, and the first
    status other than OK.  A call that takes nothing from the file counts as undefined here (it cannot happen). -/
def textAll (pw : Int → F32) (csv : Bool) (cap : Nat) (f : List Char) : Res (List Point × Status) :=
  match textNext pw csv cap f with
  | .ub k => .ub k
  | .ok (s, p, cap', rest) =>
    if s = .ok then
      if h : rest.length < f.length then
        match textAll pw csv cap' rest with
        | .ub k => .ub k
        | .ok (ps, s) => .ok (ofText pw p :: ps, s)
      else .ub .outOfBounds
    else .ok ([], s)
termination_by f.length

/-- What a reader delivers in one pass, and the status it ends with. -/
def contents (pw : Int → F32) (o : Opened) : Res (List Point × Status) :=
  match o.fmt with
  | .svm => textAll pw false o.cap (chars o.rest)
  | .csv => textAll pw true o.cap (chars o.rest)
  | .bin => do
    let (ps, s) ← BinaryIO.readAll o.rest
    .ok (ps.map ofRaw, s)

/-- The batches of one pass (data_read_task.cc:33-55): full ones, and a last one at the end of the file, which may be empty. -/
def batches {P : Type} (size : Nat) (pts : List P) : List (List P) :=
  if h : size = 0 ∨ pts.length < size then [pts] else pts.take size :: batches size (pts.drop size)
termination_by pts.length
decreasing_by
  simp only [List.length_drop]
  omega

/-! ### Writers -/

/-- A point as `%g` sees it. -/
def toOut (p : Point) : OutPoint := ⟨p.label, p.feats.map fun f => (f.1, fmtG f.2)⟩

/-- The bytes written by a `DataWriter` that was given `SetExtraInfo` (for csv only it matters, data_writer.h:60-62) and the points.
    A csv writer without that call uses an uninitialised dimension (csv_writer.h:36, csv_writer.cc:22, 29). -/
def render (fmt : Format) (w : Written F32) : Res File :=
  match fmt with
  | .svm => .ok (ofChars (w.points.flatMap fun p => svmWrite (toOut p)))
  | .bin => .ok (BinaryIO.writeAll (w.points.map toRaw))
  | .csv =>
    match w.extra with
    | some d => .ok (ofChars (csvHeader d.toNat ++ w.points.flatMap fun p => csvWrite d.toNat (toOut p)))
    | none => if w.points = [] then .ok [] else .ub .outOfBounds

/-! ### The tools -/

/-- What the operating system says. -/
structure Machine where
  /-- the contents of a file when it is read, `none` if it cannot be opened; `-` is the standard input -/
  reads : List Char → Option File
  /-- the same when it is opened for a second pass -/
  rereads : List Char → Option File
  /-- whether a file can be opened for writing -/
  writes : List Char → Bool

/-- How a tool ends: the status, and the files it wrote, in order. -/
structure Done where
  code : Int
  out : List (List Char × File)
deriving DecidableEq, Repr

/-- The number of a status (error_code.h:13-18). -/
def code : Status → Int
  | .ok => 0
  | .error => 1
  | .ioError => 2
  | .endOfFile => 3
  | .invalidArgument => 4
  | .invalidFormat => 5

/-- `convert` (tools.cc:101-169); `t`: the threshold, if the values are to be binarised. -/
def convert (pw : Int → F32) (m : Machine) (src srcType dst dstType : List Char) (t : Option F32) : Res Done := do
  let r ← addReader srcType (m.reads src)
  match r, formatNamed dstType with
  | none, _ => .ok ⟨code .invalidArgument, []⟩
  | some _, none => .ok ⟨code .invalidArgument, []⟩
  | some o, some fmt =>
    if !m.writes dst then .ok ⟨code .ioError, []⟩
    else do
      let (pts, _) ← contents pw o
      if dstType = "csv".toList then
        let d := dimLoop 0 (batches 256 pts)
        if d = 0 then do
          let f ← render fmt ⟨some d, []⟩
          .ok ⟨code .invalidFormat, [(dst, f)]⟩
        else do
          let r ← addReader srcType (m.rereads src)
          match r with
          | none => do
            let f ← render fmt ⟨some d, []⟩
            .ok ⟨code .invalidArgument, [(dst, f)]⟩
          | some o => do
            let (pts2, _) ← contents pw o
            let f ← render fmt (Tools.convert true t (batches 256 pts) (batches 256 pts2)).2
            .ok ⟨code .ok, [(dst, f)]⟩
      else do
        let f ← render fmt (Tools.convert false t [] (batches 256 pts)).2
        .ok ⟨code .ok, [(dst, f)]⟩

/-- `shuffle` (tools.cc:171-221); `choice`: the random numbers. -/
def shuffle (pw : Int → F32) (m : Machine) (choice : Nat → Nat) (src srcType dst dstType : List Char) : Res Done := do
  let dstType := if dstType = [] then srcType else dstType
  let r ← addReader srcType (m.reads src)
  match r, formatNamed dstType with
  | none, _ => .ok ⟨code .invalidArgument, []⟩
  | some _, none => .ok ⟨code .invalidArgument, []⟩
  | some o, some fmt =>
    if !m.writes dst then .ok ⟨code .ioError, []⟩
    else do
      let (pts, _) ← contents pw o
      let (d, l) := Tools.shuffle (batches 256 pts) choice
      let f ← render fmt ⟨some d, l⟩
      .ok ⟨code .ok, [(dst, f)]⟩

/-- The name of a fold's file (tools.cc:266-267). -/
def foldName (pre type : List Char) (i : Nat) : List Char := pre ++ Spec.decText i ++ '.' :: type

/-- The loop over the folds (tools.cc:260-283): the number of the fold, the files written before. -/
def foldFiles (m : Machine) (pre dstType : List Char) (fmt : Format) :
    Nat → List (UInt32 × List Point) → List (List Char × File) → Res Done
  | _, [], acc => .ok ⟨code .ok, acc⟩
  | i, (d, l) :: fs, acc =>
    if !m.writes (foldName pre dstType i) then .ok ⟨code .ioError, acc⟩
    else do
      let f ← render fmt ⟨some d, l⟩
      foldFiles m pre dstType fmt (i + 1) fs (acc ++ [(foldName pre dstType i, f)])

/-- `split` (tools.cc:223-285). -/
def split (pw : Int → F32) (m : Machine) (choice : Option (Nat → Nat)) (src srcType : List Char) (folds : Int) (pre dstType : List Char) :
    Res Done := do
  let r ← addReader srcType (m.reads src)
  match r with
  | none => .ok ⟨code .invalidArgument, []⟩
  | some o => do
    let (pts, _) ← contents pw o
    let fs ← Tools.split (batches 256 pts) folds choice
    match fs, formatNamed dstType with
    | [], _ => .ok ⟨code .ok, []⟩
    | _ :: _, none => .ok ⟨code .invalidArgument, []⟩
    | f :: fs, some fmt => foldFiles m pre dstType fmt 0 (f :: fs) []

/-- `AddReader` for each of the files (concat.cc:60-63, 78-81); `none`: one of them failed. -/
def addReaders (type : List Char) : List (Option File) → Res (Option (List Opened))
  | [] => .ok (some [])
  | f :: fs => do
    let r ← addReader type f
    match r with
    | none => .ok none
    | some o => do
      let r ← addReaders type fs
      .ok (r.map (o :: ·))

/-- What the readers deliver, one file after the other. -/
def contentsAll (pw : Int → F32) : List Opened → Res (List (List Point))
  | [] => .ok []
  | o :: os => do
    let (pts, _) ← contents pw o
    let l ← contentsAll pw os
    .ok (batches 256 pts ++ l)

/-- The main program of tools/concat.cc (lines 38-99). -/
def concat (pw : Int → F32) (m : Machine) (src srcType dst dstType : List Char) : Res Done :=
  match formatNamed dstType with
  | none => .ok ⟨code .invalidArgument, []⟩
  | some fmt =>
    if !m.writes dst then .ok ⟨code .ioError, []⟩
    else
      let paths := StrUtil.split ';' src
      if dstType = "csv".toList then do
        let r ← addReaders srcType (paths.map m.reads)
        match r with
        | none => .ok ⟨code .invalidArgument, [(dst, [])]⟩
        | some os => do
          let b ← contentsAll pw os
          let r ← addReaders srcType (paths.map m.rereads)
          match r with
          | none => do
            let f ← render fmt ⟨some (dimLoop 0 b), []⟩
            .ok ⟨code .invalidArgument, [(dst, f)]⟩
          | some os => do
            let b2 ← contentsAll pw os
            let f ← render fmt (Tools.concat true b b2).2
            .ok ⟨code .ok, [(dst, f)]⟩
      else do
        let r ← addReaders srcType (paths.map m.reads)
        match r with
        | none => .ok ⟨code .invalidArgument, [(dst, [])]⟩
        | some os => do
          let b ← contentsAll pw os
          let f ← render fmt (Tools.concat false [] b).2
          .ok ⟨code .ok, [(dst, f)]⟩

/-- The report of `analyze` (tools.cc:87-97); `pct`: the text of `%.2lf` for the sparsity. -/
def reportText (pct : Nat → Nat → List Char) (dim : Nat) (r : Report) : List Char :=
  "data number  : ".toList ++ Spec.decText r.num ++ '\n' ::
  ("feat number  : ".toList ++ Spec.decText r.featNum ++ '\n' ::
  ("dimension    : ".toList ++ Spec.decText r.dim.toNat ++ '\n' ::
  ("nonzero feat : ".toList ++ Spec.decText r.nonzero ++ '\n' ::
  ("class num    : ".toList ++ Spec.decText r.classes.length ++ '\n' ::
  ((if 0 < dim then "data sparsity: ".toList ++ pct r.nonzero dim ++ ['%', '\n'] else []) ++
    r.classes.flatMap fun c => "data number of class ".toList ++ Spec.intText c.1 ++ " : ".toList ++ Spec.decText c.2 ++ ['\n'])))))

/-- `analyze` (tools.cc:22-99). -/
def analyze (pw : Int → F32) (pct : Nat → Nat → List Char) (m : Machine) (src srcType dst : List Char) : Res Done := do
  let r ← addReader srcType (m.reads src)
  match r with
  | none => .ok ⟨code .invalidArgument, []⟩
  | some o => do
    let (pts, _) ← contents pw o
    let a ← Tools.tallyLoop ⟨0, 0, 0, [], []⟩ (batches 256 pts)
    let r ← Tools.analyze (batches 256 pts)
    if !m.writes dst then .ok ⟨code .ioError, []⟩
    else .ok ⟨code .ok, [(dst, ofChars (reportText pct a.dim r))]⟩

/-! ### Main programs -/

/-- `parser.get<float>(name)` if the option is given (converter.cc:35-38). -/
def realOf (s : Cmdline.St) (name : String) : Option F32 :=
  if s.exist name.toList = some true then
    match s.get name.toList with
    | some (.real x) => some x
    | _ => some 0
  else none

/-- A main program: the command line is checked, and the tool is called. -/
def mainOf (os : List Cmdline.Opt) (argv : List (List Char)) (k : Cmdline.St → Res Done) : Res Done :=
  match Cli.front os argv with
  | .exit c => .ok ⟨c, []⟩
  | .run s => k s

/-- tools/converter.cc -/
def converterMain (pw : Int → F32) (m : Machine) (argv : List (List Char)) : Res Done :=
  mainOf Cli.converterOpts argv fun s =>
    convert pw m (Cli.str s "input") (Cli.str s "input_type") (Cli.str s "output") (Cli.str s "output_type") (realOf s "binary_thresh")

/-- tools/shuffle.cc -/
def shuffleMain (pw : Int → F32) (m : Machine) (choice : Nat → Nat) (argv : List (List Char)) : Res Done :=
  mainOf Cli.shuffleOpts argv fun s =>
    shuffle pw m choice (Cli.str s "input") (Cli.str s "input_type") (Cli.str s "output") (Cli.str s "output_type")

/-- tools/split.cc -/
def splitMain (pw : Int → F32) (m : Machine) (choice : Nat → Nat) (argv : List (List Char)) : Res Done :=
  mainOf Cli.splitOpts argv fun s =>
    split pw m (if s.exist "shuffle".toList = some true then some choice else none) (Cli.str s "input") (Cli.str s "input_type")
      (Cli.num s "fold") (Cli.str s "output_prefix") (Cli.str s "output_type")

/-- tools/concat.cc -/
def concatMain (pw : Int → F32) (m : Machine) (argv : List (List Char)) : Res Done :=
  mainOf Cli.concatOpts argv fun s =>
    concat pw m (Cli.str s "input") (Cli.str s "input_type") (Cli.str s "output") (Cli.str s "output_type")

/-- tools/analyze.cc -/
def analyzeMain (pw : Int → F32) (pct : Nat → Nat → List Char) (m : Machine) (argv : List (List Char)) : Res Done :=
  mainOf Cli.analyzeOpts argv fun s => analyze pw pct m (Cli.str s "input") (Cli.str s "input_type") (Cli.str s "output")

end Sol.DataFile
