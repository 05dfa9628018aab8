import Verif.Model.Params
/-!
# Model of the model file: `GetModelInfo`, `SetModelInfo`, `GetModelParam`, `SetModelParam`, `Model::Save`, `Model::Load`

A model file has a first line, the settings as JSON text, the line "model parameters:" and the vectors as text.  The text of the
vectors is modelled as it is.  The JSON text is not modelled here: a file is the tree of settings that it stands for, and what happens
to a value on the way through the text is `Tok.text`.  Model/LoadText.lean has the text (external/json/jsoncpp.cpp, changed to print
real numbers with `%g`) and C46_text_partial shows that it makes no difference.  The loop that finds
the end of the JSON text is in Model/LoadLoop.lean.
-/

namespace Sol.Params
open Sol.Text Sol.FloatText Sol.PreProcess

/-- A value of the settings. -/
inductive Tok where
  | str (s : List Char)
  | int (n : Int)
  | real (x : F32)
deriving DecidableEq, Repr

/-- Decimal text of an integer (`valueToString`, jsoncpp.cpp:3950-3971). -/
def showInt (n : Int) : List Char := if n < 0 then '-' :: Nat.toDigits 10 n.natAbs else Nat.toDigits 10 n.natAbs

/-- `norm_type_` as a number (model.cc:241). -/
def normNum : Norm → Int
  | .none => 0
  | .l1 => 1
  | .l2 => 2

/-- Settings of all online models (online_model.cc:201-213). -/
def common (m : M) (k : String) : Option Tok :=
  if k = "bias_eta" then some (.real m.biasEta)
  else if k = "t" then some (.int m.t)
  else if k = "dim" then some (.int m.dim)
  else if k = "lazy_update" then some (.str (if m.lazy then "true".toList else "false".toList))
  else if k = "active_smoothness" then (if (1 : F32) ≤? m.smooth then some (.real m.smooth) else none)
  else if k = "cost_margin" then (if m.costSensitive then some (.real m.cost) else none)
  else none

/-- Settings that the class adds (ogd.cc:45-49, 133-136; pa.cc:53-56, 79-82; alma2.cc:90-96; arow.cc:89-92; cw.cc:119-123;
    eccw.cc:129-133; rda.cc:81-84, 176-179; sop.cc:89-92; ada_fobos.cc:70-74; ada_rda.cc:92-96; fofs.cc:107-112). -/
def own (m : M) (k : String) : Option Tok :=
  match m.cls with
  | .ogd | .fobosL1 | .pet =>
    if k = "power_t" then some (.real m.powerT) else if k = "eta" then some (.real m.eta) else none
  | .stg =>
    if k = "power_t" then some (.real m.powerT) else if k = "eta" then some (.real m.eta)
    else if k = "k" then some (.int m.k) else none
  | .pa1 | .pa2 => if k = "C" then some (.real m.C) else none
  | .alma2 =>
    if k = "p" then some (.int m.p) else if k = "alpha" then some (.real m.alpha) else if k = "C" then some (.real m.C)
    else if k = "k" then some (.int m.k) else none
  | .arow | .sofs => if k = "r" then some (.real m.r) else none
  | .cw | .eccw => if k = "a" then some (.real m.a) else if k = "phi" then some (.real m.phi) else none
  | .rda | .rdaL1 => if k = "sigma" then some (.real m.sigma) else none
  | .erdaL1 => if k = "sigma" then some (.real m.sigma) else if k = "rou" then some (.real m.rou) else none
  | .sop => if k = "a" then some (.real m.a) else none
  | .adaFobos | .adaFobosL1 | .adaFobosOfs | .adaRda | .adaRdaL1 | .adaRdaOfs =>
    if k = "delta" then some (.real m.delta) else if k = "eta" then some (.real m.eta) else none
  | .fofs =>
    if k = "eta" then some (.real m.eta) else if k = "lambda" then some (.real m.fofsLambda)
    else if k = "B" then some (.int m.fofsB) else none
  | .perceptron | .pa => none

/-- `root["online"][k]`. -/
def online (m : M) (k : String) : Option Tok :=
  match common m k with
  | some x => some x
  | none => own m k

/-- `root["loss"]` (model.cc:240). -/
def lossText (m : M) : List Char :=
  match m.loss with
  | some k => (lossName k).toList
  | none => []

/-- Everything that `GetModelInfo` reports, by name (model.cc:236-247, regularizer.cc:28-30; as `sol_GetModelParameters` lists
    it, c_api.cc:75-95). -/
def info (m : M) (k : String) : Option Tok :=
  if k = "model" then some (.str (modelName m.cls).toList)
  else if k = "cls_num" then some (.int m.classNum)
  else if k = "clf_num" then some (.int m.clf)
  else if k = "loss" then some (.str (lossText m))
  else if k = "norm" then some (.int (normNum m.norm))
  else if k = "lambda" ∧ regOf m.cls ≠ .none then some (.real m.lambda)
  else online m k

/-- The names under "online" in the order of `Json::Value`'s map (by character code). -/
def keys : List String :=
  ["B", "C", "a", "active_smoothness", "alpha", "bias_eta", "cost_margin", "delta", "dim", "eta", "k", "lambda", "lazy_update",
   "p", "phi", "power_t", "r", "rou", "sigma", "t"]

/-- The text that `asString` gives for a value after it was written to a file and read back (jsoncpp.cpp:3986-4021 and 736-800);
    `none` if the file cannot be parsed.  An integer is printed and read exactly.  A real number is printed with six digits; the
    text read back is a whole number or a `double`, and both print as the same text again.  NaN is printed as `null`, whose string
    is empty.  Infinities are printed as 1e+9999, which no `double` can hold. -/
def Tok.text : Tok → Option (List Char)
  | .str s => some s
  | .int n => some (showInt n)
  | .real (.fin q) => some (put (.fin q))
  | .real .nan => some []
  | .real _ => none

/-- `os << vec` (matrix.h:192-205). -/
def vecText (v : List F32) : List Char :=
  if v = [] then "[]".toList else "\n[ ".toList ++ v.flatMap (fun x => put x ++ [' ']) ++ "]".toList

/-- `os << "name[" << c << "]sep" << vec << "\n"` for the vectors numbered from `c`. -/
def vecsText (name sep : String) : Nat → List (List F32) → List Char
  | _, [] => []
  | c, v :: vs =>
    name.toList ++ "[".toList ++ showInt c ++ "]".toList ++ sep.toList ++ vecText v ++ "\n".toList ++ vecsText name sep (c + 1) vs

/-- The name of `scale` in the file. -/
def scaleName : Cls → String
  | .arow => "Sigma"
  | .sofs => "Sigma"
  | .cw => "Sigma"
  | .eccw => "Sigma"
  | _ => "H"

/-- `GetModelParam` (online_linear_model.cc:152-156, arow.cc:94-100, cw.cc:125-131, eccw.cc:135-141, rda.cc:86-92, sop.cc:94-101,
    ada_fobos.cc:76-82, ada_rda.cc:98-108). -/
def paramText (m : M) : List Char :=
  vecsText "weight" ":" 0 m.w ++
    ((if hasScale m.cls then vecsText (scaleName m.cls) ": " 0 m.scale else []) ++
      ((if m.cls = .sop then "X: ".toList ++ vecText m.X ++ "\n".toList else []) ++
        (if hasSum m.cls then vecsText (if m.cls = .sop then "v" else "ut") ": " 0 m.sum else [])))

/-- An input stream: what is left to read; `none` after a failure. -/
abbrev Stream := Option (List Char)

/-- `is >> word`. -/
def readWord : Stream → Stream
  | none => none
  | some s =>
    let t := s.dropWhile isSpace
    if t = [] then none else some (t.dropWhile fun c => !isSpace c)

/-- `is.ignore(max, c)`. -/
def ignoreTo (c : Char) : Stream → Stream
  | none => none
  | some s => some ((s.dropWhile fun d => d != c).drop 1)

/-- The loop of `is >> *pdata++`.  A failure stores 0 (the largest number for a number that is too large is also modelled as 0),
    unless the text has ended; later values stay as they are. -/
def readNums : List F32 → Stream → List F32 × Stream
  | [], s => ([], s)
  | v :: vs, none => (v :: vs, none)
  | v :: vs, some s =>
    match readFloat s with
    | some (x, rest) =>
      let (xs, s) := readNums vs (some rest)
      (x :: xs, s)
    | none => ((if s.dropWhile isSpace = [] then v else 0) :: vs, none)

/-- `is >> vec` (matrix.h:207-218). -/
def readVec (v : List F32) (s : Stream) : List F32 × Stream :=
  let (v, s) := readNums v (ignoreTo '[' s)
  (v, ignoreTo '\n' (ignoreTo ']' s))

/-- `is >> line >> vec` for a list of vectors. -/
def readVecs : List (List F32) → Stream → List (List F32) × Stream
  | [], s => ([], s)
  | v :: vs, s =>
    let (v, s) := readVec v (readWord s)
    let (vs, s) := readVecs vs s
    (v :: vs, s)

/-- `SetModelParam` (online_linear_model.cc:158-164 and the classes' own).  It always returns `Status_OK`. -/
def readParams (m : M) (s : Stream) : M :=
  let (w, s) := readVecs m.w s
  let (scale, s) := if hasScale m.cls then readVecs m.scale s else (m.scale, s)
  let (X, s) := if m.cls = .sop then readVec m.X (readWord s) else (m.X, s)
  let (sum, _) := if hasSum m.cls then readVecs m.sum s else (m.sum, s)
  { m with w := w, scale := scale, X := X, sum := sum }

/-- A model file. -/
structure File where
  model : List Char
  clsNum : Int
  clfNum : Int
  loss : List Char
  norm : Int
  /-- `root["regularizer"]["lambda"]` -/
  lambda : Option Tok
  /-- `root["online"]` in the order of its names -/
  online : List (String × Tok)
  /-- the text after the line "model parameters:" -/
  params : List Char
deriving DecidableEq, Repr

/-- `Model::Save` (model.cc:160-177). -/
def save (m : M) : File where
  model := (modelName m.cls).toList
  clsNum := m.classNum
  clfNum := m.clf
  loss := lossText m
  norm := normNum m.norm
  lambda := if regOf m.cls = .none then none else some (.real m.lambda)
  online := keys.filterMap fun k => (online m k).map fun x => (k, x)
  params := paramText m

/-- All classes. -/
def classes : List Cls :=
  [.perceptron, .ogd, .stg, .fobosL1, .pet, .pa, .pa1, .pa2, .alma2, .arow, .sofs, .cw, .eccw, .rda, .rdaL1, .erdaL1, .sop,
   .adaFobos, .adaFobosL1, .adaFobosOfs, .adaRda, .adaRdaL1, .adaRdaOfs, .fofs]

/-- The class that `CreateObject` finds. -/
def classNamed (v : List Char) : Option Cls := classes.find? fun c => (modelName c).toList == v.map Char.toLower

/-- How `Model::Load` ends. -/
inductive Loaded where
  | model (m : M)
  /-- a null pointer -/
  | null
  /-- an exception other than `std::invalid_argument` leaves the function -/
  | thrown
  | undef (k : UB)
deriving DecidableEq, Repr

/-- `SetParameter` for all values of a list, in order. -/
def setAll (files : List Char → Option (List Char)) (m : M) : List (String × List Char) → M × End
  | [] => (m, .accepted)
  | (k, v) :: l => andThen (set files m k v) fun m => setAll files m l

/-- The values that can be read back. -/
def texts : List (String × Tok) → Option (List (String × List Char))
  | [] => some []
  | (k, x) :: l =>
    match x.text, texts l with
    | some v, some vs => some ((k, v) :: vs)
    | _, _ => none

/-- `Model::SetModelInfo` (model.cc:249-281).  The status it returns is not looked at (online_model.cc:216). -/
def setModelInfo (files : List Char → Option (List Char)) (m : M) (f : File) (lambda : Option (List Char)) : M × End :=
  if f.model = (modelName m.cls).toList ∧ f.clsNum = m.classNum ∧ f.clfNum = m.clf then
    andThen (if m.loss = none ∨ f.loss ≠ lossText m then set files m "loss" f.loss else (m, .accepted)) fun m =>
      andThen (set files m "norm" (showInt f.norm)) fun m =>
        match lambda with
        | none => (m, .accepted)
        | some v => (regSet m "lambda" v).getD (m, .accepted)
  else (m, .accepted)

/-- `Model::Load` after the settings were collected (model.cc:206-234, online_model.cc:215-233). -/
def load (files : List Char → Option (List Char)) (f : File) : Loaded :=
  match texts f.online, f.lambda.map Tok.text with
  | none, _ => .null
  | _, some none => .null
  | some vs, lambda =>
    match classNamed f.model with
    | none => .null
    | some c =>
      match create c f.clsNum with
      | none => .null
      | some m =>
        match andThen (setModelInfo files m f lambda.join) fun m => setAll files m vs with
        | (m, .accepted) => .model (readParams m (some f.params))
        | (_, .rejected) => .null
        | (_, .thrown) => .thrown
        | (_, .undef k) => .undef k

end Sol.Params
