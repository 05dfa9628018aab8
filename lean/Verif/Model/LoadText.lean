import Verif.Model.Json
import Verif.Model.LoadLoop
import Verif.Model.Save
/-!
# Model of model files as text: `Model::Save` and `Model::Load` with the JSON text of the settings

Model/Save.lean has the settings as a tree; here they are text that is written and read by the functions of Model/Json.lean.
-/

namespace Sol.Json

/-- The members with their names. -/
def Members.toList : Members → List (List Char × Value)
  | .nil => []
  | .cons k v l => (k, v) :: l.toList

/-- The elements; `name()` of the iterator is empty for them (jsoncpp.cpp:2214-2220). -/
def Elems.toList : Elems → List (List Char × Value)
  | .nil => []
  | .cons v l => ([], v) :: l.toList

/-- What `begin()` to `end()` iterate over, with `name()` (jsoncpp.cpp:3657-3680): nothing for values that are no arrays or objects. -/
def pairs : Value → List (List Char × Value)
  | .obj l => l.toList
  | .arr l => l.toList
  | _ => []

end Sol.Json

namespace Sol.Params
open Sol.Json (Value Members)

/-- A value of the settings as it is stored in the tree. -/
def Tok.value : Tok → Value
  | .str s => .str s
  | .int n => .int n
  | .real x => .real x

/-- Members of an object, given in their order. -/
def members : List (List Char × Value) → Members
  | [] => .nil
  | (k, v) :: l => .cons k v (members l)

/-- The tree that `GetModelInfo` fills (model.cc:236-247, online_model.cc:201-213, regularizer.cc:28-30), in the order of the names. -/
def tree (f : File) : Value :=
  .obj (members
    ([("clf_num".toList, .int f.clfNum), ("cls_num".toList, .int f.clsNum), ("loss".toList, .str f.loss),
      ("model".toList, .str f.model), ("norm".toList, .int f.norm),
      ("online".toList, .obj (members (f.online.map fun p => (p.1.toList, p.2.value))))] ++
     match f.lambda with
     | none => []
     | some x => [("regularizer".toList, .obj (members [("lambda".toList, x.value)]))]))

/-- `Model::Save` (model.cc:160-177): the text of the file. -/
def saveText (m : M) : List Char :=
  "model info:\n".toList ++ (Json.write (tree (save m)) ++ ("model parameters:\n".toList ++ (save m).params))

/-- `root.get(name, dflt).asString()`; `none`: an exception. -/
def stringAt (name : String) (dflt root : Value) : Option (List Char) := (Json.get name.toList dflt root).bind Json.asString

/-- `root.get(name, dflt).asInt()`. -/
def intAt (name : String) (dflt root : Value) : Option Int := (Json.get name.toList dflt root).bind Json.asInt

/-- The loop over the settings of the regularizer (model.cc:270-277); an unknown name ends it. -/
def setReg (m : M) : List (List Char × Value) → M × End
  | [] => (m, .accepted)
  | (k, v) :: l =>
    match Json.asString v with
    | none => (m, .thrown)
    | some t =>
      match regSet m (String.ofList k) t with
      | none => (m, .accepted)
      | some r => andThen r fun m => setReg m l

/-- The settings of the regularizer (model.cc:267-278). -/
def setRegs (reg : Reg) (m : M) (root : Value) : M × End :=
  match Json.get "regularizer".toList .null root with
  | none => (m, .thrown)
  | some .null => (m, .accepted)
  | some r => if reg = .none then (m, .accepted) else setReg m (Json.pairs r)

/-- The loop over the online settings (online_model.cc:223-226). -/
def setEach (files : List Char → Option (List Char)) (m : M) : List (List Char × Value) → M × End
  | [] => (m, .accepted)
  | (k, v) :: l =>
    match Json.asString v with
    | none => (m, .thrown)
    | some t => andThen (set files m (String.ofList k) t) fun m => setEach files m l

/-- `Model::SetModelInfo` (model.cc:249-281); its status is not looked at. -/
def setInfo (files : List Char → Option (List Char)) (m : M) (root : Value) : M × End :=
  match stringAt "model" (.str []) root with
  | none => (m, .thrown)
  | some name =>
    if name ≠ (modelName m.cls).toList then (m, .accepted)
    else
      match intAt "cls_num" (.str []) root with
      | none => (m, .thrown)
      | some n =>
        if n ≠ m.classNum then (m, .accepted)
        else
          match intAt "clf_num" (.str []) root with
          | none => (m, .thrown)
          | some n =>
            if n ≠ m.clf then (m, .accepted)
            else
              match stringAt "loss" .null root with
              | none => (m, .thrown)
              | some loss =>
                andThen (if m.loss = none ∨ loss ≠ lossText m then set files m "loss" loss else (m, .accepted)) fun m1 =>
                  match stringAt "norm" .null root with
                  | none => (m1, .thrown)
                  | some norm =>
                    andThen (set files m1 "norm" norm) fun m2 => setRegs (regOf m.cls) m2 root

/-- `OnlineModel::SetModelInfo` after `Model::SetModelInfo` (online_model.cc:217-233). -/
def setOnline (files : List Char → Option (List Char)) (m : M) (root : Value) : M × End :=
  match Json.get "online".toList .null root with
  | none => (m, .thrown)
  | some .null => (m, .rejected)
  | some r => setEach files m (Json.pairs r)

/-- `Model::Load` from the parsed settings on (model.cc:206-234). -/
def loadRoot (files : List Char → Option (List Char)) (root : Value) (s : Stream) : Loaded :=
  match stringAt "model" (.str []) root with
  | none => .thrown
  | some name =>
    match intAt "cls_num" (.str ['0']) root with
    | none => .thrown
    | some n =>
      match classNamed name with
      | none => .null
      | some c =>
        match create c n with
        | none => .null
        | some m =>
          match andThen (setInfo files m root) fun m => setOnline files m root with
          | (m, .accepted) => .model (readParams m s)
          | (_, .rejected) => .null
          | (_, .thrown) => .thrown
          | (_, .undef k) => .undef k

/-- `Model::Load` (model.cc:179-234) of a file with the text `text`; `none` if it has not ended after `n` steps (of a loop).  `junk`
    is what the reader finds behind the end of the settings (see `Json.parse`). -/
def loadText (files : List Char → Option (List Char)) (n : Nat) (junk text : List Char) : Option Loaded :=
  match LoadLoop.collect n text with
  | none => none
  | some .invalid => some .null
  | some (.lines s) =>
    match Json.parse n s.out junk with
    | none => none
    | some .failed => some .null
    | some .thrown => some .thrown
    | some (.value root) => some (loadRoot files root (if s.ok then some s.rest else none))

end Sol.Params
