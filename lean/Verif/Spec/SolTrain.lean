import Verif.Model.SolTrain
import Verif.Spec.ParamOrder
import Verif.Spec.PyCv
import Verif.Spec.DataSet
import Verif.Spec.StrUtil
/-!
# Specification of training with Python: what can be read back, and settings that do not touch each other
-/

namespace Sol.Spec
open Sol.Params Sol.SolTrain

variable {V : Type}

/-- The text does not look like the line with the best result. -/
def Unlike (text : List Char) : Prop := ¬ "Best Result: {".toList <:+: text

/-- Python writes these dictionaries between braces on one line, and reads them back; `%.4f` is made of digits, a dot and a sign; no
    text has other characters than those of ASCII, or looks like the line with the best result. -/
structure Legible (st : Style V) (g : List (String × List V)) (P : Cv.Dict V → Prop) : Prop where
  braces : ∀ d, P d → ∃ b, st.dict d = '{' :: (b ++ ['}'])
  line : ∀ d, P d → '\n' ∉ st.dict d
  back : ∀ d, P d → st.literal (st.dict d) = some d
  nums : ∀ x, ∀ c ∈ st.num x, c.isDigit = true ∨ c = '.' ∨ c = '-'
  unlike : ∀ d, P d → Unlike (st.dict d)
  unlikeGrid : Unlike (st.grid g)
  ascii : ∀ d, P d → Ascii (st.dict d)
  asciiGrid : Ascii (st.grid g)

/-- The names are different parameters of the class. -/
def Apart (c : Cls) (names : List String) : Prop := (names.map (slotOf c)).Nodup

/-- The folds of the data set in binary files: every point is in one of them. -/
def SplitInto (pw : Int → F32) (writes : List Char → Bool) (ds : DataSet.DataSet) (pts : List (Tools.Pt F32)) (n : Nat) (choice : Nat → Nat)
    (fs : DataSet.Files) (parts : List (List (Tools.Pt F32))) : Prop :=
  parts.length = n ∧ parts.flatten.Perm pts ∧ ∃ ds' fs', ds.splitFile pw writes n (some "bin".toList) choice fs = .ok (.gives ds' fs') ∧
    ∀ (i : Nat) p, parts[i]? = some p → ∃ f, fs' (foldAt ds.foldPrefix .bin i) = some f ∧ ReadsAs pw (typeName .bin) f p .endOfFile

variable [Loss.FFun F32]

/-- What the calls of `train` should have done with the model `m`: it is trained on the points like `sol_train` does; the rate of mistakes
    is returned; the file is the text of the trained model. -/
def TrainedOn (powf : F32 → F32 → F32) (ρ : Nat → F32) (d : Train.Disp) (W : Whole.World) (m : M) (pts : List DataFile.Point) (passes : Nat)
    (output : Option (List Char)) (e : Res (PySol.Py × List PySol.Ret)) : Prop :=
  ∃ m' s x rs, Whole.trainModel powf ρ d m [lessons pts .endOfFile passes] = .ok m' ∧ e = .ok (s, .rate x :: rs) ∧
    RateOfAll powf ρ d m [lessons pts .endOfFile passes] x ∧
    (output = none → rs = []) ∧ ∀ p, output = some p → ∃ r, rs = [r] ∧ Tells W m' (.save p) [] r

end Sol.Spec
