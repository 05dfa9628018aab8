import Verif.Model.PySol
import Verif.Spec.Whole
/-!
# Specification of the Python objects: what the calls of a session are about
-/

namespace Sol.Spec
open Sol.Params Sol.Online Sol.Loss Sol.Whole Sol.PySol

variable [FFun F32]

/-- The file can be opened and gives these examples in so many passes. -/
def FileGives (pw : Int → F32) (W : World) (path fmt : List Char) (passes : Int) (l : List (Ex F32)) : Prop :=
  ∃ f, W.reads path = some f ∧
    ((passes ≤ 0 ∧ l = [] ∧ ∃ o, DataFile.addReader fmt (some f) = .ok (some o)) ∨
      (0 < passes ∧ ∃ pts st, ReadsAs pw fmt f pts st ∧ l = lessons pts st passes))

/-- The examples of the file that is named in the call. -/
def OpGives (pw : Int → F32) (W : World) : Op → List (Ex F32) → Prop
  | .fit p f n, l => FileGives pw W p f n l
  | .score p f, l => FileGives pw W p f 1 l
  | .predict p f, l => FileGives pw W p f 1 l
  | _, l => l = []

/-- Training calls. -/
def isFit : Op → Bool
  | .fit _ _ _ => true
  | _ => false

/-- The examples of the training calls. -/
def taught (ops : List (Op × List (Ex F32))) : List (List (Ex F32)) := (ops.filter fun p => isFit p.1).map (·.2)

/-- The classes that have nothing to do at the end of a training. -/
def settled : List Cls :=
  [.perceptron, .ogd, .pa, .pa1, .pa2, .alma2, .arow, .cw, .eccw, .adaFobos, .pet, .fofs, .sofs, .adaFobosOfs]

/-- Sessions in which the training calls follow each other, and the model is not saved right after the last of them. -/
def InOneGo (ops : List Op) : Prop :=
  ∃ a b e, ops = a ++ b ++ e ∧ (∀ o ∈ a, isFit o = false) ∧ (∀ o ∈ b, isFit o = true) ∧ (∀ o ∈ e, isFit o = false) ∧
    ∀ p, e.head? ≠ some (.save p)

/-- The model that a single training on all these examples makes; without training calls, the model itself. -/
def TaughtAll (powf : F32 → F32 → F32) (ρ : Nat → F32) (d : Train.Disp) (m : M) (ls : List (List (Ex F32))) (m' : M) : Prop :=
  (ls = [] ∧ m' = m) ∨ (ls ≠ [] ∧ trainModel powf ρ d m [ls.flatten] = .ok m')

/-- The error rate that a single training on all these examples reports in the end. -/
def RateOfAll (powf : F32 → F32 → F32) (ρ : Nat → F32) (d : Train.Disp) (m : M) (ls : List (List (Ex F32))) (x : F32) : Prop :=
  ∃ k, ∃ K : AnyKit, ∃ s q, m.loss = some k ∧ kitOf powf m = .ok K ∧ K.2.begin (cfgOf m k) (startSt m K.2.first) = .ok s ∧
    Train.train K.2.G (cfgOf m k) ⟨m.sel, m.norm⟩ ρ s d [ls.flatten] = .ok q ∧ q.2.2.2 = x

/-- What a call that does not train should tell about the model `m`. -/
def Tells (W : World) (m : M) : Op → List (Ex F32) → Ret → Prop
  | .score _ _, l, r => ∃ rows x, testModel m [l] = .ok (rows, x) ∧ r = .rate x
  | .predict _ _, l, r => ∃ rows x, testModel m [l] = .ok (rows, x) ∧ r = .rows rows
  | .sparsity, _, r => r = .weights ((m.w.map fun w => w.tail).flatten.countP fun v => !(v =? 0)) (vectors m.classNum * (m.dim - 1))
  | .save p, _, r => (W.writes p = true ∧ ∃ f, r = .saved f ∧ DataFile.chars f = saveText m) ∨ (W.writes p = false ∧ r = .unsaved)
  | .fit _ _ _, _, _ => False

/-- What the call should return after these calls. -/
def Answers (powf : F32 → F32 → F32) (ρ : Nat → F32) (d : Train.Disp) (W : World) (m : M) (before : List (Op × List (Ex F32))) (op : Op)
    (l : List (Ex F32)) (r : Ret) : Prop :=
  if isFit op then ∃ x, r = .rate x ∧ RateOfAll powf ρ d m (taught before ++ [l]) x
  else ∃ m', TaughtAll powf ρ d m (taught before) m' ∧ Tells W m' op l r

end Sol.Spec
