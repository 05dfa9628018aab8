import Verif.Props.Accepted
import Verif.Props.LoadText
import Verif.Props.Params
/-!
# C46, C48, C56: concrete models of every class
-/

namespace Sol.Props
open Sol.Params Sol.Spec Sol.FloatText Sol.Text

/-- Settings of every class: name and text, the name it is reported under and what is reported. -/
def given : Cls → List (String × String × String × Tok)
  | .perceptron => [("loss", "uniform-bool", "loss", .str "uniform-bool".toList), ("norm", "L2", "norm", .int 2)]
  | .ogd => [("power_t", "0.25", "power_t", .real (.fin (1 / 4))), ("eta", "3", "eta", .real (.fin 3)),
      ("loss", "maxscore-logistic", "loss", .str "maxscore-logistic".toList)]
  | .stg => [("power_t", "1", "power_t", .real (.fin 1)), ("eta", "0.5", "eta", .real (.fin (1 / 2))), ("k", "7", "k", .int 7),
      ("lambda", "0.125", "lambda", .real (.fin (1 / 8)))]
  | .fobosL1 => [("power_t", "1", "power_t", .real (.fin 1)), ("eta", "0.5", "eta", .real (.fin (1 / 2))),
      ("lambda", "2", "lambda", .real (.fin 2)), ("norm", "1", "norm", .int 1)]
  | .pet => [("power_t", "1", "power_t", .real (.fin 1)), ("eta", "0.5", "eta", .real (.fin (1 / 2))), ("B", "20", "lambda", .real (.fin 20))]
  | .pa => [("loss", "uniform-hinge", "loss", .str "uniform-hinge".toList)]
  | .pa1 => [("C", "8", "C", .real (.fin 8))]
  | .pa2 => [("C", "1e3", "C", .real (.fin 1000))]
  | .alma2 => [("p", "4", "p", .int 4), ("alpha", "0.5", "alpha", .real (.fin (1 / 2))), ("C", "2", "C", .real (.fin 2)), ("k", "3", "k", .int 3)]
  | .arow => [("r", "16", "r", .real (.fin 16)), ("loss", "uniform-hinge", "loss", .str "uniform-hinge".toList)]
  | .sofs => [("r", "0.75", "r", .real (.fin (3 / 4))), ("lambda", "9", "lambda", .real (.fin 9))]
  | .cw => [("phi", "2", "phi", .real (.fin 2)), ("loss", "uniform-hinge", "loss", .str "uniform-hinge".toList)]
  | .eccw => [("phi", "-1.5", "phi", .real (.fin (-3 / 2)))]
  | .rda => [("sigma", "4", "sigma", .real (.fin 4))]
  | .rdaL1 => [("sigma", "4", "sigma", .real (.fin 4)), ("lambda", "0", "lambda", .real 0)]
  | .erdaL1 => [("sigma", "4", "sigma", .real (.fin 4)), ("rou", "6", "rou", .real (.fin 6)), ("lambda", "5", "lambda", .real (.fin 5))]
  | .sop => [("a", "11", "a", .real (.fin 11)), ("loss", "uniform-bool", "loss", .str "uniform-bool".toList)]
  | .adaFobos => [("eta", "0.25", "eta", .real (.fin (1 / 4)))]
  | .adaFobosL1 => [("eta", "0.25", "eta", .real (.fin (1 / 4))), ("lambda", "3", "lambda", .real (.fin 3))]
  | .adaFobosOfs => [("eta", "0.25", "eta", .real (.fin (1 / 4))), ("B", "3", "lambda", .real (.fin 3))]
  | .adaRda => [("eta", "0.25", "eta", .real (.fin (1 / 4)))]
  | .adaRdaL1 => [("eta", "0.25", "eta", .real (.fin (1 / 4))), ("lambda", "3", "lambda", .real (.fin 3))]
  | .adaRdaOfs => [("eta", "0.25", "eta", .real (.fin (1 / 4))), ("B", "3", "lambda", .real (.fin 3))]
  | .fofs => [("eta", "0.25", "eta", .real (.fin (1 / 4))), ("lambda", "0.5", "lambda", .real (.fin (1 / 2))), ("B", "5", "B", .int 5)]

/-- Settings that all classes have. -/
def common3 : List (String × String × String × Tok) :=
  [("bias_eta", "0.5", "bias_eta", .real (.fin (1 / 2))), ("t", "12", "t", .int 12), ("lazy_update", "true", "lazy_update", .str "true".toList),
   ("active_smoothness", "1", "active_smoothness", .real 1), ("dim", "4", "dim", .int 4), ("norm", "2", "norm", .int 2)]

/-- Settings that also fill the variances of the features. -/
def filled : List (Cls × String × String × Tok) :=
  [(.cw, "a", "8", .real (.fin 8)), (.eccw, "a", "0.5", .real (.fin (1 / 2))), (.adaFobos, "delta", "2", .real (.fin 2)),
   (.adaFobosL1, "delta", "2", .real (.fin 2)), (.adaFobosOfs, "delta", "2", .real (.fin 2)), (.adaRda, "delta", "2", .real (.fin 2)),
   (.adaRdaL1, "delta", "2", .real (.fin 2)), (.adaRdaOfs, "delta", "2", .real (.fin 2))]

/-- A trained model with three classes and a dimension of 3. -/
def trained (c : Cls) : M :=
  { fresh c 3 with
    dim := 3, w := [[1, .fin (-2), 0], [.fin (1 / 4), .fin 5, .fin 6], [.fin 7, .fin (1 / 64), .fin 9]],
    scale := if hasScale c then [[.fin 11, .fin 12, .fin 13], [.fin 14, .fin 15, .fin 16], [.fin 17, .fin 18, .fin 19]] else [],
    sum := if hasSum c then [[.fin 21, .fin 22, .fin 23], [.fin 24, .fin 25, .fin 26], [.fin 27, .fin 28, .fin 29]] else [],
    X := if c = .sop then [.fin 31, .fin 32, .fin 33] else [],
    fofsB := if c = .fofs then 2 else 0 }

/-- All names that settings are reported under. -/
def reported : List String := ["model", "cls_num", "clf_num", "loss", "norm"] ++ keys

/-- The weights and the other vectors are the same, but for new ones at the end. -/
def Longer (m m' : M) : Prop :=
  m'.w = m.w.map (growTo m'.dim 0) ∧ m'.sum = m.sum.map (growTo m'.dim 0) ∧ m'.X = (if m.X = [] then [] else growTo m'.dim 0 m.X) ∧
    m'.scale = m.scale.map (growTo m'.dim (newScale m))

instance (m m' : M) : Decidable (Longer m m') := inferInstanceAs (Decidable (_ ∧ _))

/-- The setting is accepted and reported, and no other setting changes. -/
def Takes (m : M) (name text key : String) (x : Tok) : Prop :=
  (set noFiles m name text.toList).2 = .accepted ∧ info (set noFiles m name text.toList).1 key = some x ∧
    ∀ k ∈ reported, k = key ∨ info (set noFiles m name text.toList).1 k = info m k

instance (m : M) (name text key : String) (x : Tok) : Decidable (Takes m name text key x) := inferInstanceAs (Decidable (_ ∧ _))

/-- Every class takes its settings. -/
theorem C56_instance_all :
    (∀ c ∈ classes, ∀ e ∈ given c ++ common3, Takes (trained c) e.1 e.2.1 e.2.2.1 e.2.2.2 ∧
      Longer (trained c) (set noFiles (trained c) e.1 e.2.1.toList).1) ∧
    (∀ e ∈ filled, Takes (trained e.1) e.2.1 e.2.2.1 e.2.1 e.2.2.2 ∧
      (set noFiles (trained e.1) e.2.1 e.2.2.1.toList).1.w = (trained e.1).w) := by
  decide +kernel

/-- A model with all settings of its class. -/
def dressed (c : Cls) : M := (setAll noFiles (trained c) ((given c ++ common3).map fun e => (e.1, e.2.1.toList))).1

/-- A model of every class is loaded as it was saved (the constant sqrt 2 of a new ALMA2 has more than six digits). -/
theorem C46_instance_all :
    (∀ c ∈ classes, c = .alma2 ∨ loadText noFiles 3000 [] (saveText (trained c)) = some (.model (trained c))) ∧
    (∀ c ∈ classes, ∀ e ∈ given c ++ common3, info (dressed c) e.2.2.1 = some e.2.2.2 ∨ e.1 = "norm") ∧
    (∀ c ∈ classes, loadText noFiles 3000 [] (saveText (dressed c)) = some (.model (dressed c))) ∧
    loadedWeights (load noFiles (save (weighted [.fin 999999, .fin (1999999 / 2), .fin (19999999 / 32), .fin (8388608 * 2)]))) =
      some [[.fin 999999, .fin 1000000, .fin 625000, .fin 16777200]] := by
  decide +kernel

/-- Values that a class rejects, with the variable that changes all the same. -/
def refused : List (Cls × String × String × (M → M)) :=
  [(.ogd, "power_t", "-0.5", id), (.pet, "power_t", "x", id), (.stg, "k", "0", fun m => { m with k := 0 }), (.stg, "k", "", id),
   (.alma2, "alpha", "1.5", fun m => { m with alpha := .fin (3 / 2) }), (.alma2, "k", "-3", fun m => { m with k := -3 }),
   (.rda, "sigma", "0", fun m => { m with sigma := 0 }), (.erdaL1, "rou", "-1", fun m => { m with rou := .fin (-1) }),
   (.adaRda, "delta", "-1", fun m => { m with delta := .fin (-1) }), (.fofs, "lambda", "-1", fun m => { m with fofsLambda := .fin (-1) }),
   (.fofs, "B", "0", fun m => { m with fofsB := 0 }), (.pa1, "power_t", "1", id), (.pa1, "C", "c", id), (.arow, "r", "-", id),
   (.cw, "a", ".", id), (.perceptron, "lambda", "1", id), (.sop, "norm", "3", id), (.eccw, "t", "-1", id), (.ogd, "cls_num", "4", id),
   (.ogd, "clf_num", "2", id), (.ogd, "model", "OGD", id), (.rdaL1, "t0", "4", id), (.pet, "sparse_thresh", "4", id), (.ogd, "B", "4", id)]

theorem C48_instance_all : ∀ e ∈ refused, set noFiles (trained e.1) e.2.1 e.2.2.1.toList = (e.2.2.2 (trained e.1), .rejected) := by
  decide +kernel

end Sol.Props
