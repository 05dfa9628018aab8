import Verif.Model.Save
import Verif.Spec.FloatText
/-!
# Models that can be saved and loaded
-/

namespace Sol.Spec
open Sol.Params

/-- A finite value. -/
def Finite (x : F32) : Prop := ∃ q, x = .fin q ∧ Single q

/-- A finite value that is not tiny. -/
def Ordinary (x : F32) : Prop := ∃ q, x = .fin q ∧ Single q ∧ (q = 0 ∨ (2 : ℚ) ^ (-125 : ℤ) ≤ |q|)

/-- The class admits the loss. -/
def Admits (c : Cls) (classNum : Int) (k : Loss.Kind) : Prop :=
  (if classNum = 2 then isBC k = true else isMC k = true) ∧
  (c ∈ [Cls.alma2, .arow, .sofs, .cw, .eccw] → isHinge k = true) ∧
  (c ∈ [Cls.perceptron, .sop] → isBool k = true)

/-- The vectors are there and have one element per dimension. -/
structure Shaped (m : M) : Prop where
  dim : 1 ≤ m.dim
  w : m.w.map List.length = List.replicate (vectors m.classNum) m.dim
  scale : m.scale.map List.length = if hasScale m.cls then List.replicate (vectors m.classNum) m.dim else []
  sum : m.sum.map List.length = if hasSum m.cls then List.replicate (vectors m.classNum) m.dim else []
  X : m.X.length = if m.cls = .sop then m.dim else 0

/-- The values that the parameters' checks admit, with ordinary numbers, and finite vectors of the model's dimension. -/
structure Savable (m : M) : Prop where
  classNum : 1 < m.classNum
  loss : ∃ k, m.loss = some k ∧ Admits m.cls m.classNum k
  norm : m.cls = .alma2 → m.norm = .l2
  t : 0 ≤ m.t ∧ m.t ≤ 2147483647
  dim : m.dim ≤ 2147483647
  ordinary : ∀ k x, info m k = some (.real x) → Ordinary x
  bias : (0 : F32) ≤? m.biasEta
  cost : m.costSensitive = true → m.classNum = 2 ∧ (0 : F32) <? m.cost
  eta : (0 : F32) ≤? m.eta
  powerT : (0 : F32) ≤? m.powerT
  delta : (0 : F32) <? m.delta
  sigma : (0 : F32) <? m.sigma
  rou : (0 : F32) ≤? m.rou
  alpha : (0 : F32) <? m.alpha ∧ m.alpha ≤? (1 : F32)
  fofsLambda : (0 : F32) ≤? m.fofsLambda
  k : 0 < m.k ∧ m.k ≤ 2147483647
  p : -2147483648 < m.p ∧ m.p ≤ 2147483647
  fofsB : m.cls = .fofs → 0 < m.fofsB ∧ m.fofsB ≤ 2147483647
  shape : Shaped m
  vectors : (∀ v ∈ m.w, ∀ x ∈ v, Finite x) ∧ (∀ v ∈ m.scale, ∀ x ∈ v, Finite x) ∧ (∀ v ∈ m.sum, ∀ x ∈ v, Finite x) ∧
    ∀ x ∈ m.X, Finite x

/-- There are time stamps of the regularizer, of at most the model's dimensions. -/
def Stamped (m : M) : Prop := 1 ≤ m.lastTime.length ∧ m.lastTime.length ≤ m.dim

/-- What training may change: the counters (`k_` of ALMA2 is one, alma2.cc:85), the dimension and the vectors, which keep their
    shape. -/
def Trained (m m' : M) : Prop :=
  Shaped m' ∧ 0 ≤ m'.t ∧ 0 < m'.k ∧ (m.cls ≠ .alma2 → m'.k = m.k) ∧ (Stamped m → Stamped m') ∧
  m' = { m with t := m'.t, reinit := m'.reinit, dim := m'.dim, lastTime := m'.lastTime, w := m'.w, scale := m'.scale, sum := m'.sum,
                X := m'.X, k := m'.k }

/-- The states that a new model gets into by accepted parameters and by training. -/
inductive Reached (files : List Char → Option (List Char)) : M → Prop
  | new {c : Cls} {n : Int} {m : M} (h : create c n = some m) : Reached files m
  | set {m : M} {name : String} {v : List Char} (h : Reached files m) (ha : (Params.set files m name v).2 = .accepted) :
      Reached files (Params.set files m name v).1
  | train {m m' : M} (h : Reached files m) (ht : Trained m m') : Reached files m'

/-- The same value, up to printing for real numbers. -/
def SameTok : Tok → Tok → Prop
  | .real x, .real y => Printed x y
  | x, y => x = y

/-- The same reported value or the same absence of one. -/
def SameInfo : Option Tok → Option Tok → Prop
  | some x, some y => SameTok x y
  | none, none => True
  | _, _ => False

/-- The value of a finite number. -/
def valueOf : F32 → ℚ
  | .fin q => q
  | _ => 0

/-- The score of an example `x` (one value per dimension) without rounding. -/
def exactScore (w : List F32) (x : List ℚ) : ℚ := (List.zipWith (fun v q => valueOf v * q) w x).sum

/-- How much the score may change when all weights are printed with six digits: a 10^-5th part of all products, and next to
    nothing for tiny weights. -/
def slack (w : List F32) (x : List ℚ) : ℚ :=
  (List.zipWith (fun v q => (|valueOf v| / 100000 + 2 ^ (-150 : ℤ)) * |q|) w x).sum

/-- The number is finite and has at most six significant decimal digits. -/
def Short (x : F32) : Prop := ∃ q, x = .fin q ∧ ShortNumber q

end Sol.Spec
