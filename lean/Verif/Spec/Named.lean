import Verif.Model.Whole
/-!
# Specification: the algorithm that a model's name and settings stand for

Classes and settings are looked up under the names that a model reports them with.
-/

namespace Sol.Spec
open Sol.Params Sol.Online Sol.Olm Sol.Select Sol.Whole
open Sol.Loss (FFun)

variable [FFun F32]

/-- The name of the model's class. -/
def Called (m : M) (name : String) : Prop := info m "model" = some (.str name.toList)

/-- A setting that is a real number. -/
def HasReal (m : M) (name : String) (x : F32) : Prop := info m name = some (.real x)

/-- A setting that is a whole number. -/
def HasWhole (m : M) (name : String) (n : Int) : Prop := info m name = some (.int n)

/-- The divisor of the learning rate: the iteration to the power `e`. -/
def Decay (powf : F32 → F32 → F32) (e : F32) (pow : Int → F32) : Prop :=
  (e = .fin 0 ∧ ∀ t, pow t = 1) ∨ (e = .fin (1 / 2) ∧ ∀ t : Int, pow t = FSqrt.sqrt (t : F32)) ∨
    (e = .fin 1 ∧ ∀ t : Int, pow t = (t : F32)) ∨
    (e ≠ .fin 0 ∧ e ≠ .fin (1 / 2) ∧ e ≠ .fin 1 ∧ ∀ t : Int, pow t = powf (t : F32) e)

/-- The number of features to keep: the whole part. -/
def Features (m : M) (B : Nat) : Prop := ∃ q, HasReal m "lambda" (.fin q) ∧ -1 < q ∧ (B = 0 ∨ (B : ℚ) ≤ q) ∧ q < B + 1

/-- The settings of the training loop are those of the model. -/
structure Configured (m : M) (c : Cfg F32) : Prop where
  clf : HasWhole m "clf_num" c.clf
  loss : info m "loss" = some (.str (lossName c.kind).toList)
  bias : HasReal m "bias_eta" c.biasEta0
  lazyUpdate : info m "lazy_update" = some (.str (if c.lazyUpdate then "true".toList else "false".toList))
  active : (HasReal m "active_smoothness" c.smooth ∧ 1 ≤? c.smooth) ∨ (info m "active_smoothness" = none ∧ ¬ 1 ≤? c.smooth)
  cost : (info m "cost_margin" = none ∧ c.cost = none) ∨ ∃ x, HasReal m "cost_margin" x ∧ c.cost = some x

/-- The state before training: the weights and the counter of the model, nothing counted yet. -/
structure Untouched (m : M) {A : Type} (s : St F32 A) : Prop where
  dim : HasWhole m "dim" s.dim
  t : HasWhole m "t" s.t
  w : s.w = m.w
  g : s.g = List.replicate s.w.length 0
  data : s.data = 0
  upd : s.upd = 0
  err : s.err = 0
  margin : s.margin = 1
  eta : ∀ name ∈ ["ada-fobos", "ada-fobos-l1", "adafobos-ofs", "ada-rda", "ada-rda-l1", "adarda-ofs", "fofs"], Called m name → HasReal m "eta" s.eta

/-- The algorithm of a model, the state `s` that its training starts with if it is `b` otherwise, and what is stored of its own
    vectors afterwards. -/
inductive AlgorithmOf (powf : F32 → F32 → F32) (m : M) (c : Cfg F32) : (A : Type) → Alg F32 A → (b s : St F32 A) → (A → M → Prop) → Prop
  | perceptron (b) : Called m "perceptron" → AlgorithmOf powf m c Unit perceptron b b fun _ _ => True
  | ogd (b eta e pow) : Called m "ogd" → HasReal m "eta" eta → HasReal m "power_t" e → Decay powf e pow →
      AlgorithmOf powf m c Unit (ogd eta pow) b b fun _ _ => True
  | stg (b eta e pow k lambda) : Called m "stg" → HasReal m "eta" eta → HasReal m "power_t" e → Decay powf e pow → HasWhole m "k" k →
      HasReal m "lambda" lambda →
      AlgorithmOf powf m c (List Int) (stg eta pow k lambda m.thresh m.initialT) b { b with alg := List.replicate b.dim m.initialT } fun _ _ => True
  | fobosL1 (b eta e pow lambda t₀) : Called m "fobos-l1" → HasReal m "eta" eta → HasReal m "power_t" e → Decay powf e pow →
      HasReal m "lambda" lambda → t₀ = timeOf m.t0 → b.alg = m.lastTime.map timeOf →
      AlgorithmOf powf m c (List Int) (fobosL1 eta pow lambda m.thresh t₀) b b fun a m' => m'.lastTime = a.map fun t => ((t : Int) : F32)
  | pet (b s eta e pow B) : Called m "pet" → HasReal m "eta" eta → HasReal m "power_t" e → Decay powf e pow → Features m B → 0 < B →
      petBegin (pet eta pow B) B b = .ok s → AlgorithmOf powf m c (PetSt F32) (pet eta pow B) b s fun _ _ => True
  | pet0 (b eta e pow) : Called m "pet" → HasReal m "eta" eta → HasReal m "power_t" e → Decay powf e pow → Features m 0 →
      AlgorithmOf powf m c Unit (ogd eta pow) b b fun _ _ => True
  | pa (b n) : Called m "pa" → (m.classNum = 2 ∧ n = 1 ∨ m.classNum ≠ 2 ∧ n = 1 + 1) → AlgorithmOf powf m c Unit (pa n) b b fun _ _ => True
  | pa1 (b C n) : Called m "pa1" → HasReal m "C" C → (m.classNum = 2 ∧ n = 1 ∨ m.classNum ≠ 2 ∧ n = 1 + 1) →
      AlgorithmOf powf m c Unit (pa1 C n) b b fun _ _ => True
  | pa2 (b C n) : Called m "pa2" → HasReal m "C" C → (m.classNum = 2 ∧ n = 1 ∨ m.classNum ≠ 2 ∧ n = 1 + 1) →
      AlgorithmOf powf m c Unit (pa2 C n) b b fun _ _ => True
  | alma2 (b C alpha p k) (root : F32) : Called m "alma2" → HasReal m "C" C → HasReal m "alpha" alpha → HasWhole m "p" p → HasWhole m "k" k →
      root = FSqrt.sqrt ((p - 1 : Int) : F32) → b.alg = k →
      AlgorithmOf powf m c Int (alma2 C alpha root) b { b with margin := (1 - alpha) * (1 / alpha) * root / FSqrt.sqrt (k : F32) }
        fun a m' => HasWhole m' "k" a
  | arow (b r) : Called m "arow" → HasReal m "r" r → b.alg = m.scale → AlgorithmOf powf m c _ (arow r) b b fun a m' => m'.scale = a
  | sofs (b s r B clf) : Called m "sofs" → HasReal m "r" r → Features m B → 0 < B → HasWhole m "clf_num" clf → b.alg.sig = m.scale →
      ofsBegin more (sofs r B clf.toNat) c B b = .ok s → AlgorithmOf powf m c _ (sofs r B clf.toNat) b s fun a m' => m'.scale = a.sig
  | sofs0 (b r) : Called m "sofs" → HasReal m "r" r → Features m 0 → b.alg = m.scale → AlgorithmOf powf m c _ (arow r) b b fun a m' => m'.scale = a
  | cw (b a phi be) : Called m "cw" → HasReal m "a" a → HasReal m "phi" phi → HasReal m "bias_eta" be → b.alg = m.scale →
      AlgorithmOf powf m c _ (cw a phi (!(be * 1 =? 0))) b b fun a m' => m'.scale = a
  | eccw (b a phi be) : Called m "eccw" → HasReal m "a" a → HasReal m "phi" phi → HasReal m "bias_eta" be → b.alg = m.scale →
      AlgorithmOf powf m c _ (eccw a phi (!(be * 1 =? 0))) b b fun a m' => m'.scale = a
  | rda (b sigma) : Called m "rda" → HasReal m "sigma" sigma → b.alg = m.sum →
      AlgorithmOf powf m c _ (rda sigma (F32.round (1 / 10 ^ 20))) b b fun a m' => m'.sum = a
  | rdaL1 (b sigma lambda) : Called m "rda-l1" → HasReal m "sigma" sigma → HasReal m "lambda" lambda → b.alg = m.sum →
      AlgorithmOf powf m c _ (rdaL1 sigma (F32.round (1 / 10 ^ 20)) lambda m.thresh) b b fun a m' => m'.sum = a
  | erdaL1 (b sigma lambda rou) : Called m "erda-l1" → HasReal m "sigma" sigma → HasReal m "lambda" lambda → HasReal m "rou" rou → b.alg = m.sum →
      AlgorithmOf powf m c _ (erdaL1 sigma (F32.round (1 / 10 ^ 20)) lambda rou m.thresh) b b fun a m' => m'.sum = a
  | sop (b a) : Called m "sop" → HasReal m "a" a → b.alg = ⟨m.X, m.sum⟩ → AlgorithmOf powf m c _ (sop a) b b fun a m' => m'.X = a.X ∧ m'.sum = a.v
  | adaFobos (b delta) : Called m "ada-fobos" → HasReal m "delta" delta → b.alg = m.scale →
      AlgorithmOf powf m c _ (adaFobos delta) b b fun a m' => m'.scale = a
  | adaFobosL1 (b delta lambda t₀) : Called m "ada-fobos-l1" → HasReal m "delta" delta → HasReal m "lambda" lambda → t₀ = timeOf m.t0 →
      b.alg = ⟨m.scale, m.lastTime.map timeOf⟩ →
      AlgorithmOf powf m c _ (adaFobosL1 delta lambda m.thresh t₀) b b fun a m' => m'.scale = a.H ∧ m'.lastTime = a.last.map fun t => ((t : Int) : F32)
  | adaFobosOfs (b s delta B clf) : Called m "adafobos-ofs" → HasReal m "delta" delta → Features m B → 0 < B → HasWhole m "clf_num" clf →
      b.alg.sig = m.scale → ofsBegin less (adaFobosOfs delta B clf.toNat) c B b = .ok s →
      AlgorithmOf powf m c _ (adaFobosOfs delta B clf.toNat) b s fun a m' => m'.scale = a.sig
  | adaFobosOfs0 (b delta) : Called m "adafobos-ofs" → HasReal m "delta" delta → Features m 0 → b.alg = m.scale →
      AlgorithmOf powf m c _ (adaFobos delta) b b fun a m' => m'.scale = a
  | adaRda (b delta) : Called m "ada-rda" → HasReal m "delta" delta → b.alg = ⟨m.scale, m.sum⟩ →
      AlgorithmOf powf m c _ (adaRda delta) b b fun a m' => m'.scale = a.H ∧ m'.sum = a.ut
  | adaRdaL1 (b delta lambda) : Called m "ada-rda-l1" → HasReal m "delta" delta → HasReal m "lambda" lambda → b.alg = ⟨m.scale, m.sum⟩ →
      AlgorithmOf powf m c _ (adaRdaL1 delta lambda m.thresh) b b fun a m' => m'.scale = a.H ∧ m'.sum = a.ut
  | adaRdaOfs (b s delta B clf) : Called m "adarda-ofs" → HasReal m "delta" delta → Features m B → 0 < B → HasWhole m "clf_num" clf →
      b.alg.ofs.sig = m.scale → b.alg.ut = m.sum → adaRdaOfsBegin (adaRdaOfs delta B clf.toNat) c B b = .ok s →
      AlgorithmOf powf m c _ (adaRdaOfs delta B clf.toNat) b s fun a m' => m'.scale = a.ofs.sig ∧ m'.sum = a.ut
  | adaRdaOfs0 (b delta) : Called m "adarda-ofs" → HasReal m "delta" delta → Features m 0 → b.alg = ⟨m.scale, m.sum⟩ →
      AlgorithmOf powf m c _ (adaRda delta) b b fun a m' => m'.scale = a.H ∧ m'.sum = a.ut
  | fofs (b s eta lambda B) : Called m "fofs" → HasReal m "eta" eta → HasReal m "lambda" lambda → HasWhole m "B" B →
      petBegin (fofs (1 / FSqrt.sqrt lambda) (1 - lambda * eta) B.toNat) B.toNat b = .ok s →
      AlgorithmOf powf m c _ (fofs (1 / FSqrt.sqrt lambda) (1 - lambda * eta) B.toNat) b s fun _ _ => True

end Sol.Spec
