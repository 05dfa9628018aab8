import Verif.Model.Expr
/-!
# The statements on vectors of src/sol/model/olm/*.cc, as they are evaluated

One definition per group of statements on the vectors of one class.  `h` is the vector of weights unless said otherwise.
-/

namespace Sol.Expr

open Sol.Sparse

variable {α : Type}

/-- Statements change the vectors. -/
abbrev Prog (α : Type) := Mem α → Res (Mem α)

/-- One statement after the other. -/
def andThen (p q : Prog α) : Prog α := fun M => do
  let M ← p M
  q M

/-- `w[0] op= e`, where `e` mentions only elements 0. -/
def atZero (op : α → α → α) (h : Nat) (e : Flat α) : Prog α := fun M => do
  let v ← e.at M 0
  modify op M h 0 v

/-- `op::assign` (operator.h:64-69), for `=`. -/
def put (_ v : α) : α := v

section
variable [Zero α] [One α] [Add α] [Sub α] [Mul α] [Div α] [Neg α] [FCmp α] [FSqrt α]

/-- `w -= k * x; w[0] -= b` (perceptron.cc:43-45, ogd.cc:39-41, pa.cc:26-28, sop.cc:69-71). -/
def stepS (k b : α) (x : SVec α) (h : Nat) : Prog α :=
  andThen (calcSp (· - ·) · h (scaledX k x)) (atZero (· - ·) h (.scalar b))

/-- `w_norm = sqrt(Norm2(w)); if (w_norm > 1) w /= w_norm` (alma2.cc:82-83). -/
def projectS (h : Nat) : Prog α := fun M => do
  let q ← reduce (· + ·) M (.un sqE (.mat h))
  let n := FSqrt.sqrt q
  if 1 <? n then calcFlat (· / ·) M h (.scalar n) else .ok M

/-- `w *= momentum; w -= k * x; w[0] -= b; coeff = norm_coeff / sqrt(Norm2(w)); if (coeff < 1) w *= coeff` (fofs.cc:62-70). -/
def fofsS (normCoeff momentum k b : α) (x : SVec α) (h : Nat) : Prog α :=
  andThen (calcFlat (· * ·) · h (.scalar momentum)) <| andThen (stepS k b x h) fun M => do
    let q ← reduce (· + ·) M (.un sqE (.mat h))
    let coeff := normCoeff / FSqrt.sqrt q
    if coeff <? 1 then calcFlat (· * ·) M h (.scalar coeff) else .ok M

/-- `w -= k * Sigma * x; w[0] -= b * Sigma[0]` (arow.cc:66-68, :180-182, cw.cc:96-98, eccw.cc:102-104). -/
def sigStepS (k b : α) (x : SVec α) (h sig : Nat) : Prog α :=
  andThen (calcSp (· - ·) · h (scaledSigma k sig x)) (atZero (· - ·) h (.bin (· * ·) (.scalar b) (.mat sig)))

/-- `Sigma /= (1 + Sigma * L2(x) * r1); Sigma[0] /= (1 + Sigma[0] * r1)` (arow.cc:72-73, :207-208). -/
def arowSigS (r1 : α) (x : SVec α) (sig : Nat) : Prog α :=
  andThen (calcSp (· / ·) · sig (arowDivisor r1 sig x))
    (atZero (· / ·) sig (.bin (· + ·) (.scalar 1) (.bin (· * ·) (.mat sig) (.scalar r1))))

/-- `Sigma /= (1 + tmp * Sigma * L2(x)); Sigma[0] /= (1 + tmp * Sigma[0])` (cw.cc:101-102, eccw.cc:106-107). -/
def cwSigS (tmp : α) (x : SVec α) (sig : Nat) : Prog α :=
  andThen (calcSp (· / ·) · sig (cwDivisor tmp sig x))
    (atZero (· / ·) sig (.bin (· + ·) (.scalar 1) (.bin (· * ·) (.scalar tmp) (.mat sig))))

/-- `w = truncate(w.slice(x), rate * (t - last)); w[0] = truncate(w[0], b)` (ogd.cc:149-152). -/
def lazyTruncS (rate b t : α) (last : Nat) (x : SVec α) (h : Nat) : Prog α :=
  andThen (assignSp · h (lazyTrunc rate t h last x)) (atZero put h (.bin trunc (.mat h) (.scalar b)))

/-- `w = truncate(w, rate * (t - last))` (ogd.cc:118, :162). -/
def endTruncS (rate t : α) (last h : Nat) : Prog α := (assign · h (endTrunc rate t h last))

/-- `w = truncate(w.slice(x), rate * (t - last) / H); w[0] = truncate(w[0], b / H[0])` (ada_fobos.cc:105-109). -/
def adaTruncS (rate b t : α) (last H : Nat) (x : SVec α) (h : Nat) : Prog α :=
  andThen (assignSp · h (adaLazyTrunc rate t h last H x))
    (atZero put h (.bin trunc (.mat h) (.bin (· / ·) (.scalar b) (.mat H))))

/-- `w = truncate(w, rate * (t - last) / H); w[0] = truncate(w[0], b / H[0])` (ada_fobos.cc:119-122). -/
def adaEndTruncS (rate b t : α) (last H h : Nat) : Prog α :=
  andThen (assign · h (adaEndTrunc rate t h last H))
    (atZero put h (.bin trunc (.mat h) (.bin (· / ·) (.scalar b) (.mat H))))

/-- `u += g * x; u[0] += g` (rda.cc:55-56, ada_rda.cc:59-60, :252-253). -/
def addGradS (g : α) (x : SVec α) (u : Nat) : Prog α :=
  andThen (calcSp (· + ·) · u (scaledX g x)) (atZero (· + ·) u (.scalar g))

/-- `w = -eta * u.slice(x); w[0] = -bias_eta() * u[0]` (rda.cc:44-45); `k` and `kb` are `-eta` and `-bias_eta()`. -/
def dualS (k kb : α) (x : SVec α) (h u : Nat) : Prog α :=
  andThen (assignSp · h (dualX k u x)) (atZero put h (.bin (· * ·) (.scalar kb) (.mat u)))

/-- `w = -eta * truncate(u.slice(x), th); w[0] = -bias_eta() * truncate(u[0], th)` (rda.cc:116-118, :157-159). -/
def dualTruncS (k kb th : α) (x : SVec α) (h u : Nat) : Prog α :=
  andThen (assignSp · h (dualTruncX k th u x)) (atZero put h (.bin (· * ·) (.scalar kb) (.bin trunc (.mat u) (.scalar th))))

/-- `w = -eta * u; w[0] = -bias_eta() * u[0]` (rda.cc:64-65). -/
def dualAllS (k kb : α) (h u : Nat) : Prog α :=
  andThen (assign · h (dualAll k u)) (atZero put h (.bin (· * ·) (.scalar kb) (.mat u)))

/-- `w = -eta * truncate(u, th); w[0] = -bias_eta() * truncate(u[0], th)` (rda.cc:128-129, :170-171). -/
def dualTruncAllS (k kb th : α) (h u : Nat) : Prog α :=
  andThen (assign · h (dualTruncAll k th u)) (atZero put h (.bin (· * ·) (.scalar kb) (.bin trunc (.mat u) (.scalar th))))

/-- `w = v / (a + X + L2(x))` (sop.cc:58). -/
def sopS (a : α) (x : SVec α) (h v X : Nat) : Prog α := (assignSp · h (sopX a v X x))

/-- `w = v / (a + X)` (sop.cc:50). -/
def sopAllS (a : α) (h v X : Nat) : Prog α := (assign · h (sopAll a v X))

/-- `X += L2(x)` (sop.cc:73). -/
def addSquaresS (x : SVec α) (X : Nat) : Prog α := (calcSp (· + ·) · X (squares x))

/-- `H = Sqrt(L2(H - delta) + L2(g * x)) + delta; H[0] = sqrtf((H[0] - delta) * (H[0] - delta) + g * g) + delta`
    (ada_fobos.cc:48-50, :203-205, ada_rda.cc:55-57, :229-231). -/
def adaHS (delta g : α) (x : SVec α) (H : Nat) : Prog α :=
  andThen (assignSp · H (adaScale delta g H x))
    (atZero put H (.bin (· + ·) (.un FSqrt.sqrt (.bin (· + ·)
      (.bin (· * ·) (.bin (· - ·) (.mat H) (.scalar delta)) (.bin (· - ·) (.mat H) (.scalar delta))) (.scalar (g * g)))) (.scalar delta)))

/-- `w -= k * x / H; w[0] -= b / H[0]` (ada_fobos.cc:52-54, :226-228). -/
def adaStepS (k b : α) (x : SVec α) (h H : Nat) : Prog α :=
  andThen (calcSp (· - ·) · h (adaX k H x)) (atZero (· - ·) h (.bin (· / ·) (.scalar b) (.mat H)))

/-- `w = -eta * u.slice(x) / H; w[0] *= bias_eta0_` (ada_rda.cc:62-64, :255-257). -/
def adaDualS (k bias0 : α) (x : SVec α) (h u H : Nat) : Prog α :=
  andThen (assignSp · h (adaDualX k u H x)) (atZero (· * ·) h (.scalar bias0))

/-- `w = -eta * truncate(u.slice(x), th) / H; w[0] = -bias_eta() * truncate(u[0], th) / H[0]` (ada_rda.cc:135-137). -/
def adaDualTruncS (k kb th : α) (x : SVec α) (h u H : Nat) : Prog α :=
  andThen (assignSp · h (adaDualTruncX k th u H x))
    (atZero put h (.bin (· / ·) (.bin (· * ·) (.scalar kb) (.bin trunc (.mat u) (.scalar th))) (.mat H)))

/-- `w = -eta * u / H; w[0] *= bias_eta0_` (ada_rda.cc:70-72, :275-277). -/
def adaDualAllS (k bias0 : α) (h u H : Nat) : Prog α :=
  andThen (assign · h (adaDualAll k u H)) (atZero (· * ·) h (.scalar bias0))

/-- `w = -eta * truncate(u, th) / H; w[0] *= bias_eta0_` (ada_rda.cc:146-147). -/
def adaDualTruncAllS (k bias0 th : α) (h u H : Nat) : Prog α :=
  andThen (assign · h (adaDualTruncAll k th u H)) (atZero (· * ·) h (.scalar bias0))

/-- `abs_w = L1(w.slice(x))` (ogd.cc:211, fofs.cc:76); `h` is `abs_w`. -/
def absFirstS (x : SVec α) (h w : Nat) : Prog α := (assignSp · h (absX w x))

/-- `abs_w += L1(w.slice(x))` (ogd.cc:213, fofs.cc:78). -/
def absMoreS (x : SVec α) (h w : Nat) : Prog α := (calcSp (· + ·) · h (absX w x))

/-- `abs_w = 0` (ogd.cc:194, fofs.cc:46, arow.cc:148). -/
def clearS (h : Nat) : Prog α := (assign · h (.scalar 0))

/-- `abs_w += L1(w)` (ogd.cc:197, fofs.cc:49). -/
def absAllS (h w : Nat) : Prog α := (calcFlat (· + ·) · h (absAllE w))

/-- `sum += Sigma` (arow.cc:150). -/
def sumS (h w : Nat) : Prog α := (calcFlat (· + ·) · h (.mat w))

end

end Sol.Expr
