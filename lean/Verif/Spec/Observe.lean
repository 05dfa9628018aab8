import Verif.Model.Observe
import Verif.Spec.PySol
import Verif.Spec.Train
/-!
# Specification of what is reported about a training
-/

namespace Sol.Spec
open Sol.Params Sol.Online Sol.Loss Sol.Whole Sol.PySol Sol.Observe

variable [FFun F32]

/-- The reports of a single training on these examples. -/
def LogOf (powf : F32 → F32 → F32) (ρ : Nat → F32) (d : Train.Disp) (m : M) (es : List (Ex F32)) (R : List (Train.Report F32)) : Prop :=
  ∃ k, ∃ K : AnyKit, ∃ s q, m.loss = some k ∧ kitOf powf m = .ok K ∧ K.2.begin (cfgOf m k) (startSt m K.2.first) = .ok s ∧
    Train.train K.2.G (cfgOf m k) ⟨m.sel, m.norm⟩ ρ s d [es] = .ok q ∧ q.2.2.1 = R

/-- The calls of methods among the statements. -/
def callsOf (ops : List (OOp × List (Ex F32))) : List (Op × List (Ex F32)) :=
  ops.filterMap fun p => match p.1 with | .call op => some (op, p.2) | _ => none

/-- The callback after these statements: that which was set last. -/
def Registered (first : Callback) (ops : List OOp) (cb : Callback) : Prop :=
  ((∀ h, OOp.inspect h ∉ ops) ∧ cb = first) ∨ ∃ a h b, ops = a ++ .inspect h :: b ∧ (∀ h', OOp.inspect h' ∉ b) ∧ cb = .handler h

/-- There is still a reference to the handler that was set last. -/
def Referred (ops : List OOp) : Prop := ∀ a h b, ops = a ++ .inspect (some h) :: b → (∀ h', OOp.inspect h' ∉ b) → OOp.release h ∉ b

/-- Whenever training begins, there is still a reference to the handler. -/
def Attended (ops : List OOp) : Prop := ∀ pre op suf, ops = pre ++ .call op :: suf → isFit op = true → Referred pre

/-- What should be reported during a call after these calls: training goes on with the reports of a single training on all examples, and
    the last one has the error rate that is returned; the other calls report nothing. -/
def Logged (powf : F32 → F32 → F32) (ρ : Nat → F32) (d : Train.Disp) (m : M) (before : List (Op × List (Ex F32))) (op : Op)
    (l : List (Ex F32)) (told : List (Train.Report F32)) (r : Ret) : Prop :=
  if isFit op then
    ∃ R R', LogOf powf ρ d m (taught before).flatten R ∧ LogOf powf ρ d m ((taught before).flatten ++ l) R' ∧
      R.dropLast ++ told = R' ∧ ∃ last, told.getLast? = some last ∧ r = .rate last.rate
  else told = []

/-- What a statement should return and tell, and to whom, after the statements before it. -/
def Observed (powf : F32 → F32 → F32) (ρ : Nat → F32) (d : Train.Disp) (W : World) (m : M) (first : Callback)
    (before : List (OOp × List (Ex F32))) (op : OOp) (l : List (Ex F32)) (out : Out) : Prop :=
  match op with
  | .call op =>
    Registered first (before.map (·.1)) out.whom ∧
    ∃ r, out.ret = some r ∧ Answers powf ρ d W m (callsOf before) op l r ∧ Logged powf ρ d m (callsOf before) op l out.told r
  | _ => out.ret = none ∧ out.told = []

/-- The numbers of examples at which a training on `n` examples should report: those that are due, and the last. -/
def ReportsAt (d : Train.Disp) (n : Nat) (ns : List Nat) : Prop :=
  ∃ due, ns = due ++ [n] ∧ due.Pairwise (· < ·) ∧ ∀ k, k ∈ due ↔ 1 ≤ k ∧ k ≤ n ∧ Due d k

end Sol.Spec
