import Verif.Spec.Online
import Verif.Model.Train
/-! When progress should be reported and what a report should say. -/

namespace Sol.Spec

open Sol.Online Sol.Loss Sol.Train

variable {α A : Type} [Zero α] [One α] [Add α] [Sub α] [Mul α] [Div α] [Neg α] [FCmp α] [IntCast α] [FFun α] [FSqrt α]

/-- The numbers of examples after which a displayer should report: the powers of the base, the multiples of the step. -/
def Due : Disp → Nat → Prop
  | .exp _ b _, m => ∃ j, 1 ≤ j ∧ m = b ^ j
  | .step _ k, m => 1 ≤ m ∧ k ∣ m

/-- A displayer that waits for the first number above `n`. -/
structure Waits (d : Disp) (n : Nat) : Prop where
  sane : match d with
    | .exp k b j => 2 ≤ b ∧ 1 ≤ j ∧ k = b ^ j
    | .step k t => 1 ≤ t ∧ 1 ≤ k ∧ t ∣ k
  above : n < d.next
  first : ∀ m, n < m → m < d.next → ¬ Due d m

/-- The report after the first `m` examples of `l` seen by a model that had been trained on `s.data` examples. -/
def Snapshot (G : Alg α A) (c : Cfg α) (s : St α A) (l : List (Ex α × α)) (m : Nat) (r : Report α) : Prop :=
  ∃ evs s', Trace G c s (l.take m) evs s' ∧ evs.length = m ∧ r.data = s.data + m ∧
    r.iter = s.t + (evs.countP fun ev => !ev.skip) ∧ r.upd = s.upd + (evs.countP fun ev => ev.fired) ∧
    r.rate = (((s.err + wrong (l.take m) evs : Nat) : Int) : α) / (((s.data + m : Nat) : Int) : α)

/-- A line of the output of `Test` for an example. -/
def RowOf (c : Cfg α) (s : St α A) (e : Ex α) (r : Row α) : Prop :=
  r.label = e.label ∧ predict c s e.x = .ok (r.scores, r.pred)

end Sol.Spec
