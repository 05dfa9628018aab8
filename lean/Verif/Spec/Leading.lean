import Verif.Spec.Select
import Mathlib.Algebra.Order.Field.Basic
/-! Which features a feature-selection algorithm should keep. -/

namespace Sol.Spec

open Sol.Online

section
variable {α : Type} [Field α] [LinearOrder α]

/-- The sum over the classes of element `i`. -/
def total (vs : List (List α)) (i : Nat) : α := (vs.map fun v => v[i]?.getD 0).sum

/-- The sum over the classes of the absolute value of element `i`. -/
def absTotal (vs : List (List α)) (i : Nat) : α := (vs.map fun v => |v[i]?.getD 0|).sum

/-- `kept` are `B` different features (the bias is none) below `d`, and no other feature is worth more than one of them. -/
structure Leading (d B : Nat) (worth : Nat → α) (kept : List Nat) : Prop where
  count : kept.length = B
  distinct : kept.Nodup
  features : ∀ i ∈ kept, 1 ≤ i ∧ i < d
  best : ∀ i ∈ kept, ∀ j, 1 ≤ j → j < d → j ∉ kept → worth j ≤ worth i

/-- The bias and the weights of the kept features stay, all others become zero. -/
def only (kept : List Nat) (w : List α) : List α := w.mapIdx fun i a => if i = 0 ∨ i ∈ kept then a else 0

end

/-- The same model as an object of another class, whose own state is `b`. -/
def withOwn {α A A' : Type} (s : St α A) (b : A') : St α A' :=
  ⟨s.dim, s.w, s.g, s.eta, s.margin, s.vi, s.t, s.data, s.upd, s.err, s.fresh, b⟩

end Sol.Spec
