import Verif.Spec.Online
/-! What the budget of a feature-selection algorithm means. -/

namespace Sol.Spec

open Sol.Online Sol.Sparse

variable {α A : Type} [Zero α] [One α] [Add α] [Sub α] [Mul α] [Div α] [Neg α] [FCmp α] [IntCast α] [Loss.FFun α] [FSqrt α]

/-- Feature `i` (the bias is not a feature) has a non-zero weight in some class. -/
def Active (ws : List (List α)) (i : Nat) : Prop := 1 ≤ i ∧ ∃ w ∈ ws, ∃ a : α, w[i]? = some a ∧ a ≠ 0

/-- At most `B` features have a non-zero weight. -/
def WithinBudget (B : Nat) (ws : List (List α)) : Prop :=
  ∀ l : List Nat, l.Nodup → (∀ i ∈ l, Active ws i) → l.length ≤ B

/-- A usable feature vector without the index 0. -/
def Proper (x : SVec α) : Prop := Good x ∧ ∀ p ∈ x, 1 ≤ p.1

/-- A model before `BeginTrain` with a budget. -/
structure Ready (c : Cfg α) (B : Nat) (s : St α A) : Prop where
  dim : 1 ≤ s.dim
  dimMax : s.dim ≤ 4294967295
  w : Vecs c.clf s.dim s.w
  g : s.g.length = c.clf
  budget : 1 ≤ B ∧ B < 4294967295

/-- The states a model goes through after `BeginTrain`: it is trained on examples, marked as trained or finished, and
    `EndTrain` is called (by every evaluation), in any order. -/
inductive Session (G : Alg α A) (c : Cfg α) : St α A → St α A → Prop where
  | start (s) : Session G c s s
  | learn {s s1 s2} (e : Ex α) (r : α) : Session G c s s1 → Proper e.x → LabelOk c.clf e.label →
      trainOne G c s1 e r = .ok s2 → Session G c s s2
  | mark {s s1} (b : Bool) : Session G c s s1 → Session G c s { s1 with fresh := b }
  | close {s s1 s2} : Session G c s s1 → G.endTrain c s1 = .ok s2 → Session G c s s2

end Sol.Spec
