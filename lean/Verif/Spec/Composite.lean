import Verif.Spec.Regret
/-! The scores that training computes, and the sum of the absolute values of weights. -/

namespace Sol.Spec

open Sol.Online Sol.Sparse Sol.Loss

section
variable {α A : Type} [Zero α] [One α] [Add α] [Sub α] [Mul α] [Div α] [Neg α] [FCmp α] [IntCast α] [FFun α] [FSqrt α]

/-- `sts` are the models before each of the examples, `ps` the scores that training computes for each of them. -/
inductive Scored (G : Alg α A) (c : Cfg α) : St α A → List (Ex α × α) → List (St α A) → List (List α) → St α A → Prop where
  | nil (s) : Scored G c s [] [] [] s
  | cons {s s0 s1 s2 s3 e r p pred l sts ps} : G.beginIter (enter G s e.x) e.x = .ok s0 → G.prep c s0 e.x = .ok s1 →
      predict c s1 e.x = .ok (p, pred) → trainOne G c s e r = .ok s2 → Scored G c s2 l sts ps s3 →
      Scored G c s ((e, r) :: l) (s :: sts) (p :: ps) s3

end

section
variable {α : Type} [Ring α] [LinearOrder α]

/-- The losses `L` of the scores `ps`, each on its example. -/
def scoredLoss (L : Ex α → (Nat → α) → α) (ps : List (List α)) (l : List (Ex α × α)) : List α :=
  (ps.zip l).map fun z => L z.2.1 fun k => z.1.getD k 0

/-- The sum of the absolute values of the coefficients `i < D` of the `n` linear functions `U`, with the bias. -/
def absSum (n D : Nat) (U : Nat → Nat → α) : α := ∑ k ∈ Finset.range n, ∑ i ∈ Finset.range D, |U k i|

/-- The sum of the absolute values of the weights of the features `1 ≤ i < D`, without the bias. -/
def absWeights {A : Type} (n D : Nat) (s : St α A) : α :=
  ∑ k ∈ Finset.range n, ∑ i ∈ Finset.Ico 1 D, |coord (s.w.getD k []) i|

end

end Sol.Spec
