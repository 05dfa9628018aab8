import Verif.Base.F32
import Verif.Spec.Online
/-! What "a learner has not seen an example" and "the scores of the first example" mean, in binary32. -/

namespace Sol.Spec

open Sol.Online Sol.Sparse Sol.Loss

/-- A dual averaging model that has not seen an example: no steps, all sums 0. -/
structure Unseen (s : St F32 (List (List F32))) : Prop where
  t : s.t = 0
  sums : ∀ u ∈ s.alg, ∀ v ∈ u, v = 0

/-- Training computes the scores `p` for its next example `x`. -/
def Computes [FFun F32] {A : Type} (G : Alg F32 A) (c : Cfg F32) (s : St F32 A) (x : SVec F32) (p : List F32) : Prop :=
  ∃ s0 s1 pred, G.beginIter (enter G s x) x = .ok s0 ∧ G.prep c s0 x = .ok s1 ∧ predict c s1 x = .ok (p, pred)

end Sol.Spec
