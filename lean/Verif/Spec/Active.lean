import Verif.Spec.Regret
import Mathlib.MeasureTheory.Integral.IntervalIntegral.Basic
/-! The mean over independent random numbers. -/

namespace Sol.Spec

/-- `v` is the mean of `F` over `n` random numbers that are drawn independently and evenly from [0, 1). -/
def Expected : Nat → (List ℝ → ℝ) → ℝ → Prop
  | 0, F, v => v = F []
  | n + 1, F, v => ∃ g : ℝ → ℝ, (∀ r, 0 ≤ r → r < 1 → Expected n (fun rs => F (r :: rs)) (g r)) ∧
      IntervalIntegrable g MeasureTheory.volume 0 1 ∧ v = ∫ r in (0 : ℝ)..1, g r

end Sol.Spec
