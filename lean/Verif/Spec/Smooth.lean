import Mathlib.Analysis.SpecialFunctions.Log.Base

/-!
# Sizes and measurements that tell every class from the next one

`n1`, `n2` are the set sizes, `u1` what the first pass used, `tol` the tolerance.
-/
namespace BigO

/-- a step `s` of the second usage that is smaller than every distance between classes up to `O(n⁴)` -/
def SmallStep (tol n1 n2 u1 s : ℝ) : Prop :=
  let log := Real.logb 2 n2 / Real.logb 2 n1
  s ≤ u1 * (2 * tol) ∧ s < u1 * ((1 - tol) * log - (1 + tol)) ∧ s < u1 * ((1 - tol) * (n2 / n1) - (1 + tol) * log)

/-- … and smaller than the distance from `O(n⁴)` to `O(kⁿ)` -/
def SmallExponentialStep (tol n1 n2 u1 s : ℝ) : Prop := s < (1 - tol) * u1 ^ (n2 / n1) - (1 + tol) * (u1 * (n2 / n1) ^ 4)

/-- the same for passes that add or remove `n` elements, the second on three times as many elements as the first -/
def SmallStepResizing (tol n u1 s : ℝ) : Prop :=
  let log := Real.logb 2 (n * 3) / Real.logb 2 n
  s ≤ u1 * tol ∧ s < u1 * (log - (1 + tol)) ∧ s < u1 * (3 * (1 - tol) - (1 + tol) * log)

end BigO
