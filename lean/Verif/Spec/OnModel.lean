import Mathlib.Analysis.SpecialFunctions.Log.Base
import Mathlib.Algebra.BigOperators.Fin

/-!
# What create and delete passes cost if each operation costs what the theory says

Each of the two create passes inserts `n` elements, so the first one sees sets of 1 to `n` elements and the second one sets of `n+1` to `2n`.
(Delete passes run in the opposite order: the second one removes the elements beyond `n`, then the first one the remaining `n`.)
-/
namespace BigO

/-- the usage of a pass (0 or 1) over `n` elements, if an operation on a set of `m` elements costs `g m` -/
noncomputable def resizingUsage (g : ℕ → ℝ) (n pass : ℕ) : ℝ := ∑ i ∈ Finset.range n, g (pass * n + i + 1)

end BigO
