import Verif.Spec.Growth
import Mathlib.Topology.Algebra.Order.Field
import Mathlib.Topology.Instances.Real.Lemmas

/-!
# What it means that a usage grows like a function
-/
namespace BigO
open Filter Topology

/-- the usage `U n` of a set of `n` elements is proportional to `f n` in the limit: `U n / f n` tends to a positive constant. Terms of
lower order are allowed. -/
def GrowsLike (U : ℕ → ℝ) (f : ℝ → ℝ) : Prop := ∃ L : ℝ, 0 < L ∧ Tendsto (fun n : ℕ => U n / f n) atTop (𝓝 L)

end BigO
