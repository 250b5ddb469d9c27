import Verif.Model.Complexity
import Mathlib.Analysis.SpecialFunctions.Log.Base
import Mathlib.Analysis.SpecialFunctions.Pow.Real

/-!
# What the named verdicts mean

`growth c` is the growth function `f` of the verdict "O(f(n))" (README and doc of `BigOAlgorithmComplexity`);
the "between" verdicts, "better than O(1)" and "worse than exponential" name no single function.
-/
namespace BigO

/-- growth functions of the named polynomial classes -/
noncomputable def growth : Complexity → Option (ℝ → ℝ)
  | .o1 => some fun _ => 1
  | .oLogN => some fun n => Real.logb 2 n
  | .oN => some fun n => n
  | .oNLogN => some fun n => n * Real.logb 2 n
  | .oN2 => some fun n => n ^ 2
  | .oN3 => some fun n => n ^ 3
  | .oN4 => some fun n => n ^ 4
  | _ => none

/-- growth functions of all named classes, `k` being the base of the exponential one -/
noncomputable def growthK (k : ℝ) : Complexity → Option (ℝ → ℝ)
  | .okN => some fun n => k ^ n
  | c => growth c

end BigO
