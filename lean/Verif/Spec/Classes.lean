import Verif.Spec.Growth
import Mathlib.Analysis.Asymptotics.Defs

/-!
# The class of functions each verdict stands for
-/
namespace BigO
open Asymptotics Filter

/-- the function `f` belongs to the class a verdict names, exponentials having base `k`: the named classes are their functions, the
others lie strictly between two named ones, below the first or above the last -/
def InClass (k : ℝ) (f : ℝ → ℝ) : Complexity → Prop
  | .betterThanO1 => f =o[atTop] fun _ => (1 : ℝ)
  | .o1 => f = fun _ => 1
  | .betweenO1AndOLogN => (fun _ => (1 : ℝ)) =o[atTop] f ∧ f =o[atTop] fun n => Real.logb 2 n
  | .oLogN => f = fun n => Real.logb 2 n
  | .betweenOLogNAndON => (fun n => Real.logb 2 n) =o[atTop] f ∧ f =o[atTop] fun n => n
  | .oN => f = fun n => n
  | .betweenONAndONLogN => (fun n => n) =o[atTop] f ∧ f =o[atTop] fun n => n * Real.logb 2 n
  | .oNLogN => f = fun n => n * Real.logb 2 n
  | .betweenONLogNAndON2 => (fun n => n * Real.logb 2 n) =o[atTop] f ∧ f =o[atTop] fun n => n ^ 2
  | .oN2 => f = fun n => n ^ 2
  | .betweenON2AndON3 => (fun n => n ^ 2) =o[atTop] f ∧ f =o[atTop] fun n => n ^ 3
  | .oN3 => f = fun n => n ^ 3
  | .betweenON3AndON4 => (fun n => n ^ 3) =o[atTop] f ∧ f =o[atTop] fun n => n ^ 4
  | .oN4 => f = fun n => n ^ 4
  | .betweenON4AndOkN => (fun n => n ^ 4) =o[atTop] f ∧ f =o[atTop] fun n => k ^ n
  | .okN => f = fun n => k ^ n
  | .worseThanExponential => (fun n => k ^ n) =o[atTop] f

end BigO
