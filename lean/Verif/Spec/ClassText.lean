import Mathlib.Analysis.Asymptotics.Defs
import Mathlib.Analysis.SpecialFunctions.Log.Base
import Mathlib.Analysis.SpecialFunctions.Pow.Real

/-!
# How a reader understands the text of a verdict

Independent of the verdicts of the code: names of complexity classes as they are used everywhere, and the four ways a text may use
them. `k` is the unspecified base of the exponential class.
-/
namespace BigO
open Asymptotics Filter

/-- the names of complexity classes and the growth functions they stand for -/
noncomputable def classNames (k : ℝ) : List (String × (ℝ → ℝ)) :=
  [("O(1)", fun _ => 1), ("O(log(n))", fun n => Real.logb 2 n), ("O(n)", fun n => n), ("O(n.log(n))", fun n => n * Real.logb 2 n),
   ("O(n²)", fun n => n ^ 2), ("O(n³)", fun n => n ^ 3), ("O(n⁴)", fun n => n ^ 4), ("O(kⁿ)", fun n => k ^ n)]

/-- `text`, read by someone who knows the names of the classes, says this of the growth function `f` -/
def TextSays (k : ℝ) (f : ℝ → ℝ) (text : String) : Prop :=
  (∃ a ∈ classNames k, text = a.1 ∧ f = a.2) ∨
  (∃ a ∈ classNames k, text = "Better than " ++ a.1 ∧ f =o[atTop] a.2) ∨
  (∃ a ∈ classNames k, text = "Worse than " ++ a.1 ∧ a.2 =o[atTop] f) ∨
  (∃ a ∈ classNames k, ∃ b ∈ classNames k, text = "Worse than " ++ a.1 ++ ", but better than " ++ b.1 ∧ a.2 =o[atTop] f ∧
    f =o[atTop] b.2)

/-- the identifiers a test author writes to name the classes (the public enumeration's variants that name one class) -/
noncomputable def classIdents (k : ℝ) : List (String × (ℝ → ℝ)) :=
  [("O1", fun _ => 1), ("OLogN", fun n => Real.logb 2 n), ("ON", fun n => n), ("ONLogN", fun n => n * Real.logb 2 n),
   ("ON2", fun n => n ^ 2), ("ON3", fun n => n ^ 3), ("ON4", fun n => n ^ 4), ("OkN", fun n => k ^ n)]

/-- an identifier in a failure's message, read the same way -/
def IdentSays (k : ℝ) (f : ℝ → ℝ) (text : String) : Prop :=
  (∃ a ∈ classIdents k, text = a.1 ∧ f = a.2) ∨
  (∃ a ∈ classIdents k, text = "BetterThan" ++ a.1 ∧ f =o[atTop] a.2) ∨
  (text = "WorseThanExponential" ∧ (fun n => k ^ n) =o[atTop] f) ∨
  (∃ a ∈ classIdents k, ∃ b ∈ classIdents k, text = "Between" ++ a.1 ++ "And" ++ b.1 ∧ a.2 =o[atTop] f ∧ f =o[atTop] b.2)

end BigO
