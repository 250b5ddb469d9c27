import Verif.Spec.ClassText
import Verif.Spec.Classes
import Verif.Model.Crud
import Verif.Props.VerdictOrder

/-!
# C16: every verdict's text names the class the verdict stands for

`TextSays` and `IdentSays` (Spec/ClassText) read a text without knowing the verdicts of the code; `InClass` (Spec/Classes) is the class of
functions the verdict stands for in C15.
-/
namespace BigO
open Asymptotics Filter

/-- **C16.** The plain text of a verdict, read by someone who knows only the names of the complexity classes, says exactly what the
verdict stands for: no more and no less, for every growth function and every base of the exponential class. -/
theorem C16_text_names_class (k : ℝ) (f : ℝ → ℝ) (c : Complexity) : TextSays k f c.asPrettyStr ↔ InClass k f c := by
  cases c <;> simp [TextSays, classNames, InClass, Complexity.asPrettyStr]

/-- **C16.** So does the identifier printed in the failures' messages. -/
theorem C16_identifier_names_class (k : ℝ) (f : ℝ → ℝ) (c : Complexity) : IdentSays k f c.debug ↔ InClass k f c := by
  cases c <;> simp [IdentSays, classIdents, InClass, Complexity.debug]

/-- **C16.** The time and space renderings are the plain text, with a hint appended to "better than O(1)" and "worse than O(kⁿ)": the
latter is announced in words first. -/
theorem C16_renderings (c : Complexity) (r : Complexity → String)
    (hr : r = Complexity.asTimePrettyStr ∨ r = Complexity.asSpacePrettyStr) :
    (c ≠ .betterThanO1 → c ≠ .worseThanExponential → r c = c.asPrettyStr) ∧
    (c = .betterThanO1 → ∃ hint, r c = c.asPrettyStr ++ " -- " ++ hint) ∧
    (c = .worseThanExponential → ∃ hint, r c = "Worse than Exponential!! -- worse than O(kⁿ) -- " ++ hint) := by
  rcases hr with rfl | rfl
  · cases c <;> simp [Complexity.asTimePrettyStr, Complexity.asPrettyStr]
    · exact ⟨"aren't the machines idle? too many threads? too little RAM?", by decide +kernel⟩
    · exact ⟨"really, really bad algorithm, too short execution times or is there a hidden bug?", by decide +kernel⟩
  · cases c <;> simp [Complexity.asSpacePrettyStr, Complexity.asPrettyStr]
    · exact ⟨"are initialization allocations involved? Consider using a warm up pass", by decide +kernel⟩
    · exact ⟨"really, really bad algorithm or is there a hidden bug?", by decide +kernel⟩

/-- a "between" verdict and a function of its class: the text says of `n·√n` that it is worse than `O(n.log(n))` and better than `O(n²)` -/
theorem textSays_instance : TextSays 2 (fun n => n * n ^ (1 / 2 : ℝ)) "Worse than O(n.log(n)), but better than O(n²)" :=
  (C16_text_names_class 2 _ .betweenONLogNAndON2).2 inClass_sqrt

/-- … and the text of another verdict does not say it -/
theorem textSays_not : ¬ TextSays 2 (fun n => n * n ^ (1 / 2 : ℝ)) "O(n)" := by
  intro h
  have h2 := (C16_text_names_class 2 _ .oN).1 h
  simp only [InClass] at h2
  have := congrFun h2 4
  have e : (4 : ℝ) ^ (1 / 2 : ℝ) = 2 := by
    rw [show (4 : ℝ) = 2 ^ (2 : ℝ) by norm_num, ← Real.rpow_mul (by norm_num)]; norm_num
  norm_num [e] at this

end BigO
