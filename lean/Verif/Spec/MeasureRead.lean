import Verif.Spec.ReadBack
import Verif.Spec.PresentableSpec

/-!
# How a person reads a measurement
-/
namespace BigO

/-- a number of bytes like `1.50KiB` -/
noncomputable def readByteCount (s : String) : Option ℝ :=
  readQuantity [("b".toList, 1), ("KiB".toList, 2 ^ 10), ("MiB".toList, 2 ^ 20), ("GiB".toList, 2 ^ 30), ("TiB".toList, 2 ^ 40)] s.toList

/-- a rate like `1.50KiB/s`, in bytes per second -/
noncomputable def readByteRate (s : String) : Option ℝ :=
  readQuantity [("b/hr".toList, 1 / 3600), ("b/min".toList, 1 / 60), ("b/s".toList, 1), ("KiB/s".toList, 2 ^ 10), ("MiB/s".toList, 2 ^ 20),
    ("GiB/s".toList, 2 ^ 30), ("TiB/s".toList, 2 ^ 40)] s.toList

/-- a number that may be in scientific notation, like `1.234e5` -/
noncomputable def readScientific (l : List Char) : Option ℝ :=
  match (readNumber l).2 with
  | [] => some (readNumber l).1
  | 'e' :: r => if r ≠ [] ∧ r.all Char.isDigit then some ((readNumber l).1 * 10 ^ Nat.ofDigitChars 10 r 0) else none
  | _ => none

/-- the text is a number and a unit, and the number is `y` -/
def ReadsAs (unit : String) (y : ℝ) (s : String) : Prop := ∃ n : String, s = n ++ unit ∧ readScientific n.toList = some y

/-- the text is a rate of `y` units per second -/
def ReadsAsRate (unit : String) (y : ℝ) (s : String) : Prop :=
  ReadsAs (unit ++ "/s") y s ∨ ReadsAs (unit ++ "/min") (y * 60) s ∨ ReadsAs (unit ++ "/hr") (y * 3600) s

/-- shown correctly up to half of the last digit: two decimals from 1 to 100000, four significant digits above, whole numbers below -/
noncomputable def shownError (v : ℝ) : ℝ := if 100000 ≤ v then v / 2000 else if 1 ≤ v then 1 / 200 else 1 / 2

end BigO
