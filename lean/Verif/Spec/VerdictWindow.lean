import Verif.Spec.Limits

/-!
# Which measurements get which verdict

`u1`, `u2` are the resources used by the first and the second pass, `n1 ≤ n2` the set sizes, `tol` the tolerance.
-/
namespace BigO

/-- the growth `u2 / u1` is more than `tol` above that of the class with growth function `f` -/
def TooMuchFor (tol n1 n2 u1 u2 : ℝ) (f : ℝ → ℝ) : Prop := (1 + tol) * grows f n1 n2 < u2 / u1

/-- it is more than `tol` below -/
def TooLittleFor (tol n1 n2 u1 u2 : ℝ) (f : ℝ → ℝ) : Prop := u2 / u1 < (1 - tol) * grows f n1 n2

/-- it is within `tol` -/
def Matches (tol n1 n2 u1 u2 : ℝ) (f : ℝ → ℝ) : Prop := (1 - tol) * grows f n1 n2 ≤ u2 / u1 ∧ u2 / u1 ≤ (1 + tol) * grows f n1 n2

/-- the measurements that get the verdict `c`: those of a named class are within the tolerance of its growth, and above the tolerance
of the class before it; those between two classes are above the tolerance of the one and below that of the other -/
def VerdictWindow (tol n1 n2 u1 u2 : ℝ) (c : Complexity) : Prop :=
  let above := TooMuchFor tol n1 n2 u1 u2
  let below := TooLittleFor tol n1 n2 u1 u2
  let matching := Matches tol n1 n2 u1 u2
  let one : ℝ → ℝ := fun _ => 1
  let log : ℝ → ℝ := fun n => Real.logb 2 n
  let lin : ℝ → ℝ := fun n => n
  let nlog : ℝ → ℝ := fun n => n * Real.logb 2 n
  let sq : ℝ → ℝ := fun n => n ^ 2
  let cube : ℝ → ℝ := fun n => n ^ 3
  let fourth : ℝ → ℝ := fun n => n ^ 4
  let expo : ℝ := u1 ^ (n2 / n1)
  match c with
  | .betterThanO1 => below one
  | .o1 => matching one
  | .betweenO1AndOLogN => above one ∧ below log
  | .oLogN => above one ∧ matching log
  | .betweenOLogNAndON => above log ∧ below lin
  | .oN => above log ∧ matching lin
  | .betweenONAndONLogN => above lin ∧ below nlog
  | .oNLogN => above lin ∧ matching nlog
  | .betweenONLogNAndON2 => above nlog ∧ below sq
  | .oN2 => above nlog ∧ matching sq
  | .betweenON2AndON3 => above sq ∧ below cube
  | .oN3 => above sq ∧ matching cube
  | .betweenON3AndON4 => above cube ∧ below fourth
  | .oN4 => above cube ∧ matching fourth
  | .betweenON4AndOkN => above fourth ∧ u2 < (1 - tol) * expo
  | .okN => above fourth ∧ (1 - tol) * expo ≤ u2 ∧ u2 ≤ (1 + tol) * expo
  | .worseThanExponential => above fourth ∧ (1 + tol) * expo < u2

/-- the verdicts some second measurement gets, the first one being `u1`: every named class up to `O(n⁴)`, and the ones at both ends;
a verdict between two classes only if their growths, from `n1` to `n2`, differ by more than the tolerances of both -/
def CanBeReported (tol n1 n2 u1 : ℝ) (c : Complexity) : Prop :=
  match c with
  | .betweenO1AndOLogN => 1 + tol < (1 - tol) * (Real.logb 2 n2 / Real.logb 2 n1)
  | .betweenOLogNAndON => (1 + tol) * (Real.logb 2 n2 / Real.logb 2 n1) < (1 - tol) * (n2 / n1)
  | .betweenONAndONLogN => 1 + tol < (1 - tol) * (Real.logb 2 n2 / Real.logb 2 n1)
  | .betweenONLogNAndON2 => (1 + tol) * (Real.logb 2 n2 / Real.logb 2 n1) < (1 - tol) * (n2 / n1)
  | .betweenON2AndON3 => 1 + tol < (1 - tol) * (n2 / n1)
  | .betweenON3AndON4 => 1 + tol < (1 - tol) * (n2 / n1)
  | .betweenON4AndOkN => (1 + tol) * (u1 * (n2 / n1) ^ 4) < (1 - tol) * u1 ^ (n2 / n1)
  | .okN => u1 * (n2 / n1) ^ 4 < u1 ^ (n2 / n1)
  | _ => True

/-- the measurements of a pass that adds or removes `n` elements which get the verdict `c`; the second pass works on three times as
many elements as the first -/
def ResizingWindow (tol n u1 u2 : ℝ) (c : Complexity) : Prop :=
  let r := u2 / u1
  let log := Real.logb 2 (n * 3) / Real.logb 2 n
  match c with
  | .betterThanO1 => (1 + tol) * r < 1
  | .o1 => 1 ≤ (1 + tol) * r ∧ r ≤ 1 + tol
  | .betweenO1AndOLogN => 1 + tol < r ∧ r < log
  | .oLogN => 1 + tol < r ∧ log ≤ r ∧ r < (1 + tol) * log
  | .betweenOLogNAndON => (1 + tol) * log ≤ r ∧ r < 3 * (1 - tol)
  | .oN => (1 + tol) * log ≤ r ∧ 3 * (1 - tol) ≤ r ∧ r ≤ 3 * (1 + tol)
  | .betweenONAndONLogN => 3 * (1 + tol) < r
  | _ => False

/-- the verdicts some second measurement of such a pass gets -/
def CanBeReportedResizing (tol n : ℝ) (c : Complexity) : Prop :=
  match c with
  | .betterThanO1 | .o1 | .oLogN | .oN | .betweenONAndONLogN => True
  | .betweenO1AndOLogN => 1 + tol < Real.logb 2 (n * 3) / Real.logb 2 n
  | .betweenOLogNAndON => (1 + tol) * (Real.logb 2 (n * 3) / Real.logb 2 n) < 3 * (1 - tol)
  | _ => False

end BigO
