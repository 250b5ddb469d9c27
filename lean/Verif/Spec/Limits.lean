import Verif.Spec.Growth
import Verif.Model.Analysis

/-!
# What a complexity limit asks of two measurements

`u1`, `u2` are the resources (seconds or bytes) used by the first and the second pass, `n1 ≤ n2` the set sizes, `tol` the
tolerance (0.10 or 0.25).
-/
namespace BigO

/-- growth from `n1` to `n2` of a class with growth function `f` -/
noncomputable def grows (f : ℝ → ℝ) (n1 n2 : ℝ) : ℝ := f n2 / f n1

/-- the limit `c` is met by a regular algorithm -/
def MeetsLimit (tol n1 n2 u1 u2 : ℝ) (c : Complexity) : Prop :=
  let atMost (f : ℝ → ℝ) := u2 / u1 ≤ (1 + tol) * grows f n1 n2
  let lessThan (f : ℝ → ℝ) := u2 / u1 < (1 - tol) * grows f n1 n2
  match c with
  | .betterThanO1 => u2 / u1 < 1 - tol
  | .o1 => u2 / u1 ≤ 1 + tol
  | .betweenO1AndOLogN => u2 / u1 ≤ 1 + tol ∨ lessThan (fun n => Real.logb 2 n)
  | .oLogN => atMost (fun n => Real.logb 2 n)
  | .betweenOLogNAndON => atMost (fun n => Real.logb 2 n) ∨ lessThan (fun n => n)
  | .oN => atMost (fun n => n)
  | .betweenONAndONLogN => atMost (fun n => n) ∨ lessThan (fun n => n * Real.logb 2 n)
  | .oNLogN => atMost (fun n => n * Real.logb 2 n)
  | .betweenONLogNAndON2 => atMost (fun n => n * Real.logb 2 n) ∨ lessThan (fun n => n ^ 2)
  | .oN2 => atMost (fun n => n ^ 2)
  | .betweenON2AndON3 => atMost (fun n => n ^ 2) ∨ lessThan (fun n => n ^ 3)
  | .oN3 => atMost (fun n => n ^ 3)
  | .betweenON3AndON4 => atMost (fun n => n ^ 3) ∨ lessThan (fun n => n ^ 4)
  | .oN4 => atMost (fun n => n ^ 4)
  | .betweenON4AndOkN => atMost (fun n => n ^ 4) ∨ u2 < (1 - tol) * u1 ^ (n2 / n1)
  | .okN => atMost (fun n => n ^ 4) ∨ u2 ≤ (1 + tol) * u1 ^ (n2 / n1)
  | .worseThanExponential => True

/-- the limit `c` is met by an algorithm that resizes the set; each pass adds (or removes) `n` elements -/
def MeetsResizingLimit (tol n u1 u2 : ℝ) (c : Complexity) : Prop :=
  let logGrowth := Real.logb 2 (n * 3) / Real.logb 2 n
  match c with
  | .betterThanO1 => (1 + tol) * (u2 / u1) < 1
  | .o1 => u2 / u1 ≤ 1 + tol
  | .betweenO1AndOLogN => u2 / u1 ≤ 1 + tol ∨ u2 / u1 < logGrowth
  | .oLogN => u2 / u1 ≤ 1 + tol ∨ u2 / u1 < (1 + tol) * logGrowth
  | .betweenOLogNAndON => u2 / u1 ≤ 1 + tol ∨ u2 / u1 < (1 + tol) * logGrowth ∨ u2 / u1 < 3 * (1 - tol)
  | .oN => u2 / u1 ≤ 3 * (1 + tol) ∨ u2 / u1 < (1 + tol) * logGrowth
  | _ => True

/-- the bytes a pass used: its peak above the reading before it -/
def bytesUsed (s : SpacePass) : ℕ := s.maxUsed - s.usedBefore

/-- two-sided acceptance: `verdict` is at most `limit` if the limit is met with a margin of one part in 2^40, and only if it is met
when the second pass is forgiven one part in 2^40 -/
def AcceptsUpTo (meets : ℝ → Complexity → Prop) (u2 : ℝ) (verdict limit : Complexity) : Prop :=
  (meets (u2 * (1 + 1 / 2 ^ 40)) limit → verdict.asU32 ≤ limit.asU32) ∧
  (verdict.asU32 ≤ limit.asU32 → meets (u2 * (1 - 1 / 2 ^ 40)) limit)

end BigO
