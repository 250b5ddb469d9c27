import Verif.Spec.ExactFloat
import Verif.Spec.Ieee
import Verif.Spec.Limits

/-!
# What is assumed of the mathematical library functions

Only `log2` of small integers and small powers; `powf` is arbitrary except where limits of exponential classes are concerned. One unit in the
last place is a relative error of 2^-52, so the assumptions leave room for 16 of them.
-/
namespace BigO
open F

/-- `log2` of integers up to 2^34 and squares, cubes and fourth powers of numbers from 2^-64 to 2^64 have a relative error of at
most 2^-48 -/
structure AccurateLibrary (log2 : F → F) (powi : F → ℕ → F) : Prop where
  log2_near : ∀ n : ℕ, 2 ≤ n → n ≤ 2 ^ 34 →
    ∃ l : ℝ, log2 (fin n) = fin l ∧ |l - Real.logb 2 n| ≤ Real.logb 2 n / 2 ^ 48
  powi_near : ∀ (x : ℝ) (k : ℕ), 1 / 2 ^ 64 ≤ x → x ≤ 2 ^ 64 → 2 ≤ k → k ≤ 4 →
    ∃ y : ℝ, powi (fin x) k = fin y ∧ |y - x ^ k| ≤ x ^ k / 2 ^ 48

/-- `powf` of positive numbers: results between 2^-1000 and 2^1000 have a relative error of at most 2^-48; larger ones come out large or
infinite, smaller ones small or zero -/
structure AccuratePowf (powf : F → F → F) : Prop where
  near : ∀ x y : ℝ, 0 < x → 0 < y → 1 ≤ x ^ y * 2 ^ 1000 → x ^ y ≤ 2 ^ 1000 →
    ∃ w : ℝ, powf (fin x) (fin y) = fin w ∧ |w - x ^ y| ≤ x ^ y / 2 ^ 48
  large : ∀ x y : ℝ, 0 < x → 0 < y → 2 ^ 1000 < x ^ y →
    powf (fin x) (fin y) = inf false ∨ ∃ w : ℝ, powf (fin x) (fin y) = fin w ∧ 2 ^ 999 ≤ w
  small : ∀ x y : ℝ, 0 < x → 0 < y → x ^ y * 2 ^ 1000 < 1 →
    ∃ w : ℝ, powf (fin x) (fin y) = fin w ∧ 0 ≤ w ∧ w * 2 ^ 999 ≤ 1

/-- what is needed to decide a limit for set sizes `n1` and `n2`: nothing up to `O(n⁴)`, nor for `WorseThanExponential`; for the limits
`BetweenON4AndOkN` and `OkN`, an accurate `powf` and a second set at most 32 times larger -/
def Covered (powf : F → F → F) (n1 n2 : ℕ) (limit : Complexity) : Prop :=
  limit.asU32 ≤ Complexity.oN4.asU32 ∨ limit = .worseThanExponential ∨ (AccuratePowf powf ∧ n2 ≤ 32 * n1)

/-- the shipped arithmetic with tolerance `tol` (`features.rs` 7-13: the literal `0.10` or `0.25`) -/
noncomputable def shippedEnv (log2 : F → F) (powi : F → ℕ → F) (powf : F → F → F) (tol : ℝ) : FloatEnv :=
  binary64Env log2 powi powf (binary64.round tol)

end BigO
