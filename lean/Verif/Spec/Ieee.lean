import Verif.Model.Float
import Mathlib.Data.Int.Log
import Mathlib.Algebra.Order.Floor.Ring
import Mathlib.Algebra.Order.Floor.Semiring

/-!
# IEEE-754 round to nearest, ties to even

Rust's `f64` and `f32` are binary64 and binary32 with this rounding (Rust reference, "Numeric types").  Used to instantiate
the rounding parameter `FloatEnv.rnd` of the model.
-/
namespace BigO
open F

/-- a binary format: `prec` significant bits, exponents of normal numbers from `emin` to `emax` -/
structure Format where
  prec : ℕ
  emin : ℤ
  emax : ℤ

/-- `f64` -/
def binary64 : Format := ⟨53, -1022, 1023⟩
/-- `f32` -/
def binary32 : Format := ⟨24, -126, 127⟩

namespace Format
variable (f : Format)

/-- the exponent of the last bit of a number of magnitude `x > 0`: `prec - 1` below its binary exponent, but not below that of
the subnormal numbers -/
noncomputable def lastBit (x : ℝ) : ℤ := max (Int.log 2 x) f.emin - (f.prec - 1)

/-- rounds a positive magnitude, with unbounded exponent -/
noncomputable def roundMag (x : ℝ) : ℝ := halfEven (x / 2 ^ f.lastBit x) * (2 : ℝ) ^ f.lastBit x

open Classical in
/-- rounds a real: too large magnitudes give an infinity, too small ones a zero, both keep the sign -/
noncomputable def round (x : ℝ) : F :=
  if 2 ^ (f.emax + 1) ≤ f.roundMag |x| then inf (decide (x < 0))
  else if f.roundMag |x| = 0 then zero (x < 0)
  else fin (if x < 0 then -f.roundMag |x| else f.roundMag |x|)

end Format

/-- binary64 arithmetic with given `log2`, `powi`, `powf` and tolerance -/
noncomputable def binary64Env (log2 : F → F) (powi : F → ℕ → F) (powf : F → F → F) (tol : F) : FloatEnv :=
  ⟨binary64.round, log2, powi, powf, tol⟩

end BigO
