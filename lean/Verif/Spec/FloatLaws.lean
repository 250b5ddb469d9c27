import Verif.Model.Float

/-!
# The assumptions on the f64 arithmetic

Nothing is assumed about `log2`, `powi` and `powf` here: theorems that only need `FloatLaws` hold whatever
these library functions return.  `Verif.Props.Binary64` shows that IEEE-754 binary64 round-to-nearest-even
satisfies `FloatLaws`; `Verif.Proofs.Exact` shows it for exact real arithmetic.
-/
namespace BigO
open F

/-- What the monotonicity theorems need of rounding and of the tolerance constant. -/
structure FloatLaws (E : FloatEnv) : Prop where
  /-- rounding never produces NaN -/
  rnd_num : ∀ x, (E.rnd x).isNum
  /-- rounding is monotone -/
  rnd_mono : ∀ x y, x ≤ y → (E.rnd x).toE ≤ (E.rnd y).toE
  /-- rounding keeps the sign, even on underflow -/
  rnd_pos : ∀ x, 0 < x → ¬ (E.rnd x).neg
  rnd_neg : ∀ x, x < 0 → (E.rnd x).neg
  /-- integers up to 2^53 are exact -/
  rnd_nat : ∀ n : ℕ, n ≤ 2 ^ 53 → E.rnd n = fin n
  /-- a rounded value is representable: rounding it again changes nothing -/
  rnd_idem : ∀ x y, E.rnd x = fin y → E.rnd y = fin y
  /-- one nanosecond, in seconds, does not underflow to zero -/
  rnd_nano : 0 < (E.rnd (1 / 10 ^ 9)).toE
  /-- the tolerance constant `t`, the computed `1 - t` (= `c`) and `1 / c` (= `d`) behave -/
  tol_consts : ∃ t c d : ℝ, E.tol = fin t ∧ E.rnd (1 - t) = fin c ∧ E.rnd (1 / c) = fin d ∧
    0 < t ∧ t < 1 ∧ 0 < c ∧ c < 1 ∧ 1 < d ∧
    ((-t : ℝ) : EReal) ≤ (E.rnd (c - 1)).toE ∧ ((t : ℝ) : EReal) < (E.rnd (d - 1)).toE

/-- What the degenerate-set-size theorem needs of `log2` (IEEE-754 special values and sign). -/
structure LogLaws (E : FloatEnv) : Prop where
  log_zero : E.log2 (fin 0) = inf true
  log_one : E.log2 (fin 1) = fin 0
  log_two_up : ∀ n : ℕ, 2 ≤ n → ∃ l : ℝ, 0 < l ∧ E.log2 (fin n) = fin l

/-- What antitonicity in the first-pass usage needs of `powf`: monotone in a positive base for non-negative exponents,
never NaN nor negative there. -/
structure PowfLaws (E : FloatEnv) : Prop where
  powf_pos : ∀ u y : F, fin 0 < u → fin 0 ≤ y → (E.powf u y).isNum ∧ ¬ (E.powf u y).neg
  powf_mono : ∀ u v y : F, fin 0 < u → u ≤ v → fin 0 ≤ y → (E.powf u y).toE ≤ (E.powf v y).toE

end BigO
