import Mathlib.Data.EReal.Basic
import Mathlib.Data.Real.Basic
import Mathlib.Algebra.Order.Floor.Semiring
import Mathlib.Algebra.Order.Archimedean.Real.Basic
import Mathlib.Algebra.Group.Even
import Mathlib.Algebra.Group.Nat.Even

/-!
# Model of `f64`

IEEE-754 values are modelled by `F`: NaN, signed infinities, negative zero, and finite reals (`fin 0` is `+0`).
The rounding of an exact real result to a representable value, and the libm functions `log2`, `powi`, `powf`
used by `/repo/src/low_level_analysis/low_level_analysis.rs` 12-72, are parameters collected in `FloatEnv`.
Everything else (special cases for NaN, infinities and signed zeros) follows IEEE-754.
Simplification: `F` contains all reals, not only the representable ones; theorems are therefore about a superset
of the `f64` values.  NaN payloads and signs are not modelled (not observable by the modelled code).
-/
namespace BigO

/-- An IEEE-754 value. -/
inductive F
  | nan
  | inf (neg : Bool)
  | nzero
  | fin (x : ℝ)

namespace F

/-- the value on the extended real line (NaN has none: junk 0, always guarded by `isNum`). -/
noncomputable def toE : F → EReal
  | nan => 0
  | inf true => ⊥
  | inf false => ⊤
  | nzero => 0
  | fin x => (x : EReal)

/-- not a NaN -/
def isNum : F → Prop
  | nan => False
  | _ => True

/-- sign bit -/
def neg : F → Prop
  | nan => False
  | inf s => s = true
  | nzero => True
  | fin x => x < 0

/-- Rust `a < b` on f64: false if any side is NaN; `-0.0 == 0.0`. -/
def lt (a b : F) : Prop := a.isNum ∧ b.isNum ∧ a.toE < b.toE
/-- Rust `a <= b` on f64. -/
def le (a b : F) : Prop := a.isNum ∧ b.isNum ∧ a.toE ≤ b.toE

instance : LT F := ⟨lt⟩
instance : LE F := ⟨le⟩

open Classical in
/-- a zero whose sign bit is set iff `s` -/
noncomputable def zero (s : Prop) : F := if s then nzero else fin 0

open Classical in
/-- an infinity whose sign bit is set iff `s` -/
noncomputable def infS (s : Prop) : F := inf (decide s)

open Classical in
/-- `f64::abs` -/
noncomputable def abs : F → F
  | nan => nan
  | inf _ => inf false
  | nzero => fin 0
  | fin x => fin |x|

/-- real value of a finite number (junk 0 on non-finite; only used on finite ones) -/
noncomputable def val : F → ℝ
  | fin x => x
  | _ => 0

end F

/-- The parts of the f64 arithmetic that are parameters of the model. -/
structure FloatEnv where
  /-- rounds a non-zero exact real result to a f64 -/
  rnd : ℝ → F
  /-- `f64::log2` -/
  log2 : F → F
  /-- `f64::powi` -/
  powi : F → Nat → F
  /-- `f64::powf` -/
  powf : F → F → F
  /-- `PERCENT_TOLERANCE`, features.rs 7-13 -/
  tol : F

namespace FloatEnv
variable (E : FloatEnv)
open F

open Classical in
/-- rounds any exact real; an exact zero is `+0` -/
noncomputable def rnd0 (x : ℝ) : F := if x = 0 then fin 0 else E.rnd x

open Classical in
/-- IEEE division of two finite numbers -/
noncomputable def divFin (a b : F) : F :=
  if b.val = 0 then (if a.val = 0 then nan else infS (Xor a.neg b.neg))
  else if a.val = 0 then zero (Xor a.neg b.neg)
  else E.rnd (a.val / b.val)

/-- Rust `a / b` on f64 -/
noncomputable def div (a b : F) : F :=
  match a, b with
  | nan, _ => nan
  | _, nan => nan
  | inf _, inf _ => nan
  | inf s, b => infS (Xor (s = true) b.neg)
  | a, inf s => zero (Xor a.neg (s = true))
  | a, b => E.divFin a b

open Classical in
/-- IEEE multiplication of two finite numbers -/
noncomputable def mulFin (a b : F) : F :=
  if a.val * b.val = 0 then zero (Xor a.neg b.neg) else E.rnd (a.val * b.val)

open Classical in
/-- Rust `a * b` on f64 -/
noncomputable def mul (a b : F) : F :=
  match a, b with
  | nan, _ => nan
  | _, nan => nan
  | inf s, inf t => infS (Xor (s = true) (t = true))
  | inf s, b => if b.val = 0 then nan else infS (Xor (s = true) b.neg)
  | a, inf s => if a.val = 0 then nan else infS (Xor a.neg (s = true))
  | a, b => E.mulFin a b

open Classical in
/-- Rust `a - b` on f64 (round-to-nearest: an exact zero difference is `+0`, except `-0 - +0 = -0`) -/
noncomputable def sub (a b : F) : F :=
  match a, b with
  | nan, _ => nan
  | _, nan => nan
  | inf s, inf t => if s = t then nan else inf s
  | inf s, _ => inf s
  | _, inf s => inf (!s)
  | nzero, fin y => if y = 0 then nzero else E.rnd (-y)
  | a, b => E.rnd0 (a.val - b.val)

/-- Rust `a + b` on finite non-negative f64 numbers (only used by `Duration::as_secs_f64` and by the sum over the threads of a
pass in this model). -/
noncomputable def addNonneg (a b : F) : F :=
  match a, b with
  | nan, _ => nan
  | _, nan => nan
  | inf s, _ => inf s
  | _, inf s => inf s
  | a, b => E.rnd0 (a.val + b.val)

/-- Rust `n as f64` for an unsigned integer (u32, u64 or usize) -/
noncomputable def ofNat (n : ℕ) : F := E.rnd0 (n : ℝ)

end FloatEnv

/-- the nearest natural number; the even one of two equally near -/
noncomputable def halfEven (z : ℝ) : ℕ :=
  if z - ⌊z⌋₊ < 1 / 2 then ⌊z⌋₊
  else if 1 / 2 < z - ⌊z⌋₊ then ⌊z⌋₊ + 1
  else if Even ⌊z⌋₊ then ⌊z⌋₊ else ⌊z⌋₊ + 1

end BigO
