import Verif.Model.Presentable
import Mathlib.Data.Int.Log
import Mathlib.Algebra.Order.Floor.Ring
import Mathlib.Algebra.Order.Floor.Semiring

/-!
# Model of the standard library's formatting of durations and numbers

The parameters of `TextEnv` (`Model/Display.lean`), as the Rust standard library defines them; used by
`/repo/src/low_level_analysis/types/types_impl.rs` 70-92, 102-122, 132-144, 164-168 and 195-199, by `/repo/src/runners/common.rs` 16-69 and
`crud.rs` 465. The standard library is not in `/repo`: `core::time::Duration`'s `Debug` and `core::fmt::float` are modelled from their
documentation; so are the parameters of `NumText` (`Model/Presentable.lean`), used by
`/repo/src/utils/measurements/presentable_measurements.rs` 24-41. A number exactly between two decimals is rounded up or down by a rule that depends on the version of the library: any rule.
-/
namespace BigO
open F

/-- which of the two neighbours a tie goes to, given the lower one: `true` is the upper one -/
abbrev TieRule := Nat → Bool

/-- the natural number nearest to a non-negative real -/
noncomputable def roundTie (up : TieRule) (x : ℝ) : Nat :=
  open Classical in
  if x - ⌊x⌋₊ < 1 / 2 then ⌊x⌋₊ else if x - ⌊x⌋₊ = 1 / 2 then (if up ⌊x⌋₊ then ⌊x⌋₊ + 1 else ⌊x⌋₊) else ⌊x⌋₊ + 1

/-- a decimal number padded with zeros on the left -/
def padZeros (k : Nat) (m : Nat) : List Char := List.replicate (k - (Nat.toDigits 10 m).length) '0' ++ Nat.toDigits 10 m

/-- the number `m / 10 ^ k` with `k` decimals -/
def fixedText (k m : Nat) : List Char :=
  Nat.toDigits 10 (m / 10 ^ k) ++ if k = 0 then [] else '.' :: padZeros k (m % 10 ^ k)

/-- `{:.k}` of an `f32` or `f64` -/
noncomputable def stdNum (up : TieRule) (k : Nat) : F → String
  | nan => "NaN"
  | inf false => "inf"
  | inf true => "-inf"
  | nzero => String.ofList ('-' :: fixedText k 0)
  | fin x => String.ofList ((if 0 ≤ x then [] else ['-']) ++ fixedText k (roundTie up (|x| * 10 ^ k)))

/-- the digits written by the loop of `fmt_decimal` for a fraction `frac / 10 ^ k`: it stops when nothing is left -/
def fracDigits : (k frac : Nat) → List Char
  | 0, _ => []
  | k + 1, frac => if frac = 0 then [] else Nat.digitChar (frac / 10 ^ k) :: fracDigits k (frac % 10 ^ k)

/-- `fmt_decimal` without precision: `whole + frac / 10 ^ k` in a unit -/
def decimalText (whole frac k : Nat) (unit : List Char) : List Char :=
  Nat.toDigits 10 whole ++ (if frac = 0 then [] else '.' :: fracDigits k frac) ++ unit

/-- the unit in which a duration is shown: the digits after the point that nanoseconds take, and its name -/
def durUnit (d : Duration) : Nat × List Char :=
  if 10 ^ 9 ≤ d then (9, ['s']) else if 10 ^ 6 ≤ d then (6, ['m', 's']) else if 10 ^ 3 ≤ d then (3, ['µ', 's']) else (0, ['n', 's'])

/-- `{:?}` of a `Duration` -/
def stdDur (d : Duration) : String :=
  String.ofList (decimalText (d / 10 ^ (durUnit d).1) (d % 10 ^ (durUnit d).1) (durUnit d).1 (durUnit d).2)

/-- `{:.3?}` of a `Duration`: the unit is chosen first, then the number is rounded (the carry of the rounding over the digits is modelled by
integer arithmetic) -/
noncomputable def stdDur3 (up : TieRule) (d : Duration) : String :=
  String.ofList (fixedText 3 (roundTie up ((d : ℝ) * 10 ^ 3 / 10 ^ (durUnit d).1)) ++ (durUnit d).2)

/-- `f32::round` (a half goes away from zero) -/
noncomputable def roundF : F → F
  | fin x => if 0 ≤ x then fin ⌊x + 1 / 2⌋ else if -(1 / 2) < x then nzero else fin ⌈x - 1 / 2⌉
  | x => x

open Classical in
/-- `(x.round() - x).abs() < 1e-3`, types_impl.rs 196 -/
noncomputable def stdWhole (E : FloatEnv) (x : F) : Bool := decide (F.abs (E.sub (roundF x) x) < E.rnd (1 / 1000))

/-- the formatting of the standard library over a given `f32` arithmetic -/
noncomputable def stdText (E : FloatEnv) (up : TieRule) : TextEnv where
  dur := stdDur
  dur3 := stdDur3 up
  num0 := stdNum up 0
  num2 := stdNum up 2
  whole := stdWhole E
  f32 := E

/-- `e` and an exponent -/
def exponentText (e : ℤ) : List Char := 'e' :: ((if e < 0 then ['-'] else []) ++ Nat.toDigits 10 e.natAbs)

/-- four significant digits of a positive number: the digits, as a whole number, and the exponent of the first one. Rounding 9999.5 and more up
gives one digit more, which moves the exponent (in the library the carry does it). -/
noncomputable def fourDigits (up : TieRule) (x : ℝ) : Nat × ℤ :=
  if roundTie up (x * 10 ^ (3 - Int.log 10 x)) = 10 ^ 4 then (10 ^ 3, Int.log 10 x + 1)
  else (roundTie up (x * 10 ^ (3 - Int.log 10 x)), Int.log 10 x)

/-- `{:.3e}` of an `f64` -/
noncomputable def stdExp3 (up : TieRule) : F → String
  | nan => "NaN"
  | inf false => "inf"
  | inf true => "-inf"
  | nzero => "-0.000e0"
  | fin x =>
    open Classical in
    if x = 0 then "0.000e0"
    else String.ofList ((if 0 ≤ x then [] else ['-']) ++ fixedText 3 (fourDigits up |x|).1 ++ exponentText (fourDigits up |x|).2)

/-- the formatting of measurements by the standard library -/
noncomputable def stdNumText (up : TieRule) : NumText where
  dec := stdNum up
  exp3 := stdExp3 up
  dur := stdDur

end BigO
