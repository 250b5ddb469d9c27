import Verif.Model.Float
import Mathlib.Analysis.SpecialFunctions.Log.Base
import Mathlib.Analysis.SpecialFunctions.Pow.Real

/-!
# The ideal arithmetic: exact reals

An instance of `FloatEnv` where nothing is rounded and `log2`, `powi`, `powf` are the mathematical functions
(with IEEE special cases; a negative base of `powf` is NaN here: usages are never negative).
The acceptance criteria (C02, C03, C10...) are stated for it.
-/
namespace BigO
open F

open Classical in
/-- `log2` without rounding -/
noncomputable def idealLog2 : F → F
  | nan => nan
  | inf s => if s then nan else inf false
  | nzero => inf true
  | fin x => if x = 0 then inf true else if x < 0 then nan else fin (Real.logb 2 x)

open Classical in
/-- `powi` without rounding -/
noncomputable def idealPowi (x : F) (k : ℕ) : F :=
  if k = 0 then fin 1 else
  match x with
  | nan => nan
  | inf s => inf (s && decide (k % 2 = 1))
  | nzero => if k % 2 = 1 then nzero else fin 0
  | fin x => fin (x ^ k)

open Classical in
/-- `powf` without rounding -/
noncomputable def idealPowf (x y : F) : F :=
  match y with
  | nan => if x = fin 1 then fin 1 else nan
  | inf s =>
    if ¬ x.isNum then nan
    else if x.abs = fin 1 then fin 1
    else if (x.abs < fin 1 ∧ s = false) ∨ (fin 1 < x.abs ∧ s = true) then fin 0
    else inf false
  | nzero => fin 1
  | fin y =>
    if y = 0 then fin 1 else
    match x with
    | nan => nan
    | inf s => if s then nan else if y < 0 then fin 0 else inf false
    | nzero => if y < 0 then inf false else fin 0
    | fin x => if x = 0 then (if y < 0 then inf false else fin 0) else if x < 0 then nan else fin (x ^ y)

/-- exact arithmetic with tolerance `t` -/
noncomputable def exactEnv (t : ℝ) : FloatEnv where
  rnd := fin
  log2 := idealLog2
  powi := idealPowi
  powf := idealPowf
  tol := fin t

end BigO
