import Verif.Model.Rust
import Verif.Model.Float
import Verif.Model.Complexity

/-!
# Model of the low level analysis

`/repo/src/low_level_analysis/low_level_analysis.rs` 12-72, `time_analysis.rs` 11-73, `space_analysis.rs` 14-72.
-/
namespace BigO
open F

section
variable (E : FloatEnv)

/-- `1.0 - PERCENT_TOLERANCE` -/
noncomputable def oneMinusTol : F := E.sub (fin 1) E.tol

open Classical in
/-- `analyse_complexity`, low_level_analysis.rs 12-48. -/
noncomputable def analyseComplexity (u1 u2 n1 n2 : F) : Complexity :=
  if E.div u2 u1 < oneMinusTol E then .betterThanO1
  else if F.abs (E.sub (E.div u2 u1) (fin 1)) ≤ E.tol then .o1
  else if E.div (E.div u2 u1) (E.div (E.log2 n2) (E.log2 n1)) < oneMinusTol E then .betweenO1AndOLogN
  else if F.abs (E.sub (E.div (E.div u2 u1) (E.div (E.log2 n2) (E.log2 n1))) (fin 1)) ≤ E.tol then .oLogN
  else if E.div (E.div u2 u1) (E.div n2 n1) < oneMinusTol E then .betweenOLogNAndON
  else if F.abs (E.sub (E.div (E.div u2 u1) (E.div n2 n1)) (fin 1)) ≤ E.tol then .oN
  else if E.div (E.div u2 u1) (E.div (E.mul n2 (E.log2 n2)) (E.mul n1 (E.log2 n1))) < oneMinusTol E then
    .betweenONAndONLogN
  else if F.abs (E.sub (E.div (E.div u2 u1) (E.div (E.mul n2 (E.log2 n2)) (E.mul n1 (E.log2 n1)))) (fin 1)) ≤ E.tol then
    .oNLogN
  else if E.div (E.div u2 u1) (E.powi (E.div n2 n1) 2) < oneMinusTol E then .betweenONLogNAndON2
  else if F.abs (E.sub (E.div (E.div u2 u1) (E.powi (E.div n2 n1) 2)) (fin 1)) ≤ E.tol then .oN2
  else if E.div (E.div u2 u1) (E.powi (E.div n2 n1) 3) < oneMinusTol E then .betweenON2AndON3
  else if F.abs (E.sub (E.div (E.div u2 u1) (E.powi (E.div n2 n1) 3)) (fin 1)) ≤ E.tol then .oN3
  else if E.div (E.div u2 u1) (E.powi (E.div n2 n1) 4) < oneMinusTol E then .betweenON3AndON4
  else if F.abs (E.sub (E.div (E.div u2 u1) (E.powi (E.div n2 n1) 4)) (fin 1)) ≤ E.tol then .oN4
  else if E.div u2 (E.powf u1 (E.div n2 n1)) < oneMinusTol E then .betweenON4AndOkN
  else if F.abs (E.sub (E.div u2 (E.powf u1 (E.div n2 n1))) (fin 1)) ≤ E.tol then .okN
  else .worseThanExponential

open Classical in
/-- `analyse_set_resizing_iterator_complexity`, low_level_analysis.rs 54-72. -/
noncomputable def analyseSetResizing (u1 u2 n : F) : Complexity :=
  if E.tol < E.sub (E.div u1 u2) (fin 1) then .betterThanO1
  else if F.abs (E.sub (E.div u2 u1) (fin 1)) ≤ E.tol then .o1
  else if E.div (E.div u2 u1) (E.div (E.log2 (E.mul n (fin 3))) (E.log2 n)) < fin 1 then .betweenO1AndOLogN
  else if F.abs (E.sub (E.div (E.div u2 u1) (E.div (E.log2 (E.mul n (fin 3))) (E.log2 n))) (fin 1)) < E.tol then .oLogN
  else if F.abs (E.sub (E.div (E.div u2 u1) (fin 3)) (fin 1)) ≤ E.tol then .oN
  else if E.tol < E.sub (E.div (E.div u2 u1) (fin 3)) (fin 1) then .betweenONAndONLogN
  else .betweenOLogNAndON

end

/-- `std::time::Duration`: whole nanoseconds (seconds * 10^9 + nanos) -/
abbrev Duration := ℕ

/-- `BigOTimeMeasurements`, types.rs 123-126. -/
structure TimeMeasurements where
  pass1 : Duration
  pass2 : Duration
  deriving DecidableEq, Repr

/-- `BigOSpacePassMeasurements`, types.rs 137-146. -/
structure SpacePass where
  usedBefore : ℕ
  usedAfter : ℕ
  maxUsed : ℕ
  minUsed : ℕ
  deriving DecidableEq, Repr

/-- `BigOSpaceMeasurements`, types.rs 130-133. -/
structure SpaceMeasurements where
  pass1 : SpacePass
  pass2 : SpacePass
  deriving DecidableEq, Repr

/-- `AlgorithmPassesInfo`, types.rs 151-156. -/
structure PassesInfo where
  pass1n : ℕ
  pass2n : ℕ
  deriving DecidableEq, Repr

/-- `ConstantSetIteratorAlgorithmPassesInfo`, types.rs 160-168. -/
structure ConstantSetPassesInfo where
  pass1SetSize : ℕ
  pass2SetSize : ℕ
  repetitions : ℕ
  deriving DecidableEq, Repr

/-- `SetResizingIteratorAlgorithmPassesInfo`, types.rs 172-177. -/
structure SetResizingPassesInfo where
  deltaSetSize : ℕ
  deriving DecidableEq, Repr

section
variable (E : FloatEnv)

/-- `Duration::as_secs_f64` of the standard library: `(secs as f64) + (nanos as f64) / 1e9`. -/
noncomputable def asSecsF64 (d : Duration) : F :=
  E.addNonneg (E.ofNat (d / 10 ^ 9)) (E.div (E.ofNat (d % 10 ^ 9)) (fin (10 ^ 9)))

/-- `analyse_time_complexity`, time_analysis.rs 11-24. -/
noncomputable def analyseTime (info : PassesInfo) (m : TimeMeasurements) : Complexity :=
  analyseComplexity E (asSecsF64 E m.pass1) (asSecsF64 E m.pass2) (E.ofNat info.pass1n) (E.ofNat info.pass2n)

/-- `analyse_time_complexity_for_constant_set_iterator_algorithm`, time_analysis.rs 37-50. -/
noncomputable def analyseTimeConstantSet (info : ConstantSetPassesInfo) (m : TimeMeasurements) : Complexity :=
  analyseComplexity E (asSecsF64 E m.pass1) (asSecsF64 E m.pass2)
    (E.ofNat (min info.pass1SetSize info.pass2SetSize)) (E.ofNat (max info.pass1SetSize info.pass2SetSize))

/-- `analyse_time_complexity_for_set_resizing_iterator_algorithm`, time_analysis.rs 63-73. -/
noncomputable def analyseTimeSetResizing (info : SetResizingPassesInfo) (m : TimeMeasurements) : Complexity :=
  analyseSetResizing E (asSecsF64 E m.pass1) (asSecsF64 E m.pass2) (E.ofNat info.deltaSetSize)

/-- `analyse_space_complexity`, space_analysis.rs 14-26. -/
noncomputable def analyseSpace (p : Profile) (info : PassesInfo) (m : SpaceMeasurements) : Rs Complexity := do
  let s1 ← usizeSub p m.pass1.maxUsed m.pass1.usedBefore
  let s2 ← usizeSub p m.pass2.maxUsed m.pass2.usedBefore
  return analyseComplexity E (E.ofNat s1) (E.ofNat s2) (E.ofNat info.pass1n) (E.ofNat info.pass2n)

/-- `analyse_space_complexity_for_constant_set_iterator_algorithm`, space_analysis.rs 37-49. -/
noncomputable def analyseSpaceConstantSet (p : Profile) (info : ConstantSetPassesInfo) (m : SpaceMeasurements) :
    Rs Complexity := do
  let s1 ← usizeSub p m.pass1.maxUsed m.pass1.usedBefore
  let s2 ← usizeSub p m.pass2.maxUsed m.pass2.usedBefore
  return analyseComplexity E (E.ofNat s1) (E.ofNat s2)
    (E.ofNat (min info.pass1SetSize info.pass2SetSize)) (E.ofNat (max info.pass1SetSize info.pass2SetSize))

/-- `analyse_space_complexity_for_set_resizing_iterator_algorithm`, space_analysis.rs 62-72. -/
noncomputable def analyseSpaceSetResizing (p : Profile) (info : SetResizingPassesInfo) (m : SpaceMeasurements) :
    Rs Complexity := do
  let s1 ← usizeSub p m.pass1.maxUsed m.pass1.usedBefore
  let s2 ← usizeSub p m.pass2.maxUsed m.pass2.usedBefore
  return analyseSetResizing E (E.ofNat s1) (E.ofNat s2) (E.ofNat info.deltaSetSize)

end
end BigO
