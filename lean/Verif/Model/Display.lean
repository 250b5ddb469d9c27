import Verif.Model.PassResult
import Mathlib.Algebra.Order.Floor.Semiring

/-!
# Model of the report texts

`/repo/src/low_level_analysis/types/types_impl.rs` 51-207.

Parameters (`TextEnv`): the texts of `Duration`'s `{:?}` and `{:.3?}`, of an `f32` with 0 or 2 decimals, the test "is a whole
number up to 1e-3" (types_impl.rs 196), and the `f32` arithmetic.
-/
namespace BigO
open F

/-- Rust formatting that is not modelled -/
structure TextEnv where
  /-- `{:?}` of a `Duration` -/
  dur : Duration → String
  /-- `{:.3?}` of a `Duration` -/
  dur3 : Duration → String
  /-- `{:.0}` of an `f32` -/
  num0 : F → String
  /-- `{:.2}` of an `f32` -/
  num2 : F → String
  /-- `(x.round() - x).abs() < 1e-3` -/
  whole : F → Bool
  /-- the `f32` arithmetic -/
  f32 : FloatEnv

/-- the `isize` result of an operation whose exact value is `z` -/
def isizeRes (p : Profile) (e : Panic) (z : Int) : Rs Int :=
  if -2 ^ 63 ≤ z ∧ z < 2 ^ 63 then .ok z
  else match p with
    | .checked => .error e
    | .wrapping => .ok ((z + 2 ^ 63) % 2 ^ 64 - 2 ^ 63)

/-- Rust `n as isize` of a `usize` -/
def isizeOf (n : Nat) : Int := if n < 2 ^ 63 then n else n - 2 ^ 64

/-- `{:>w}`: right aligned in `w` characters -/
def padLeft (w : Nat) (s : String) : String := String.ofList (List.replicate (w - s.length) ' ') ++ s

section
variable (T : TextEnv)

open Classical in
/-- the unit of a (non-negative) amount, types_impl.rs 165 and 193 -/
noncomputable def memUnit (x : F) : String :=
  if fin (2 ^ 30) < x then "GiB" else if fin (2 ^ 20) < x then "MiB" else if fin (2 ^ 10) < x then "KiB" else "b"

open Classical in
/-- the amount in that unit, types_impl.rs 166 and 194 -/
noncomputable def memScaled (x : F) : F :=
  if fin (2 ^ 30) < x then T.f32.div x (fin (2 ^ 30))
  else if fin (2 ^ 20) < x then T.f32.div x (fin (2 ^ 20))
  else if fin (2 ^ 10) < x then T.f32.div x (fin (2 ^ 10))
  else x

open Classical in
/-- the sign shown, types_impl.rs 189-190 -/
noncomputable def memSign (s : SpacePass) (n : Nat) : String :=
  let used := T.f32.div (T.f32.sub (T.f32.ofNat s.usedAfter) (T.f32.ofNat s.usedBefore)) (T.f32.ofNat n)
  if fin 0 < used then "+" else if used < fin 0 then "-" else ""

/-- the amount shown: the larger of the excursions above and below the start, types_impl.rs 191-192, in bytes per element -/
noncomputable def memAmount (p : Profile) (s : SpacePass) (n : Nat) : Rs F :=
  match usizeSub p s.maxUsed s.usedBefore, usizeSub p s.usedBefore s.minUsed with
  | .error e, _ => .error e
  | _, .error e => .error e
  | .ok up, .ok down => .ok (T.f32.div (T.f32.ofNat (max up down)) (T.f32.ofNat n))

/-- `BigOSpacePassMeasurements::fmt_over_n`, types_impl.rs 188-201 (193-194: `.abs()` of a number that is never negative, or
NaN, is omitted) -/
noncomputable def fmtOverN (p : Profile) (s : SpacePass) (n : Nat) : Rs String :=
  match memAmount T p s n with
  | .error e => .error e
  | .ok x =>
    let num := if T.whole (memScaled T x) && memUnit x == "b" then T.num0 (memScaled T x) else T.num2 (memScaled T x)
    .ok (memSign T s n ++ num ++ memUnit x)

/-- `Display for BigOSpacePassMeasurements`, types_impl.rs 203-207 -/
noncomputable def displaySpacePass (p : Profile) (s : SpacePass) : Rs String := fmtOverN T p s 1

/-- `used_memory_delta`, types_impl.rs 150-153: evaluated from left to right in `isize` -/
def usedMemoryDelta (p : Profile) (m : SpaceMeasurements) : Rs Int :=
  match isizeRes p .subtractOverflow (isizeOf m.pass2.usedAfter - isizeOf m.pass2.usedBefore) with
  | .error e => .error e
  | .ok a =>
    match isizeRes p .addOverflow (a + isizeOf m.pass1.usedAfter) with
    | .error e => .error e
    | .ok b => isizeRes p .subtractOverflow (b - isizeOf m.pass1.usedBefore)

/-- `used_auxiliary_space`, types_impl.rs 156-159: evaluated from left to right in `usize` -/
def usedAuxiliarySpace (p : Profile) (m : SpaceMeasurements) : Rs Nat :=
  match usizeSub p m.pass2.maxUsed (max m.pass2.usedAfter m.pass2.usedBefore) with
  | .error e => .error e
  | .ok a =>
    match usizeAdd p a m.pass1.maxUsed with
    | .error e => .error e
    | .ok b => usizeSub p b (max m.pass1.usedAfter m.pass1.usedBefore)

/-- `to_human_readable_string`, types_impl.rs 164-168 -/
noncomputable def humanReadable (x : F) : String := T.num2 (memScaled T x) ++ memUnit x

/-- `isize::abs` -/
def isizeAbs (p : Profile) (z : Int) : Rs Int := isizeRes p (.msg "attempt to negate with overflow") |z|

/-- `Display for BigOSpaceMeasurements`, types_impl.rs 161-177 -/
noncomputable def displaySpace (p : Profile) (m : SpaceMeasurements) : Rs String :=
  match usedMemoryDelta p m with
  | .error e => .error e
  | .ok d =>
    match usedAuxiliarySpace p m with
    | .error e => .error e
    | .ok aux =>
      match isizeAbs p d with
      | .error e => .error e
      | .ok a =>
        .ok ((if 0 ≤ d then "allocated" else "freed") ++ ": " ++ humanReadable T (T.f32.rnd0 (a : ℝ)) ++
          "; auxiliary used space: " ++ humanReadable T (T.f32.ofNat aux))

end

section
variable (E : FloatEnv) (T : TextEnv)

/-- the time per element column, types_impl.rs 86, 90, 116, 120, 141 and 142 -/
noncomputable def timePerElement (d : Duration) (n : Nat) : Rs Duration :=
  fromSecsF64 (E.div (asSecsF64 E d) (E.ofNat n))

/-- one row of a table -/
def tableRow (k : String) (time space : String) (cols : List String) (perElem : String) : String :=
  k ++ ") " ++ padLeft 13 time ++ "  " ++ padLeft 14 space ++
    (cols.map fun c => "  " ++ padLeft 12 c).foldl (· ++ ·) "" ++ "  " ++ padLeft 12 perElem ++ "\n"

/-- `AlgorithmMeasurements` (without the custom measurements), types.rs 73-86 -/
structure RegularMeasurements where
  name : String
  info : PassesInfo
  time : TimeMeasurements
  space : SpaceMeasurements
  deriving DecidableEq, Repr

/-- `ConstantSetIteratorAlgorithmMeasurements` (`pass1_measurements` and `pass2_measurements` repeat the same numbers),
types.rs 91-103 -/
structure ConstantSetMeasurements where
  name : String
  info : ConstantSetPassesInfo
  time : TimeMeasurements
  space : SpaceMeasurements
  deriving DecidableEq, Repr

/-- `SetResizingIteratorAlgorithmMeasurements`, types.rs 114-123 -/
structure SetResizingMeasurements where
  name : String
  info : SetResizingPassesInfo
  time : TimeMeasurements
  space : SpaceMeasurements
  deriving DecidableEq, Repr

/-- `BigOAlgorithmAnalysis`, types.rs 63-67 -/
structure AnalysisOf (M : Type) where
  time : Complexity
  space : Complexity
  m : M
  deriving DecidableEq, Repr

/-- `Display for AlgorithmMeasurements`, types_impl.rs 68-92 -/
noncomputable def displayRegular (p : Profile) (m : RegularMeasurements) : Rs String := do
  let s1 ← displaySpacePass T p m.space.pass1
  let s2 ← displaySpacePass T p m.space.pass2
  let n1 ← fmtOverN T p m.space.pass1 m.info.pass1n
  let n2 ← fmtOverN T p m.space.pass2 m.info.pass2n
  let t1 ← timePerElement E m.time.pass1 m.info.pass1n
  let t2 ← timePerElement E m.time.pass2 m.info.pass2n
  return "'" ++ m.name ++ "' regular-algorithm measurements:\n" ++
    "pass          Δt              Δs             n            s⁻           t⁻\n" ++
    tableRow "1" (T.dur m.time.pass1) s1 [toString m.info.pass1n, n1] (T.dur3 t1) ++
    tableRow "2" (T.dur m.time.pass2) s2 [toString m.info.pass2n, n2] (T.dur3 t2)

/-- `Display for ConstantSetIteratorAlgorithmMeasurements`, types_impl.rs 100-122 -/
noncomputable def displayConstantSet (p : Profile) (m : ConstantSetMeasurements) : Rs String := do
  let s1 ← displaySpacePass T p m.space.pass1
  let s2 ← displaySpacePass T p m.space.pass2
  let t1 ← timePerElement E m.time.pass1 m.info.repetitions
  let t2 ← timePerElement E m.time.pass2 m.info.repetitions
  return "'" ++ m.name ++ "' constant set iterator-algorithm measurements:\n" ++
    "pass          Δt              Δs            Σn            ⊆r            t⁻\n" ++
    tableRow "1" (T.dur m.time.pass1) s1 [toString m.info.pass1SetSize, toString m.info.repetitions] (T.dur3 t1) ++
    tableRow "2" (T.dur m.time.pass2) s2 [toString m.info.pass2SetSize, toString m.info.repetitions] (T.dur3 t2)

/-- `Display for SetResizingIteratorAlgorithmMeasurements`, types_impl.rs 130-144 -/
noncomputable def displaySetResizing (p : Profile) (m : SetResizingMeasurements) : Rs String := do
  let s1 ← displaySpacePass T p m.space.pass1
  let s2 ← displaySpacePass T p m.space.pass2
  let t1 ← timePerElement E m.time.pass1 m.info.deltaSetSize
  let n2 ← u32Mul p m.info.deltaSetSize 2
  let t2 ← timePerElement E m.time.pass2 m.info.deltaSetSize
  return "'" ++ m.name ++ "' set resizing iterator-algorithm measurements:\n" ++
    "pass          Δt              Δs            Σn            t⁻\n" ++
    tableRow "1" (T.dur m.time.pass1) s1 [toString m.info.deltaSetSize] (T.dur3 t1) ++
    tableRow "2" (T.dur m.time.pass2) s2 [toString n2] (T.dur3 t2)

/-- `Display for BigOAlgorithmAnalysis`, types_impl.rs 51-60, given the text of its measurements -/
noncomputable def displayAnalysis (p : Profile) (time space : Complexity) (m : SpaceMeasurements) (measurements : Rs String) :
    Rs String := do
  let t ← measurements
  let s ← displaySpace T p m
  return t ++ "--> Algorithm  Time Analysis: " ++ time.asTimePrettyStr ++ "\n" ++
    "--> Algorithm Space Analysis: " ++ space.asSpacePrettyStr ++ " (" ++ s ++ ")\n"

/-- the report of a regular algorithm -/
noncomputable def reportRegular (p : Profile) (a : AnalysisOf RegularMeasurements) : Rs String :=
  displayAnalysis T p a.time a.space a.m.space (displayRegular E T p a.m)

/-- the report of a read or update operation -/
noncomputable def reportConstantSet (p : Profile) (a : AnalysisOf ConstantSetMeasurements) : Rs String :=
  displayAnalysis T p a.time a.space a.m.space (displayConstantSet E T p a.m)

/-- the report of a create or delete operation -/
noncomputable def reportSetResizing (p : Profile) (a : AnalysisOf SetResizingMeasurements) : Rs String :=
  displayAnalysis T p a.time a.space a.m.space (displaySetResizing E T p a.m)

end
end BigO
