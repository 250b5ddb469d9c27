import Verif.Model.Display

/-!
# Model of measurements that scale themselves when shown

`/repo/src/utils/measurements/presentable_measurements.rs` 10-180.

Parameters (`NumText`): the texts of an `f64` with a number of decimals or in scientific notation, and of a `Duration`.
-/
namespace BigO
open F

/-- Rust formatting of `f64` that is not modelled -/
structure NumText where
  /-- `{:.k}` -/
  dec : Nat → F → String
  /-- `{:.3e}` -/
  exp3 : F → String
  /-- `{:?}` of a `Duration` -/
  dur : Duration → String

/-- `(threshold, scale, unit, format)`, presentable_measurements.rs 12-13 -/
structure ScaleEntry where
  threshold : F
  rate : F
  suffix : String
  format : String

/-- `PresentableMeasurement`, presentable_measurements.rs 10-14 (the slice of the table is modelled by its contents) -/
structure Presented where
  value : F
  autoScale : List ScaleEntry

/-- `Default`, presentable_measurements.rs 15-22 -/
noncomputable def Presented.default : Presented := ⟨fin 0, []⟩

section
variable (E : FloatEnv)

open Classical in
/-- the chosen scaled value, suffix and format, presentable_measurements.rs 26-30 -/
noncomputable def Presented.select (m : Presented) : F × String × String :=
  match m.autoScale.find? (fun e => decide (e.threshold ≤ m.value)) with
  | none => (m.value, "<missing_unit_suffix_please_fix>", ":.2")
  | some e => (E.div m.value e.rate, e.suffix, e.format)

/-- `Display`, presentable_measurements.rs 24-41 -/
noncomputable def Presented.display (N : NumText) (m : Presented) : Rs String :=
  match m.select E with
  | (v, suffix, ":.0") => .ok (N.dec 0 v ++ suffix)
  | (v, suffix, ":.1") => .ok (N.dec 1 v ++ suffix)
  | (v, suffix, ":.2") => .ok (N.dec 2 v ++ suffix)
  | (v, suffix, ":.3") => .ok (N.dec 3 v ++ suffix)
  | (v, suffix, ":.3e") => .ok (N.exp3 v ++ suffix)
  | (v, _, ":D") => (fromSecsF64 v).map N.dur
  | (_, _, format) => .error (.msg ("Unknown format '" ++ format ++ "'. Please update this code"))

/-- `duration_measurement`, presentable_measurements.rs 45-54 -/
noncomputable def durationMeasurement (d : Duration) : Presented :=
  ⟨asSecsF64 E d, [⟨fin 0, fin 1, "", ":D"⟩]⟩

open Classical in
/-- the scale is the threshold, but 1 for a threshold of 0, presentable_measurements.rs 69-75 and 99-105 -/
noncomputable def selfScaled (threshold : F) (suffix format : String) : ScaleEntry :=
  ⟨threshold, if threshold = fin 0 ∨ threshold = nzero then fin 1 else threshold, suffix, format⟩

/-- `bytes_measurement`, presentable_measurements.rs 58-82 -/
noncomputable def bytesMeasurement (v : F) : Presented :=
  ⟨v, [selfScaled (E.ofNat (2 ^ 40)) "TiB" ":.2", selfScaled (E.ofNat (2 ^ 30)) "GiB" ":.2",
    selfScaled (E.ofNat (2 ^ 20)) "MiB" ":.2", selfScaled (E.ofNat (2 ^ 10)) "KiB" ":.2",
    selfScaled (fin 1) "b" ":.0", selfScaled (fin 0) "b" ":.0"]⟩

/-- `bytes_per_second_measurement`, presentable_measurements.rs 86-112 -/
noncomputable def bytesPerSecondMeasurement (v : F) : Presented :=
  ⟨v, [selfScaled (E.ofNat (2 ^ 40)) "TiB/s" ":.2", selfScaled (E.ofNat (2 ^ 30)) "GiB/s" ":.2",
    selfScaled (E.ofNat (2 ^ 20)) "MiB/s" ":.2", selfScaled (E.ofNat (2 ^ 10)) "KiB/s" ":.2",
    selfScaled (fin 1) "b/s" ":.2", selfScaled (E.div (fin 1) (fin 60)) "b/min" ":.2",
    selfScaled (E.div (fin 1) (fin 3600)) "b/hr" ":.2", selfScaled (fin 0) "b/s" ":.0"]⟩

/-- the table of a custom unit, presentable_measurements.rs 130-138 -/
noncomputable def customTable (unit : String) : List ScaleEntry :=
  [⟨fin 100000, fin 1, unit, ":.3e"⟩, ⟨fin 1, fin 1, unit, ":.2"⟩, ⟨fin 0, fin 1, unit, ":.0"⟩]

/-- the table of a custom unit per second, presentable_measurements.rs 164-174 -/
noncomputable def customPerSecondTable (unit : String) : List ScaleEntry :=
  [⟨fin 100000, fin 1, unit ++ "/s", ":.3e"⟩, ⟨fin 1, fin 1, unit ++ "/s", ":.2"⟩,
   ⟨E.div (fin 1) (fin 60), E.div (fin 1) (fin 60), unit ++ "/min", ":.2"⟩,
   ⟨E.div (fin 1) (fin 3600), E.div (fin 1) (fin 3600), unit ++ "/hr", ":.2"⟩,
   ⟨fin 0, fin 1, unit ++ "/s", ":.0"⟩]

/-- a static `Option<HashMap<&str, Vec<..>>>`: `none` before the first use; an association list keeps the entries -/
abbrev ScaleCache := Option (List (String × List ScaleEntry))

/-- `get_or_insert_with(HashMap::new).entry(unit).or_insert_with(..)` : the entry and the new cache,
presentable_measurements.rs 121-139 and 155-175 -/
noncomputable def cachedTable (mk : String → List ScaleEntry) (c : ScaleCache) (unit : String) : List ScaleEntry × ScaleCache :=
  match (c.getD []).lookup unit with
  | some t => (t, some (c.getD []))
  | none => (mk unit, some ((unit, mk unit) :: c.getD []))

/-- the two caches (each function has its own static) -/
structure ScaleCaches where
  custom : ScaleCache
  perSecond : ScaleCache

/-- the caches when the program starts, presentable_measurements.rs 118 and 152 -/
def ScaleCaches.initial : ScaleCaches := ⟨none, none⟩

/-- `custom_unit_measurement`, presentable_measurements.rs 116-146 -/
noncomputable def customUnitMeasurement (c : ScaleCaches) (v : F) (unit : String) : Presented × ScaleCaches :=
  (⟨v, (cachedTable customTable c.custom unit).1⟩, { c with custom := (cachedTable customTable c.custom unit).2 })

/-- `custom_unit_per_second_measurement`, presentable_measurements.rs 150-180 -/
noncomputable def customUnitPerSecondMeasurement (c : ScaleCaches) (v : F) (unit : String) : Presented × ScaleCaches :=
  (⟨v, (cachedTable (customPerSecondTable E) c.perSecond unit).1⟩,
   { c with perSecond := (cachedTable (customPerSecondTable E) c.perSecond unit).2 })

end
end BigO
