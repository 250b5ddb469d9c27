import Verif.Model.Presentable
import Verif.Spec.Ieee

/-!
# What is expected of self-scaling measurements
-/
namespace BigO
open F

/-- a unit: how many base units it stands for, its name, and how many decimals are shown -/
structure MUnit where
  factor : ℝ
  name : String
  decimals : Nat

/-- the units of a number of bytes -/
def byteUnits : List MUnit :=
  [⟨1, "b", 0⟩, ⟨2 ^ 10, "KiB", 2⟩, ⟨2 ^ 20, "MiB", 2⟩, ⟨2 ^ 30, "GiB", 2⟩, ⟨2 ^ 40, "TiB", 2⟩]

/-- the units of a rate of bytes -/
noncomputable def byteRateUnits : List MUnit :=
  [⟨1 / 3600, "b/hr", 2⟩, ⟨1 / 60, "b/min", 2⟩, ⟨1, "b/s", 2⟩, ⟨2 ^ 10, "KiB/s", 2⟩, ⟨2 ^ 20, "MiB/s", 2⟩,
   ⟨2 ^ 30, "GiB/s", 2⟩, ⟨2 ^ 40, "TiB/s", 2⟩]

/-- the units of a rate of something -/
noncomputable def rateUnits (unit : String) : List MUnit :=
  [⟨1 / 3600, unit ++ "/hr", 2⟩, ⟨1 / 60, unit ++ "/min", 2⟩, ⟨1, unit ++ "/s", 2⟩]

/-- `u` is the largest of the units that are not larger than `v` -/
def LargestUnit (units : List MUnit) (v : ℝ) (u : MUnit) : Prop :=
  u ∈ units ∧ ∀ w ∈ units, w.factor ≤ v → w.factor ≤ u.factor

/-- a non-negative number that is a binary64 -/
def IsF64 (v : ℝ) : Prop := 0 ≤ v ∧ (v = 0 ∨ binary64.round v = fin v)

/-- a call of one of the two functions for custom units -/
inductive UnitCall
  | plain (v : F) (unit : String)
  | perSecond (v : F) (unit : String)

/-- the caches after a history of calls -/
noncomputable def afterCalls (E : FloatEnv) : ScaleCaches → List UnitCall → ScaleCaches
  | c, [] => c
  | c, .plain v u :: l => afterCalls E (customUnitMeasurement c v u).2 l
  | c, .perSecond v u :: l => afterCalls E (customUnitPerSecondMeasurement E c v u).2 l

end BigO
