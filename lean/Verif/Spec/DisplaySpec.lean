import Verif.Model.Display

/-!
# What is expected of the reports
-/
namespace BigO

/-- readings that the allocator can make of a real heap: the reading before the pass lies between the extremes, the one after
it is not above the peak, and there are less than 4 EiB -/
structure PlausibleReading (s : SpacePass) : Prop where
  min_le : s.minUsed ≤ s.usedBefore
  before_le : s.usedBefore ≤ s.maxUsed
  after_le : s.usedAfter ≤ s.maxUsed
  small : s.maxUsed < 2 ^ 62

/-- a duration below 2^53 seconds (285 million years) -/
def PlausibleTime (d : Duration) : Prop := d / 10 ^ 9 < 2 ^ 53

/-- bytes per element: the larger excursion from the reading before the pass -/
noncomputable def excursionPerElement (s : SpacePass) (n : Nat) : ℝ :=
  (max ((s.maxUsed : ℝ) - s.usedBefore) ((s.usedBefore : ℝ) - s.minUsed)) / n

/-- the sign to show -/
def signOf (s : SpacePass) : String :=
  if s.usedBefore < s.usedAfter then "+" else if s.usedAfter < s.usedBefore then "-" else ""

/-- unit, bytes per unit, and the range of numbers shown with it (exclusive, inclusive) -/
def unitTable : List (String × ℝ × ℝ × ℝ) :=
  [("b", 1, -1, 2 ^ 10), ("KiB", 2 ^ 10, 1, 2 ^ 10), ("MiB", 2 ^ 20, 1, 2 ^ 10)]

/-- `text` shows an amount of `bytes` in `f32` arithmetic: a number within one part in 2^22 of the amount in the unit, and the unit,
which the table gives for the number shown (`GiB` above the table). `num` formats the number given the unit. -/
def ShowsAbout (num : String → F → String) (bytes : ℝ) (text : String) : Prop :=
  ∃ unit scale shown, text = num unit (F.fin shown) ++ unit ∧ |shown * scale - bytes| ≤ bytes * 2 ^ (-22 : ℤ) ∧
    ((∃ lo hi, (unit, scale, lo, hi) ∈ unitTable ∧ lo < shown ∧ shown ≤ hi) ∨ (unit = "GiB" ∧ scale = 2 ^ 30 ∧ 1 < shown))

/-- the change of the used memory is visible in `f32`: both readings are up to 16 MiB, or the change is more than one part in
2^22 of the larger reading -/
def ChangeVisible (s : SpacePass) : Prop :=
  (s.usedBefore ≤ 2 ^ 24 ∧ s.usedAfter ≤ 2 ^ 24) ∨
    max s.usedBefore s.usedAfter < 2 ^ 22 * (max s.usedBefore s.usedAfter - min s.usedBefore s.usedAfter)

end BigO
