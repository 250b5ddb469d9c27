import Verif.Spec.DisplaySpec

/-! # What a report must contain -/
namespace BigO

/-- the pieces occur in `text`, in this order and without overlapping -/
def ShowsInOrder (text : String) : List String → Prop
  | [] => True
  | x :: xs => ∃ pre post, text = pre ++ x ++ post ∧ ShowsInOrder post xs

/-- `text` is an amount of `bytes` with two decimals, in the unit the table gives for it (`GiB` above the table) -/
def ShowsBytes (T : TextEnv) (bytes : ℝ) (text : String) : Prop :=
  ∃ unit scale, text = T.num2 (F.fin (bytes / scale)) ++ unit ∧
    ((∃ lo hi, (unit, scale, lo, hi) ∈ unitTable ∧ lo < bytes / scale ∧ bytes / scale ≤ hi) ∨
     (unit = "GiB" ∧ scale = 2 ^ 30 ∧ 1 < bytes / scale))

/-- growth of the used memory over both passes, in bytes -/
def totalChange (m : SpaceMeasurements) : ℤ :=
  ((m.pass1.usedAfter : ℤ) - m.pass1.usedBefore) + ((m.pass2.usedAfter : ℤ) - m.pass2.usedBefore)

/-- peak use beyond the larger of the readings at the ends, over both passes, in bytes -/
def totalAuxiliary (m : SpaceMeasurements) : ℕ :=
  (m.pass1.maxUsed - max m.pass1.usedAfter m.pass1.usedBefore) + (m.pass2.maxUsed - max m.pass2.usedAfter m.pass2.usedBefore)

end BigO
