import Mathlib.Data.List.Basic

/-! # What a place shows that is reused for every `N`-th element -/
namespace BigO

/-- a place was given the first of these elements, and is given a new one each time `N` more have come: what it shows in the end,
namely the last element whose index is a multiple of `N` -/
def latestLap {α : Type} (N : Nat) (since : List α) : Option α := since[(since.length - 1) / N * N]?

-- three slots: the place of the 1st element is reused for the 4th and the 7th
example : latestLap 3 [1, 2, 3] = some 1 ∧ latestLap 3 [1, 2, 3, 4] = some 4 ∧ latestLap 3 [1, 2, 3, 4, 5, 6, 7, 8] = some 7 := by decide

end BigO
