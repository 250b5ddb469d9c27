import Verif.Model.StatsText
import Verif.Spec.StatsTextSpec
import Mathlib.Tactic.Common

/-!
# C98: the text of allocator statistics
-/
namespace BigO

/-- **C98** (right figures): the text gives every figure of the statistics under its own name. -/
theorem C98_labelled (s : Stats) : Labelled (figures.map (fun f => (f.1, s f.2))) s.text := by
  have h0 : Labelled [] "}" := .nil _ (by decide)
  have h1 := Labelled.cons ", " "max_used_memory" (s .maxUsedMemory) _ _ (by decide) h0
  have h2 := Labelled.cons ", " "min_used_memory" (s .minUsedMemory) _ _ (by decide) h1
  have h3 := Labelled.cons "}}, " "current_used_memory" (s .currentUsedMemory) _ _ (by decide) h2
  have h4 := Labelled.cons ", " "news" (s .reallocatedNewsBytes) _ _ (by decide) h3
  have h5 := Labelled.cons ", reallocated: {" "originals" (s .reallocatedOriginalsBytes) _ _ (by decide) h4
  have h6 := Labelled.cons ", " "zeroed" (s .zeroedAllocatedBytes) _ _ (by decide) h5
  have h7 := Labelled.cons ", " "deallocated" (s .deallocatedBytes) _ _ (by decide) h6
  have h8 := Labelled.cons "}, bytes: {" "allocated" (s .allocatedBytes) _ _ (by decide) h7
  have h9 := Labelled.cons ", " "reallocations" (s .reallocationsCount) _ _ (by decide) h8
  have h10 := Labelled.cons ", " "zeroed_allocations" (s .zeroedAllocationsCount) _ _ (by decide) h9
  have h11 := Labelled.cons ", " "deallocations" (s .deallocationsCount) _ _ (by decide) h10
  have h12 := Labelled.cons "{counts: {" "allocations" (s .allocationsCount) _ _ (by decide) h11
  refine Eq.mp (congrArg (Labelled _) ?_) h12
  have e0 : "{counts: {allocations: " = "{counts: {" ++ "allocations" ++ ": " := by decide
  have e1 : ", deallocations: " = ", " ++ "deallocations" ++ ": " := by decide
  have e2 : ", zeroed_allocations: " = ", " ++ "zeroed_allocations" ++ ": " := by decide
  have e3 : ", reallocations: " = ", " ++ "reallocations" ++ ": " := by decide
  have e4 : "}, bytes: {allocated: " = "}, bytes: {" ++ "allocated" ++ ": " := by decide
  have e5 : ", deallocated: " = ", " ++ "deallocated" ++ ": " := by decide
  have e6 : ", zeroed: " = ", " ++ "zeroed" ++ ": " := by decide
  have e7 : ", reallocated: {originals: " = ", reallocated: {" ++ "originals" ++ ": " := by decide
  have e8 : ", news: " = ", " ++ "news" ++ ": " := by decide
  have e9 : "}}, current_used_memory: " = "}}, " ++ "current_used_memory" ++ ": " := by decide
  have e10 : ", min_used_memory: " = ", " ++ "min_used_memory" ++ ": " := by decide
  have e11 : ", max_used_memory: " = ", " ++ "max_used_memory" ++ ": " := by decide
  unfold Stats.text
  rw [e0, e1, e2, e3, e4, e5, e6, e7, e8, e9, e10, e11]
  simp only [String.append_assoc]

theorem number_then {a b : Nat} {c : Char} (hc : c.isDigit = false) {r r' : List Char}
    (h : Nat.toDigits 10 a ++ c :: r = Nat.toDigits 10 b ++ c :: r') : a = b ∧ r = r' := by
  have ht : ∀ (n : Nat) (l : List Char), (Nat.toDigits 10 n ++ c :: l).takeWhile Char.isDigit = Nat.toDigits 10 n := by
    intro n l
    rw [List.takeWhile_append_of_pos (fun x hx => Nat.isDigit_of_mem_toDigits (by omega) (by omega) hx)]
    simp [hc]
  have h1 : Nat.toDigits 10 a = Nat.toDigits 10 b := by rw [← ht a r, ← ht b r', h]
  refine ⟨?_, ?_⟩
  · rw [← Nat.ofDigitChars_ten_toDigits (n := a), h1, Nat.ofDigitChars_ten_toDigits]
  · rw [h1] at h
    exact (List.cons.inj (List.append_cancel_left h)).2

theorem number_sep {a b : Nat} {sep : String} (hs : sep.toList.head?.map Char.isDigit = some false) {r r' : List Char}
    (h : Nat.toDigits 10 a ++ (sep.toList ++ r) = Nat.toDigits 10 b ++ (sep.toList ++ r')) : a = b ∧ r = r' := by
  generalize sep.toList = l at *
  cases l with
  | nil => simp at hs
  | cons c l =>
    simp only [List.head?_cons, Option.map_some, Option.some.injEq] at hs
    obtain ⟨h1, h2⟩ := number_then (r := l ++ r) (r' := l ++ r') hs h
    exact ⟨h1, List.append_cancel_left h2⟩

theorem twelve_numbers {p0 p1 p2 p3 p4 p5 p6 p7 p8 p9 p10 p11 p12 : String} {a0 a1 a2 a3 a4 a5 a6 a7 a8 a9 a10 a11 b0 b1 b2 b3 b4 b5 b6 b7 b8 b9 b10 b11 : Nat}
    (h1 : p1.toList.head?.map Char.isDigit = some false) (h2 : p2.toList.head?.map Char.isDigit = some false) (h3 : p3.toList.head?.map Char.isDigit = some false) (h4 : p4.toList.head?.map Char.isDigit = some false) (h5 : p5.toList.head?.map Char.isDigit = some false) (h6 : p6.toList.head?.map Char.isDigit = some false) (h7 : p7.toList.head?.map Char.isDigit = some false) (h8 : p8.toList.head?.map Char.isDigit = some false) (h9 : p9.toList.head?.map Char.isDigit = some false) (h10 : p10.toList.head?.map Char.isDigit = some false) (h11 : p11.toList.head?.map Char.isDigit = some false) (h12 : p12.toList.head?.map Char.isDigit = some false)
    (h : p0 ++ toString a0 ++ p1 ++ toString a1 ++ p2 ++ toString a2 ++ p3 ++ toString a3 ++ p4 ++ toString a4 ++ p5 ++ toString a5 ++ p6 ++ toString a6 ++ p7 ++ toString a7 ++ p8 ++ toString a8 ++ p9 ++ toString a9 ++ p10 ++ toString a10 ++ p11 ++ toString a11 ++ p12 =
      p0 ++ toString b0 ++ p1 ++ toString b1 ++ p2 ++ toString b2 ++ p3 ++ toString b3 ++ p4 ++ toString b4 ++ p5 ++ toString b5 ++ p6 ++ toString b6 ++ p7 ++ toString b7 ++ p8 ++ toString b8 ++ p9 ++ toString b9 ++ p10 ++ toString b10 ++ p11 ++ toString b11 ++ p12) :
    a0 = b0 ∧ a1 = b1 ∧ a2 = b2 ∧ a3 = b3 ∧ a4 = b4 ∧ a5 = b5 ∧ a6 = b6 ∧ a7 = b7 ∧ a8 = b8 ∧ a9 = b9 ∧ a10 = b10 ∧ a11 = b11 := by
  replace h := congrArg String.toList h
  have hn : ∀ n : Nat, (toString n).toList = Nat.toDigits 10 n := fun n => by rw [Nat.toString_eq_repr, Nat.toList_repr]
  simp only [String.toList_append, hn, List.append_assoc] at h
  replace h := List.append_cancel_left h
  obtain ⟨k0, h⟩ := number_sep h1 h
  obtain ⟨k1, h⟩ := number_sep h2 h
  obtain ⟨k2, h⟩ := number_sep h3 h
  obtain ⟨k3, h⟩ := number_sep h4 h
  obtain ⟨k4, h⟩ := number_sep h5 h
  obtain ⟨k5, h⟩ := number_sep h6 h
  obtain ⟨k6, h⟩ := number_sep h7 h
  obtain ⟨k7, h⟩ := number_sep h8 h
  obtain ⟨k8, h⟩ := number_sep h9 h
  obtain ⟨k9, h⟩ := number_sep h10 h
  obtain ⟨k10, h⟩ := number_sep h11 h
  obtain ⟨k11, -⟩ := number_sep (r := []) (r' := []) h12 (by simpa using h)
  exact ⟨k0, k1, k2, k3, k4, k5, k6, k7, k8, k9, k10, k11⟩

/-- **C98** (nothing is lost): statistics with the same text are the same. -/
theorem C98_unambiguous (s s' : Stats) (h : s.text = s'.text) : s = s' := by
  unfold Stats.text at h
  obtain ⟨k0, k1, k2, k3, k4, k5, k6, k7, k8, k9, k10, k11⟩ := twelve_numbers (by decide) (by decide) (by decide) (by decide) (by decide) (by decide) (by decide) (by decide) (by decide) (by decide) (by decide) (by decide) h
  funext k
  cases k <;> assumption

example : Stats.text (fun _ => 7) ≠ Stats.text (fun k => if k = .minUsedMemory then 77 else 7) :=
  fun h => absurd (congrFun (C98_unambiguous (fun _ => 7) (fun k => if k = .minUsedMemory then 77 else 7) h) .minUsedMemory) (by decide)

example : Stats.text (fun _ => 7) = "{counts: {allocations: 7, deallocations: 7, zeroed_allocations: 7, reallocations: 7}, " ++
    "bytes: {allocated: 7, deallocated: 7, zeroed: 7, reallocated: {originals: 7, news: 7}}, " ++
    "current_used_memory: 7, min_used_memory: 7, max_used_memory: 7}" := by decide +kernel

end BigO
