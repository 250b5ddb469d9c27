import Verif.Proofs.Shipped
import Verif.Spec.VerdictWindow

/-! # Which measurements get which verdict -/
namespace BigO
open F

/-- a verdict is `c` iff it is at most `c` but not at most the one before -/
theorem eq_iff_step {v b c : Complexity} (hb : b.asU32 + 1 = c.asU32) : v = c ↔ v.asU32 ≤ c.asU32 ∧ ¬ v.asU32 ≤ b.asU32 := by
  constructor
  · rintro rfl; exact ⟨le_refl _, by omega⟩
  · rintro ⟨h, h'⟩; exact asU32_injective (by omega)

theorem eq_iff_first {v : Complexity} : v = .betterThanO1 ↔ v.asU32 ≤ Complexity.betterThanO1.asU32 := by
  constructor
  · rintro rfl; exact le_refl _
  · intro h; exact asU32_injective (Nat.le_antisymm h (Nat.zero_le _))

theorem window_iff_of {t u1 u2 n1 n2 : ℝ} (ht : 0 < t) (hu1 : 0 < u1) (hu2 : 0 ≤ u2) (hs : SlowLog n1 n2) (c : Complexity) :
    analyseComplexity (exactEnv t) (fin u1) (fin u2) (fin n1) (fin n2) = c ↔ VerdictWindow t n1 n2 u1 u2 c := by
  have key := fun b c (hb : Complexity.asU32 b + 1 = Complexity.asU32 c) =>
    (eq_iff_step (v := analyseComplexity (exactEnv t) (fin u1) (fin u2) (fin n1) (fin n2)) hb).trans
      (and_congr (meets_iff_of ht hu1 hu2 hs c) (not_congr (meets_iff_of ht hu1 hu2 hs b)))
  have g1 : grows (fun _ => (1:ℝ)) n1 n2 = 1 := by simp [grows]
  cases c
  case betterThanO1 =>
    rw [eq_iff_first, meets_iff_of ht hu1 hu2 hs]
    simp only [MeetsLimit, VerdictWindow, TooLittleFor, g1, mul_one]
  case o1 => rw [key .betterThanO1 _ rfl]; simp only [MeetsLimit, VerdictWindow, Matches, g1, mul_one, ← not_lt]; tauto
  case betweenO1AndOLogN =>
    rw [key .o1 _ rfl]; simp only [MeetsLimit, VerdictWindow, TooMuchFor, TooLittleFor, g1, mul_one, ← not_le]; tauto
  case oLogN =>
    rw [key .betweenO1AndOLogN _ rfl]
    simp only [MeetsLimit, VerdictWindow, TooMuchFor, Matches, g1, mul_one, not_or, not_le, not_lt]; tauto
  case betweenOLogNAndON =>
    rw [key .oLogN _ rfl]; simp only [MeetsLimit, VerdictWindow, TooMuchFor, TooLittleFor, ← not_le]; tauto
  case oN =>
    rw [key .betweenOLogNAndON _ rfl]; simp only [MeetsLimit, VerdictWindow, TooMuchFor, Matches, not_or, not_le, not_lt]; tauto
  case betweenONAndONLogN =>
    rw [key .oN _ rfl]; simp only [MeetsLimit, VerdictWindow, TooMuchFor, TooLittleFor, ← not_le]; tauto
  case oNLogN =>
    rw [key .betweenONAndONLogN _ rfl]; simp only [MeetsLimit, VerdictWindow, TooMuchFor, Matches, not_or, not_le, not_lt]; tauto
  case betweenONLogNAndON2 =>
    rw [key .oNLogN _ rfl]; simp only [MeetsLimit, VerdictWindow, TooMuchFor, TooLittleFor, ← not_le]; tauto
  case oN2 =>
    rw [key .betweenONLogNAndON2 _ rfl]; simp only [MeetsLimit, VerdictWindow, TooMuchFor, Matches, not_or, not_le, not_lt]; tauto
  case betweenON2AndON3 =>
    rw [key .oN2 _ rfl]; simp only [MeetsLimit, VerdictWindow, TooMuchFor, TooLittleFor, ← not_le]; tauto
  case oN3 =>
    rw [key .betweenON2AndON3 _ rfl]; simp only [MeetsLimit, VerdictWindow, TooMuchFor, Matches, not_or, not_le, not_lt]; tauto
  case betweenON3AndON4 =>
    rw [key .oN3 _ rfl]; simp only [MeetsLimit, VerdictWindow, TooMuchFor, TooLittleFor, ← not_le]; tauto
  case oN4 =>
    rw [key .betweenON3AndON4 _ rfl]; simp only [MeetsLimit, VerdictWindow, TooMuchFor, Matches, not_or, not_le, not_lt]; tauto
  case betweenON4AndOkN =>
    rw [key .oN4 _ rfl]; simp only [MeetsLimit, VerdictWindow, TooMuchFor, ← not_le]; tauto
  case okN =>
    rw [key .betweenON4AndOkN _ rfl]; simp only [MeetsLimit, VerdictWindow, TooMuchFor, not_or, not_le, not_lt]
    constructor
    · rintro ⟨a | a, b, c⟩
      · linarith
      · exact ⟨b, c, a⟩
    · rintro ⟨a, b, c⟩; exact ⟨Or.inr c, a, b⟩
  case worseThanExponential =>
    rw [key .okN _ rfl]; simp only [MeetsLimit, VerdictWindow, TooMuchFor, not_or, not_le, true_and]

theorem window_iff {t u1 u2 n1 n2 : ℝ} (ht : 0 < t) (hu1 : 0 < u1) (hu2 : 0 ≤ u2) (h1 : 3 ≤ n1) (h : n1 ≤ n2) (c : Complexity) :
    analyseComplexity (exactEnv t) (fin u1) (fin u2) (fin n1) (fin n2) = c ↔ VerdictWindow t n1 n2 u1 u2 c :=
  window_iff_of ht hu1 hu2 (slowLog_of_three h1 h) c

theorem L3_lt_three {n : ℝ} (hn : 2 ≤ n) : Real.logb 2 (n * 3) / Real.logb 2 n < 3 := by
  have p := logb_pos2 hn
  rw [div_lt_iff₀ p, show 3 * Real.logb 2 n = Real.logb 2 (n ^ 3) by rw [Real.logb_pow]; norm_num]
  exact Real.logb_lt_logb (by norm_num) (by positivity) (by nlinarith [mul_le_mul hn hn (by norm_num) (by linarith)])

theorem resizing_window_iff {t u1 u2 n : ℝ} (ht : 0 < t) (ht1 : t < 1) (hu1 : 0 < u1) (hu2 : 0 ≤ u2) (hn : 2 ≤ n) (c : Complexity) :
    analyseSetResizing (exactEnv t) (fin u1) (fin u2) (fin n) = c ↔ ResizingWindow t n u1 u2 c := by
  have key := fun b c (hb : Complexity.asU32 b + 1 = Complexity.asU32 c) =>
    (eq_iff_step (v := analyseSetResizing (exactEnv t) (fin u1) (fin u2) (fin n)) hb).trans
      (and_congr (meets_resizing_iff ht ht1 hu1 hu2 hn c) (not_congr (meets_resizing_iff ht ht1 hu1 hu2 hn b)))
  have l1 : 1 < Real.logb 2 (n * 3) / Real.logb 2 n := L3_gt_one hn
  have l3 := L3_lt_three hn
  have m1 : 1 + t < (1 + t) * (Real.logb 2 (n * 3) / Real.logb 2 n) := by nlinarith
  have m3 : (1 + t) * (Real.logb 2 (n * 3) / Real.logb 2 n) < 3 * (1 + t) := by nlinarith
  cases c
  case betterThanO1 =>
    rw [eq_iff_first, meets_resizing_iff ht ht1 hu1 hu2 hn]
    simp only [MeetsResizingLimit, ResizingWindow]
  case o1 => rw [key .betterThanO1 _ rfl]; simp only [MeetsResizingLimit, ResizingWindow, not_lt]; tauto
  case betweenO1AndOLogN =>
    rw [key .o1 _ rfl]; simp only [MeetsResizingLimit, ResizingWindow, ← not_le]; tauto
  case oLogN =>
    rw [key .betweenO1AndOLogN _ rfl]; simp only [MeetsResizingLimit, ResizingWindow, not_or, not_le, not_lt]
    constructor
    · rintro ⟨a | a, b, c⟩
      · linarith
      · exact ⟨b, c, a⟩
    · rintro ⟨a, b, c⟩; exact ⟨Or.inr c, a, b⟩
  case betweenOLogNAndON =>
    rw [key .oLogN _ rfl]; simp only [MeetsResizingLimit, ResizingWindow, not_or, not_le, not_lt]
    constructor
    · rintro ⟨a | a | a, b, c⟩
      · linarith
      · linarith
      · exact ⟨c, a⟩
    · rintro ⟨a, b⟩; exact ⟨Or.inr (Or.inr b), by linarith, a⟩
  case oN =>
    rw [key .betweenOLogNAndON _ rfl]; simp only [MeetsResizingLimit, ResizingWindow, not_or, not_le, not_lt]
    constructor
    · rintro ⟨a | a, b, c, d⟩
      · exact ⟨c, d, a⟩
      · linarith
    · rintro ⟨a, b, c⟩; exact ⟨Or.inl c, by linarith, a, b⟩
  case betweenONAndONLogN =>
    rw [key .oN _ rfl]; simp only [MeetsResizingLimit, ResizingWindow, not_or, not_le, not_lt, true_and]
    constructor
    · rintro ⟨a, b⟩; exact a
    · intro a; exact ⟨a, by linarith⟩
  all_goals
    simp only [ResizingWindow, iff_false]
    intro e
    have := C11_ceiling (exactEnv t) (fin u1) (fin u2) (fin n) .betweenONAndONLogN (le_refl _)
    rw [e] at this
    exact absurd this (by decide)

/-! ### Which windows are empty -/

/-- a logarithm grows strictly less than its argument -/
theorem log_ratio_lt {n1 n2 : ℝ} (h1 : 3 ≤ n1) (h : n1 < n2) : Real.logb 2 n2 / Real.logb 2 n1 < n2 / n1 := by
  have p1 : 0 < n1 := by linarith
  have p2 : 0 < n2 := by linarith
  have hl : 1 < Real.log n1 := by
    rw [Real.lt_log_iff_exp_lt p1]; linarith [Real.exp_one_lt_d9]
  have e : Real.logb 2 n2 / Real.logb 2 n1 = Real.log n2 / Real.log n1 := by
    unfold Real.logb
    rw [div_div_div_cancel_right₀ (Real.log_pos (by norm_num)).ne']
  rw [e, div_lt_iff₀ (by linarith)]
  have hq : 1 < n2 / n1 := (one_lt_div p1).2 h
  have := Real.log_lt_sub_one_of_pos (div_pos p2 p1) hq.ne'
  rw [Real.log_div p2.ne' p1.ne'] at this
  nlinarith

theorem log_ratio_gt_one {n1 n2 : ℝ} (h1 : 3 ≤ n1) (h : n1 < n2) : 1 < Real.logb 2 n2 / Real.logb 2 n1 := by
  rw [one_lt_div (logb_pos2 (by linarith))]
  exact Real.logb_lt_logb (by norm_num) (by linarith) h

theorem reach_between {u1 lo hi : ℝ} (hu : 0 < u1) (h0 : 0 ≤ lo) : (∃ u2, 0 ≤ u2 ∧ lo < u2 / u1 ∧ u2 / u1 < hi) ↔ lo < hi := by
  constructor
  · rintro ⟨u2, -, a, b⟩; linarith
  · intro h
    refine ⟨u1 * ((lo + hi) / 2), by have : 0 ≤ (lo + hi) / 2 := by linarith
                                     positivity, ?_, ?_⟩ <;> rw [mul_div_cancel_left₀ _ hu.ne'] <;> linarith

theorem reach_named {u1 lo a b : ℝ} (hu : 0 < u1) (h0 : 0 ≤ b) (hab : a ≤ b) (h : lo < b) :
    ∃ u2, 0 ≤ u2 ∧ lo < u2 / u1 ∧ a ≤ u2 / u1 ∧ u2 / u1 ≤ b :=
  ⟨u1 * b, by positivity, by rwa [mul_div_cancel_left₀ _ hu.ne'], by rwa [mul_div_cancel_left₀ _ hu.ne'],
    by rw [mul_div_cancel_left₀ _ hu.ne']⟩

theorem reach_iff {t u1 n1 n2 : ℝ} (ht : 0 < t) (ht1 : t < 1) (hu1 : 0 < u1) (h1 : 3 ≤ n1) (h : n1 < n2) (c : Complexity) :
    (∃ u2, 0 ≤ u2 ∧ VerdictWindow t n1 n2 u1 u2 c) ↔ CanBeReported t n1 n2 u1 c := by
  have hL := log_ratio_gt_one h1 h
  have hLq := log_ratio_lt h1 h
  have p1 : 0 < n1 := by linarith
  have l1 := logb_pos2 (n := n1) (by linarith)
  have g1 : grows (fun _ => (1:ℝ)) n1 n2 = 1 := by simp [grows]
  have gl : grows (fun n => Real.logb 2 n) n1 n2 = Real.logb 2 n2 / Real.logb 2 n1 := rfl
  have gn : grows (fun n => n) n1 n2 = n2 / n1 := rfl
  have gnl : grows (fun n => n * Real.logb 2 n) n1 n2 = (n2 / n1) * (Real.logb 2 n2 / Real.logb 2 n1) := by
    unfold grows; field_simp
  have g2 : grows (fun n => n ^ 2) n1 n2 = (n2 / n1) ^ 2 := by unfold grows; rw [div_pow]
  have g3 : grows (fun n => n ^ 3) n1 n2 = (n2 / n1) ^ 3 := by unfold grows; rw [div_pow]
  have g4 : grows (fun n => n ^ 4) n1 n2 = (n2 / n1) ^ 4 := by unfold grows; rw [div_pow]
  have hE : 0 < u1 ^ (n2 / n1) := Real.rpow_pos_of_pos hu1 _
  simp only [VerdictWindow, TooMuchFor, TooLittleFor, Matches, g1, gl, gn, gnl, g2, g3, g4, mul_one]
  unfold CanBeReported
  generalize u1 ^ (n2 / n1) = E at hE ⊢
  generalize Real.logb 2 n2 / Real.logb 2 n1 = L at hL hLq ⊢
  generalize n2 / n1 = q at hLq ⊢
  have hq : 1 < q := hL.trans hLq
  have q0 : 0 < q := by linarith
  have L0 : 0 < L := by linarith
  have s0 : 0 < 1 + t := by linarith
  have d0 : 0 < 1 - t := by linarith
  have o1 : L < q * L := by nlinarith
  have o2 : q < q * L := by nlinarith
  have o3 : q * L < q ^ 2 := by nlinarith
  have o4 : q ^ 2 < q ^ 3 := by nlinarith [pow_pos q0 2]
  have o5 : q ^ 3 < q ^ 4 := by nlinarith [pow_pos q0 3]
  have span : ∀ {g : ℝ}, 0 < g → (1 - t) * g ≤ (1 + t) * g := fun hg => by nlinarith
  have up : ∀ {g g' : ℝ}, g' < g → (1 + t) * g' < (1 + t) * g := fun hg => by nlinarith
  have named : ∀ {g g' : ℝ}, 0 < g → g' < g → ∃ u2, 0 ≤ u2 ∧ (1 + t) * g' < u2 / u1 ∧ (1 - t) * g ≤ u2 / u1 ∧ u2 / u1 ≤ (1 + t) * g :=
    fun hg hgg => reach_named hu1 (by positivity) (span hg) (up hgg)
  cases c <;> simp only [iff_true]
  case betterThanO1 => exact ⟨0, le_refl _, by simpa using ht1⟩
  case o1 => exact ⟨u1, hu1.le, by rw [div_self hu1.ne']; linarith, by rw [div_self hu1.ne']; linarith⟩
  case betweenO1AndOLogN => exact reach_between hu1 s0.le
  case oLogN => simpa using named (g' := 1) L0 hL
  case betweenOLogNAndON => exact reach_between hu1 (by positivity)
  case oN => exact named q0 hLq
  case betweenONAndONLogN =>
    rw [reach_between hu1 (by positivity), show (1 - t) * (q * L) = ((1 - t) * L) * q by ring, mul_lt_mul_iff_left₀ q0]
  case oNLogN => exact named (by positivity) o2
  case betweenONLogNAndON2 =>
    rw [reach_between hu1 (by positivity), show (1 - t) * q ^ 2 = ((1 - t) * q) * q by ring,
      show (1 + t) * (q * L) = ((1 + t) * L) * q by ring, mul_lt_mul_iff_left₀ q0]
  case oN2 => exact named (by positivity) o3
  case betweenON2AndON3 =>
    rw [reach_between hu1 (by positivity), show (1 - t) * q ^ 3 = ((1 - t) * q) * q ^ 2 by ring, mul_lt_mul_iff_left₀ (by positivity)]
  case oN3 => exact named (by positivity) o4
  case betweenON3AndON4 =>
    rw [reach_between hu1 (by positivity), show (1 - t) * q ^ 4 = ((1 - t) * q) * q ^ 3 by ring, mul_lt_mul_iff_left₀ (by positivity)]
  case oN4 => exact named (by positivity) o5
  case betweenON4AndOkN =>
    have := reach_between (u1 := u1) (lo := (1 + t) * q ^ 4) (hi := (1 - t) * E / u1) hu1 (by positivity)
    simp only [div_lt_div_iff_of_pos_right hu1] at this
    rw [this, lt_div_iff₀ hu1, mul_assoc, mul_comm (q ^ 4)]
  case okN =>
    constructor
    · rintro ⟨u2, -, a, b, c⟩
      rw [lt_div_iff₀ hu1] at a
      nlinarith
    · intro hh
      refine ⟨(1 + t) * E, by positivity, ?_, span hE, le_refl _⟩
      rw [lt_div_iff₀ hu1]; nlinarith
  case worseThanExponential =>
    refine ⟨u1 * ((1 + t) * q ^ 4) + (1 + t) * E + u1, by positivity, ?_, ?_⟩
    · rw [lt_div_iff₀ hu1]
      have := mul_pos s0 hE
      linarith
    · have := mul_pos hu1 (mul_pos s0 (pow_pos q0 4))
      linarith

theorem resizing_reach_iff {t u1 n : ℝ} (ht : 0 < t) (ht1 : t < 1) (hu1 : 0 < u1) (hn : 2 ≤ n) (c : Complexity) :
    (∃ u2, 0 ≤ u2 ∧ ResizingWindow t n u1 u2 c) ↔ CanBeReportedResizing t n c := by
  have l1 : 1 < Real.logb 2 (n * 3) / Real.logb 2 n := L3_gt_one hn
  have l3 := L3_lt_three hn
  unfold ResizingWindow CanBeReportedResizing
  generalize Real.logb 2 (n * 3) / Real.logb 2 n = L at l1 l3 ⊢
  have s0 : 0 < 1 + t := by linarith
  have hit : ∀ r : ℝ, u1 * r / u1 = r := fun r => mul_div_cancel_left₀ _ hu1.ne'
  cases c <;> simp only [iff_true, iff_false, and_false, exists_false, not_false_iff]
  case betterThanO1 => exact ⟨0, le_refl _, by simp⟩
  case o1 => exact ⟨u1, hu1.le, by rw [div_self hu1.ne']; linarith, by rw [div_self hu1.ne']; linarith⟩
  case betweenO1AndOLogN => exact reach_between hu1 s0.le
  case oLogN =>
    by_cases hc : 1 + t < L
    · exact ⟨u1 * L, by positivity, by rw [hit]; exact hc, by rw [hit], by rw [hit]; nlinarith⟩
    · refine ⟨u1 * ((1 + t) * ((1 + L) / 2)), by positivity, ?_, ?_, ?_⟩ <;> rw [hit] <;> nlinarith
  case betweenOLogNAndON =>
    constructor
    · rintro ⟨u2, -, a, b⟩; linarith
    · intro hh; exact ⟨u1 * ((1 + t) * L), by positivity, by rw [hit], by rw [hit]; exact hh⟩
  case oN =>
    refine ⟨u1 * (3 * (1 + t)), by positivity, ?_, ?_, ?_⟩ <;> rw [hit] <;> nlinarith
  case betweenONAndONLogN => exact ⟨u1 * (3 * (1 + t) + 1), by positivity, by rw [hit]; linarith⟩

end BigO
