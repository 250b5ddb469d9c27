import Verif.Spec.Smooth
import Verif.Props.VerdictWindow

/-!
# C112: as the second usage grows, the verdict moves through the classes one by one

The project's `smooth_transitions` tests check this for one first usage and one pair of sizes (low_level_analysis.rs 103-138).
Sizes and steps are described in `Verif.Spec.Smooth`.
-/
namespace BigO
open F

/-! ### Sets of two elements (C02) -/

theorem slowLog_two {n2 : ℝ} (h : 4 ≤ n2) : SlowLog 2 n2 := by
  refine ⟨le_refl _, by linarith, ?_⟩
  have := log_ratio_le (n1 := 4) (n2 := n2) (by norm_num) h
  rw [show Real.logb 2 4 = 2 by
    rw [show (4:ℝ) = 2 ^ (2:ℕ) by norm_num, Real.logb_pow, Real.logb_self_eq_one (by norm_num)]; norm_num] at this
  rw [Real.logb_self_eq_one (by norm_num)]
  linarith

theorem slowLog_nat {n1 n2 : ℕ} (h1 : 2 ≤ n1) (h : n1 ≤ n2) (hne : ¬ (n1 = 2 ∧ n2 = 3)) : SlowLog n1 n2 := by
  rcases Nat.lt_or_ge 2 n1 with h3 | h2
  · exact slowLog_of_three (by exact_mod_cast h3) (by exact_mod_cast h)
  · obtain rfl : n1 = 2 := by omega
    rcases Nat.lt_or_ge n2 4 with h4 | h4
    · obtain rfl : n2 = 2 := by omega
      refine ⟨by norm_num, le_refl _, ?_⟩
      rw [div_self (logb_pos2 (by norm_num)).ne', div_self (by norm_num)]
    · have := slowLog_two (n2 := n2) (by exact_mod_cast h4)
      exact_mod_cast this

/-- **C02** (sets of two elements): for whole set sizes `2 ≤ n1 ≤ n2` the acceptance criterion of the named classes holds for all
measurements if and only if the sizes are not 2 and 3. -/
theorem C02_acceptance_sizes (t : ℝ) (ht : 0 < t) (n1 n2 : ℕ) (h1 : 2 ≤ n1) (h : n1 ≤ n2) :
    (∀ (u1 u2 : ℝ) (c : Complexity) (f : ℝ → ℝ), 0 < u1 → 0 ≤ u2 → growth c = some f →
      ((analyseComplexity (exactEnv t) (fin u1) (fin u2) (fin n1) (fin n2)).asU32 ≤ c.asU32 ↔ u2 / u1 ≤ (1 + t) * (f n2 / f n1))) ↔
    ¬ (n1 = 2 ∧ n2 = 3) := by
  constructor
  · rintro H ⟨rfl, rfl⟩
    have hlog : (3 / 2 : ℝ) < Real.logb 2 3 := by
      have : (3:ℝ) = 2 * (3 / 2) := by norm_num
      have h2 : 2 * Real.logb 2 3 = Real.logb 2 9 := by
        rw [show (9:ℝ) = 3 ^ (2:ℕ) by norm_num, Real.logb_pow]; norm_num
      have h3 : (3:ℝ) < Real.logb 2 9 := by
        rw [Real.lt_logb_iff_rpow_lt (by norm_num) (by norm_num)]
        rw [show (3:ℝ) = ((3:ℕ):ℝ) by norm_num, Real.rpow_natCast]; norm_num
      linarith
    have hp : 0 ≤ (1 + t) * Real.logb 2 3 := by nlinarith
    have a := C03_no_false_alarm t 1 ((1 + t) * Real.logb 2 3) ((2:ℕ):ℝ) ((3:ℕ):ℝ) ht one_pos hp (by norm_num) (by norm_num) .oLogN _ rfl
      (by rw [div_one]; push_cast; rw [Real.logb_self_eq_one (by norm_num), div_one])
    have b := (H 1 ((1 + t) * Real.logb 2 3) .oN _ one_pos hp rfl).1 (a.trans (by decide))
    push_cast at b
    rw [div_one] at b
    nlinarith
  · intro hne u1 u2 c f hu1 hu2 hc
    exact acceptance_slow_log t u1 u2 n1 n2 ht hu1 hu2 (slowLog_nat h1 h hne) c f hc

/-! ### The steps -/

section
variable {t u1 n1 n2 s : ℝ}

theorem grows_nlog (h1 : 2 ≤ n1) : grows (fun n => n * Real.logb 2 n) n1 n2 = n2 / n1 * (Real.logb 2 n2 / Real.logb 2 n1) := by
  have := logb_pos2 h1
  have : n1 ≠ 0 := by linarith
  unfold grows
  field_simp

theorem SmallStep.slowLog (ht : 0 < t) (ht1 : t < 1) (hu1 : 0 < u1) (h1 : 2 ≤ n1) (h : n1 ≤ n2) (hs : SmallStep t n1 n2 u1 s) (h0 : 0 ≤ s) :
    SlowLog n1 n2 := by
  obtain ⟨a, b, c⟩ := hs
  have l := log_ratio_ge_one h1 h
  refine ⟨h1, h, ?_⟩
  have c' : 0 < (1 - t) * (n2 / n1) - (1 + t) * (Real.logb 2 n2 / Real.logb 2 n1) := by
    by_contra hc
    have := mul_nonpos_of_nonneg_of_nonpos hu1.le (not_lt.1 hc)
    linarith
  nlinarith

/-- the distances between consecutive classes -/
theorem class_gaps {t d L R : ℝ} (ht : 0 < t) (ht1 : t < 1) (hd : 0 ≤ d) (l1 : 1 ≤ L) (hR1 : 1 ≤ R) (q1 : d ≤ 2 * t)
    (q2 : d < (1 - t) * L - (1 + t)) (q3 : d < (1 - t) * R - (1 + t) * L) :
    (1 ≤ R ^ 2 ∧ 1 ≤ R ^ 3 ∧ 1 ≤ R ^ 4 ∧ 1 ≤ R * L) ∧ d < (1 - t) * L - (1 + t) * 1 ∧ d < (1 - t) * (R * L) - (1 + t) * R ∧
      d < (1 - t) * R ^ 2 - (1 + t) * (R * L) ∧ d < (1 - t) * R ^ 3 - (1 + t) * R ^ 2 ∧ d < (1 - t) * R ^ 4 - (1 + t) * R ^ 3 ∧
      ∀ g : ℝ, 1 ≤ g → d ≤ 2 * t * g := by
  have hR2 : 1 ≤ R ^ 2 := one_le_pow₀ hR1
  have hR3 : 1 ≤ R ^ 3 := one_le_pow₀ hR1
  have hR4 : 1 ≤ R ^ 4 := one_le_pow₀ hR1
  have hRL : 1 ≤ R * L := by nlinarith
  -- a distance between two classes only grows when both grow
  have scale : ∀ k f g : ℝ, 1 ≤ k → d < (1 - t) * g - (1 + t) * f → d < (1 - t) * (k * g) - (1 + t) * (k * f) := by
    intro k f g hk hd
    nlinarith [mul_le_mul_of_nonneg_right hk (show 0 ≤ (1 - t) * g - (1 + t) * f by linarith)]
  have p1 : d < (1 - t) * L - (1 + t) * 1 := by linarith
  have p2 : d < (1 - t) * (R * L) - (1 + t) * R := by have := scale R 1 L hR1 p1; linarith
  have p3 : d < (1 - t) * R ^ 2 - (1 + t) * (R * L) := by have := scale R L R hR1 q3; rw [sq]; linarith
  have q3' : d < (1 - t) * R - (1 + t) * 1 := by nlinarith
  have p4 : d < (1 - t) * R ^ 3 - (1 + t) * R ^ 2 := by
    have := scale (R ^ 2) 1 R hR2 q3'; rw [show R ^ 3 = R ^ 2 * R by ring]; linarith
  have p5 : d < (1 - t) * R ^ 4 - (1 + t) * R ^ 3 := by
    have := scale (R ^ 3) 1 R hR3 q3'; rw [show R ^ 4 = R ^ 3 * R by ring]; linarith
  have w : ∀ g : ℝ, 1 ≤ g → d ≤ 2 * t * g := fun g hg => by nlinarith
  exact ⟨⟨hR2, hR3, hR4, hRL⟩, p1, p2, p3, p4, p5, w⟩

/-- a step leads from the measurements that meet a limit to ones that meet the next limit -/
theorem step_meets (ht : 0 < t) (ht1 : t < 1) (hu1 : 0 < u1) (h1 : 2 ≤ n1) (h : n1 ≤ n2) (hs : SmallStep t n1 n2 u1 s) (h0 : 0 ≤ s)
    {u2 u2' : ℝ} (hstep : u2' ≤ u2 + s) {b c : Complexity} (hbc : b.asU32 + 1 = c.asU32)
    (he : Complexity.oN4.asU32 ≤ b.asU32 → SmallExponentialStep t n1 n2 u1 s)
    (hm : MeetsLimit t n1 n2 u1 u2 b) : MeetsLimit t n1 n2 u1 u2' c := by
  have sl := hs.slowLog ht ht1 hu1 h1 h h0
  have l1 := log_ratio_ge_one h1 h
  have lr := sl.2.2
  obtain ⟨s1, s2, s3⟩ := hs
  unfold SmallExponentialStep at he
  have gn := grows_nlog (n2 := n2) h1
  have g1 : grows (fun n => Real.logb 2 n) n1 n2 = Real.logb 2 n2 / Real.logb 2 n1 := rfl
  have gl : grows (fun n => n) n1 n2 = n2 / n1 := rfl
  have gp : ∀ k : ℕ, grows (fun n => n ^ k) n1 n2 = (n2 / n1) ^ k := fun k => by simp [grows, div_pow]
  have hpw : 0 < u1 ^ (n2 / n1) := Real.rpow_pos_of_pos hu1 _
  generalize hXe : u1 ^ (n2 / n1) = X at *
  have hx : u2' / u1 ≤ u2 / u1 + s / u1 := by rw [← add_div]; exact div_le_div_of_nonneg_right hstep hu1.le
  have q0 : 0 ≤ s / u1 := by positivity
  have q1 : s / u1 ≤ 2 * t := by rw [div_le_iff₀ hu1]; linarith
  have q2 : s / u1 < (1 - t) * (Real.logb 2 n2 / Real.logb 2 n1) - (1 + t) := by rw [div_lt_iff₀ hu1]; linarith
  have q3 : s / u1 < (1 - t) * (n2 / n1) - (1 + t) * (Real.logb 2 n2 / Real.logb 2 n1) := by rw [div_lt_iff₀ hu1]; linarith
  generalize hL : Real.logb 2 n2 / Real.logb 2 n1 = L at *
  generalize hR : n2 / n1 = R at *
  have hR1 : 1 ≤ R := by linarith
  obtain ⟨⟨hR2, hR3, hR4, hRL⟩, p1, p2, p3, p4, p5, w⟩ := class_gaps ht ht1 q0 l1 hR1 q1 q2 q3
  generalize s / u1 = d at *
  -- from within the tolerance of one class to below the next one, and from there to within the tolerance of that one
  have up : ∀ f g : ℝ, d < (1 - t) * g - (1 + t) * f → u2 / u1 ≤ (1 + t) * f → u2' / u1 < (1 - t) * g := fun f g a b => by linarith
  have into : ∀ f g : ℝ, 1 ≤ g → d < (1 - t) * g - (1 + t) * f → (u2 / u1 ≤ (1 + t) * f ∨ u2 / u1 < (1 - t) * g) →
      u2' / u1 ≤ (1 + t) * g := fun f g hg a b => by
    have := w g hg
    rcases b with b | b <;> linarith
  have top4 : u2 / u1 ≤ (1 + t) * R ^ 4 → u2 ≤ (1 + t) * (u1 * R ^ 4) := fun a => by
    rw [div_le_iff₀ hu1] at a; linarith
  have l1' : 1 ≤ L := l1
  have nx : ∀ x : Complexity, b.asU32 + 1 = x.asU32 → c = x := fun x e => asU32_injective (hbc.symm.trans e)
  cases b
  case betterThanO1 =>
    obtain rfl := nx .o1 rfl
    simp only [MeetsLimit, g1, gl, gn, gp, hR, hXe] at hm ⊢
    have := w 1 (le_refl _); linarith
  case o1 =>
    obtain rfl := nx .betweenO1AndOLogN rfl
    simp only [MeetsLimit, g1, gl, gn, gp, hR, hXe] at hm ⊢
    exact Or.inr (up 1 L p1 (by linarith))
  case betweenO1AndOLogN =>
    obtain rfl := nx .oLogN rfl
    simp only [MeetsLimit, g1, gl, gn, gp, hR, hXe] at hm ⊢
    exact into 1 L l1' p1 (by simpa using hm)
  case oLogN =>
    obtain rfl := nx .betweenOLogNAndON rfl
    simp only [MeetsLimit, g1, gl, gn, gp, hR, hXe] at hm ⊢
    exact Or.inr (up L R q3 hm)
  case betweenOLogNAndON =>
    obtain rfl := nx .oN rfl
    simp only [MeetsLimit, g1, gl, gn, gp, hR, hXe] at hm ⊢
    exact into L R hR1 q3 hm
  case oN =>
    obtain rfl := nx .betweenONAndONLogN rfl
    simp only [MeetsLimit, g1, gl, gn, gp, hR, hXe] at hm ⊢
    exact Or.inr (up R (R * L) p2 hm)
  case betweenONAndONLogN =>
    obtain rfl := nx .oNLogN rfl
    simp only [MeetsLimit, g1, gl, gn, gp, hR, hXe] at hm ⊢
    exact into R (R * L) hRL p2 hm
  case oNLogN =>
    obtain rfl := nx .betweenONLogNAndON2 rfl
    simp only [MeetsLimit, g1, gl, gn, gp, hR, hXe] at hm ⊢
    exact Or.inr (up (R * L) (R ^ 2) p3 hm)
  case betweenONLogNAndON2 =>
    obtain rfl := nx .oN2 rfl
    simp only [MeetsLimit, g1, gl, gn, gp, hR, hXe] at hm ⊢
    exact into (R * L) (R ^ 2) hR2 p3 hm
  case oN2 =>
    obtain rfl := nx .betweenON2AndON3 rfl
    simp only [MeetsLimit, g1, gl, gn, gp, hR, hXe] at hm ⊢
    exact Or.inr (up (R ^ 2) (R ^ 3) p4 hm)
  case betweenON2AndON3 =>
    obtain rfl := nx .oN3 rfl
    simp only [MeetsLimit, g1, gl, gn, gp, hR, hXe] at hm ⊢
    exact into (R ^ 2) (R ^ 3) hR3 p4 hm
  case oN3 =>
    obtain rfl := nx .betweenON3AndON4 rfl
    simp only [MeetsLimit, g1, gl, gn, gp, hR, hXe] at hm ⊢
    exact Or.inr (up (R ^ 3) (R ^ 4) p5 hm)
  case betweenON3AndON4 =>
    obtain rfl := nx .oN4 rfl
    simp only [MeetsLimit, g1, gl, gn, gp, hR, hXe] at hm ⊢
    exact into (R ^ 3) (R ^ 4) hR4 p5 hm
  case oN4 =>
    obtain rfl := nx .betweenON4AndOkN rfl
    simp only [MeetsLimit, g1, gl, gn, gp, hR, hXe] at hm ⊢
    exact Or.inr (by have := top4 hm; have s4 := he (by decide); linarith)
  case betweenON4AndOkN =>
    obtain rfl := nx .okN rfl
    simp only [MeetsLimit, g1, gl, gn, gp, hR, hXe] at hm ⊢
    have s4 := he (by decide)
    have tX : 0 < t * X := mul_pos ht hpw
    have hX : u1 ≤ X := by
      have a : u1 * 1 ≤ u1 * R ^ 4 := mul_le_mul_of_nonneg_left hR4 hu1.le
      have b : 0 < t * (u1 * R ^ 4) := mul_pos ht (by linarith)
      linarith
    have : s ≤ X * (2 * t) := s1.trans (mul_le_mul_of_nonneg_right hX (by linarith))
    right
    rcases hm with hm | hm
    · have := top4 hm; linarith
    · linarith
  case okN => obtain rfl := nx .worseThanExponential rfl; trivial
  case worseThanExponential =>
    cases c <;> exact absurd hbc (by decide)

/-- **C112.** If a step of the second usage is smaller than the distances between the classes, it makes the verdict worse by one class
at most, and never better. (The distance from `O(n⁴)` to `O(kⁿ)` matters from `O(n⁴)` on only.) -/
theorem C112_smooth (ht : 0 < t) (ht1 : t < 1) (hu1 : 0 < u1) (h1 : 2 ≤ n1) (h : n1 ≤ n2) (hs : SmallStep t n1 n2 u1 s)
    (u2 u2' : ℝ) (h0 : 0 ≤ u2) (hle : u2 ≤ u2') (hstep : u2' ≤ u2 + s)
    (he : Complexity.oN4.asU32 ≤ (analyseComplexity (exactEnv t) (fin u1) (fin u2) (fin n1) (fin n2)).asU32 →
      SmallExponentialStep t n1 n2 u1 s) :
    let v := fun u => (analyseComplexity (exactEnv t) (fin u1) (fin u) (fin n1) (fin n2)).asU32
    v u2 ≤ v u2' ∧ v u2' ≤ v u2 + 1 := by
  have hs0 : 0 ≤ s := by linarith
  have sl := hs.slowLog ht ht1 hu1 h1 h hs0
  intro v
  refine ⟨C01_monotone _ (exact_laws ht ht1) _ _ _ _ _ (by simpa using hu1) (by simpa using h0) (by simpa using hle), ?_⟩
  have a := (meets_iff_of ht hu1 h0 sl (analyseComplexity (exactEnv t) (fin u1) (fin u2) (fin n1) (fin n2))).1 (le_refl _)
  by_cases hw : analyseComplexity (exactEnv t) (fin u1) (fin u2) (fin n1) (fin n2) = .worseThanExponential
  · have : v u2' ≤ 16 := by
      show Complexity.asU32 _ ≤ 16
      generalize analyseComplexity _ _ _ _ _ = x
      cases x <;> decide
    have : v u2 = 16 := by show Complexity.asU32 _ = 16; rw [hw]; rfl
    omega
  · obtain ⟨c, hc⟩ : ∃ c : Complexity, (analyseComplexity (exactEnv t) (fin u1) (fin u2) (fin n1) (fin n2)).asU32 + 1 = c.asU32 := by
      revert hw
      generalize analyseComplexity _ _ _ _ _ = x
      intro hw
      cases x
      case worseThanExponential => exact absurd rfl hw
      case betterThanO1 => exact ⟨.o1, rfl⟩
      case o1 => exact ⟨.betweenO1AndOLogN, rfl⟩
      case betweenO1AndOLogN => exact ⟨.oLogN, rfl⟩
      case oLogN => exact ⟨.betweenOLogNAndON, rfl⟩
      case betweenOLogNAndON => exact ⟨.oN, rfl⟩
      case oN => exact ⟨.betweenONAndONLogN, rfl⟩
      case betweenONAndONLogN => exact ⟨.oNLogN, rfl⟩
      case oNLogN => exact ⟨.betweenONLogNAndON2, rfl⟩
      case betweenONLogNAndON2 => exact ⟨.oN2, rfl⟩
      case oN2 => exact ⟨.betweenON2AndON3, rfl⟩
      case betweenON2AndON3 => exact ⟨.oN3, rfl⟩
      case oN3 => exact ⟨.betweenON3AndON4, rfl⟩
      case betweenON3AndON4 => exact ⟨.oN4, rfl⟩
      case oN4 => exact ⟨.betweenON4AndOkN, rfl⟩
      case betweenON4AndOkN => exact ⟨.okN, rfl⟩
      case okN => exact ⟨.worseThanExponential, rfl⟩
    have b := step_meets ht ht1 hu1 h1 h hs hs0 hstep hc he a
    have := (meets_iff_of ht hu1 (h0.trans hle) sl c).2 b
    show Complexity.asU32 _ ≤ Complexity.asU32 _ + 1
    rw [hc]
    exact this

/-- **C112** (create and delete operations). -/
theorem C112_smooth_resizing {n : ℝ} (ht : 0 < t) (ht1 : t < 1) (hu1 : 0 < u1) (hn : 2 ≤ n) (hs : SmallStepResizing t n u1 s)
    (u2 u2' : ℝ) (h0 : 0 ≤ u2) (hle : u2 ≤ u2') (hstep : u2' ≤ u2 + s) :
    let v := fun u => (analyseSetResizing (exactEnv t) (fin u1) (fin u) (fin n)).asU32
    v u2 ≤ v u2' ∧ v u2' ≤ v u2 + 1 := by
  have hs0 : 0 ≤ s := by linarith
  intro v
  refine ⟨C09_monotone _ (exact_laws ht ht1) _ _ _ _ (by simpa using hu1) (by simpa using h0) (by simp) (by simpa using hle), ?_⟩
  obtain ⟨s1, s2, s3⟩ := hs
  have hx : u2' / u1 ≤ u2 / u1 + s / u1 := by rw [← add_div]; exact div_le_div_of_nonneg_right hstep hu1.le
  have q1 : s / u1 ≤ t := by rw [div_le_iff₀ hu1]; linarith
  have q2 : s / u1 < Real.logb 2 (n * 3) / Real.logb 2 n - (1 + t) := by rw [div_lt_iff₀ hu1]; linarith
  have q3 : s / u1 < 3 * (1 - t) - (1 + t) * (Real.logb 2 (n * 3) / Real.logb 2 n) := by rw [div_lt_iff₀ hu1]; linarith
  have l1 : 1 < Real.logb 2 (n * 3) / Real.logb 2 n := L3_gt_one hn
  have key := fun c => (meets_resizing_iff ht ht1 hu1 (h0.trans hle) hn c).2
  have own := (meets_resizing_iff ht ht1 hu1 h0 hn (analyseSetResizing (exactEnv t) (fin u1) (fin u2) (fin n))).1 (le_refl _)
  have ceil := C11_ceiling (exactEnv t) (fin u1) (fin u2') (fin n) .betweenONAndONLogN (le_refl _)
  show Complexity.asU32 _ ≤ Complexity.asU32 _ + 1
  generalize analyseSetResizing (exactEnv t) (fin u1) (fin u2) (fin n) = x at *
  generalize analyseSetResizing (exactEnv t) (fin u1) (fin u2') (fin n) = y at *
  simp only [MeetsResizingLimit] at own key
  generalize Real.logb 2 (n * 3) / Real.logb 2 n = L at *
  generalize s / u1 = d at *
  have tl : t ≤ t * L := by nlinarith
  cases x
  case betterThanO1 =>
    refine key .o1 ?_
    show u2' / u1 ≤ 1 + t
    have : u2 / u1 < 1 := by
      have : 0 ≤ u2 / u1 := by positivity
      have : (1 + t) * (u2 / u1) < 1 := own
      nlinarith
    linarith
  case o1 => exact key .betweenO1AndOLogN (Or.inr (by have : u2 / u1 ≤ 1 + t := own; linarith))
  case betweenO1AndOLogN =>
    refine key .oLogN (Or.inr ?_)
    have : u2 / u1 ≤ 1 + t ∨ u2 / u1 < L := own
    rcases this with a | a <;> linarith
  case oLogN =>
    refine key .betweenOLogNAndON (Or.inr (Or.inr ?_))
    have : u2 / u1 ≤ 1 + t ∨ u2 / u1 < (1 + t) * L := own
    rcases this with a | a <;> linarith
  case betweenOLogNAndON =>
    refine key .oN (Or.inl ?_)
    have : u2 / u1 ≤ 1 + t ∨ u2 / u1 < (1 + t) * L ∨ u2 / u1 < 3 * (1 - t) := own
    rcases this with a | a | a <;> linarith
  all_goals exact ceil.trans (by decide)


/-- **C112** (nothing is skipped): between two measurements, every verdict between theirs that can be given at all (C104) is given to
some measurement in between. -/
theorem C112_none_skipped (ht : 0 < t) (ht1 : t < 1) (hu1 : 0 < u1) (h1 : 3 ≤ n1) (h : n1 < n2) (u2 u2' : ℝ) (h0 : 0 ≤ u2) (hle : u2 ≤ u2')
    (c : Complexity) (hc : CanBeReported t n1 n2 u1 c)
    (hlo : (analyseComplexity (exactEnv t) (fin u1) (fin u2) (fin n1) (fin n2)).asU32 ≤ c.asU32)
    (hhi : c.asU32 ≤ (analyseComplexity (exactEnv t) (fin u1) (fin u2') (fin n1) (fin n2)).asU32) :
    ∃ w, u2 ≤ w ∧ w ≤ u2' ∧ analyseComplexity (exactEnv t) (fin u1) (fin w) (fin n1) (fin n2) = c := by
  obtain ⟨w, hw, e⟩ := (C104_reportable t u1 n1 n2 ht ht1 hu1 h1 h c).2 hc
  have mono : ∀ a b : ℝ, 0 ≤ a → a ≤ b → (analyseComplexity (exactEnv t) (fin u1) (fin a) (fin n1) (fin n2)).asU32 ≤
      (analyseComplexity (exactEnv t) (fin u1) (fin b) (fin n1) (fin n2)).asU32 := fun a b ha hab =>
    C01_monotone _ (exact_laws ht ht1) _ _ _ _ _ (by simpa using hu1) (by simpa using ha) (by simpa using hab)
  rcases le_total u2 w with a | a
  · rcases le_total w u2' with b | b
    · exact ⟨w, a, b, e⟩
    · refine ⟨u2', hle, le_refl _, asU32_injective (le_antisymm ?_ hhi)⟩
      rw [← e]; exact mono _ _ (h0.trans hle) b
  · refine ⟨u2, le_refl _, hle, asU32_injective (le_antisymm hlo ?_)⟩
    rw [← e]; exact mono _ _ hw a

/-- **C112** (nothing is skipped, create and delete operations). -/
theorem C112_none_skipped_resizing {n : ℝ} (ht : 0 < t) (ht1 : t < 1) (hu1 : 0 < u1) (hn : 2 ≤ n) (u2 u2' : ℝ) (h0 : 0 ≤ u2)
    (hle : u2 ≤ u2') (c : Complexity) (hc : CanBeReportedResizing t n c)
    (hlo : (analyseSetResizing (exactEnv t) (fin u1) (fin u2) (fin n)).asU32 ≤ c.asU32)
    (hhi : c.asU32 ≤ (analyseSetResizing (exactEnv t) (fin u1) (fin u2') (fin n)).asU32) :
    ∃ w, u2 ≤ w ∧ w ≤ u2' ∧ analyseSetResizing (exactEnv t) (fin u1) (fin w) (fin n) = c := by
  obtain ⟨w, hw, e⟩ := (C104_reportable_resizing t u1 n ht ht1 hu1 hn c).2 hc
  have mono : ∀ a b : ℝ, 0 ≤ a → a ≤ b → (analyseSetResizing (exactEnv t) (fin u1) (fin a) (fin n)).asU32 ≤
      (analyseSetResizing (exactEnv t) (fin u1) (fin b) (fin n)).asU32 := fun a b ha hab =>
    C09_monotone _ (exact_laws ht ht1) _ _ _ _ (by simpa using hu1) (by simpa using ha) (by simp) (by simpa using hab)
  rcases le_total u2 w with a | a
  · rcases le_total w u2' with b | b
    · exact ⟨w, a, b, e⟩
    · refine ⟨u2', hle, le_refl _, asU32_injective (le_antisymm ?_ hhi)⟩
      rw [← e]; exact mono _ _ (h0.trans hle) b
  · refine ⟨u2, le_refl _, hle, asU32_injective (le_antisymm hlo ?_)⟩
    rw [← e]; exact mono _ _ hw a

/-- **C112** (all the verdicts): if such a step exists, then growing from nothing in such steps the second usage gets every verdict. -/
theorem C112_every_verdict (ht : 0 < t) (ht1 : t < 1) (hu1 : 0 < u1) (h1 : 2 ≤ n1) (h : n1 ≤ n2) (hs : SmallStep t n1 n2 u1 s)
    (he : SmallExponentialStep t n1 n2 u1 s) (hs0 : 0 < s) (c : Complexity) :
    ∃ k : ℕ, analyseComplexity (exactEnv t) (fin u1) (fin (k * s)) (fin n1) (fin n2) = c := by
  have sl := hs.slowLog ht ht1 hu1 h1 h hs0.le
  let v := fun u => (analyseComplexity (exactEnv t) (fin u1) (fin u) (fin n1) (fin n2)).asU32
  have top : ∃ k : ℕ, c.asU32 ≤ v (k * s) := by
    obtain ⟨k, hk⟩ := exists_nat_gt (((1 + t) * (u1 * (n2 / n1) ^ 4) + (1 + t) * u1 ^ (n2 / n1)) / s)
    refine ⟨k, ?_⟩
    rw [div_lt_iff₀ hs0] at hk
    have q1 : 0 ≤ (1 + t) * (u1 * (n2 / n1) ^ 4) := by
      have : 0 ≤ n2 / n1 := div_nonneg (by linarith) (by linarith)
      positivity
    have q2 : 0 ≤ (1 + t) * u1 ^ (n2 / n1) := mul_nonneg (by linarith) (Real.rpow_nonneg hu1.le _)
    have : ¬ v (k * s) ≤ Complexity.okN.asU32 := by
      intro hle
      rcases (meets_iff_of ht hu1 (by positivity) sl .okN).1 hle with a | a
      · rw [show grows (fun n => n ^ 4) n1 n2 = (n2 / n1) ^ 4 by simp [grows, div_pow], div_le_iff₀ hu1] at a
        linarith
      · linarith
    have : Complexity.okN.asU32 + 1 ≤ v (k * s) := by omega
    refine le_trans ?_ this
    cases c <;> decide
  classical
  have hk := Nat.find_spec top
  refine ⟨Nat.find top, asU32_injective (le_antisymm ?_ hk)⟩
  rcases Nat.eq_zero_or_pos (Nat.find top) with e | e
  · rw [e]
    have : v ((0:ℕ) * s) ≤ Complexity.betterThanO1.asU32 := by
      refine (meets_iff_of ht hu1 (by simp) sl .betterThanO1).2 ?_
      show _ / u1 < 1 - t
      simp; exact ht1
    exact this.trans (Nat.zero_le _)
  · have hlt := Nat.find_min top (Nat.sub_lt e one_pos)
    obtain ⟨m, hm⟩ : ∃ m, Nat.find top = m + 1 := ⟨_, (Nat.succ_pred_eq_of_pos e).symm⟩
    rw [hm] at hlt ⊢
    have := (C112_smooth ht ht1 hu1 h1 h hs (m * s) ((m + 1 : ℕ) * s) (by positivity) (by push_cast; linarith) (by push_cast; linarith)
      fun _ => he).2
    simp only [Nat.add_sub_cancel, not_le] at hlt
    exact this.trans hlt

/-- **C112** (all the verdicts of create and delete operations: those up to "between O(n) and O(n log n)", C11). -/
theorem C112_every_verdict_resizing {n : ℝ} (ht : 0 < t) (ht1 : t < 1) (hu1 : 0 < u1) (hn : 2 ≤ n) (hs : SmallStepResizing t n u1 s)
    (hs0 : 0 < s) (c : Complexity) (hc : c.asU32 ≤ Complexity.betweenONAndONLogN.asU32) :
    ∃ k : ℕ, analyseSetResizing (exactEnv t) (fin u1) (fin (k * s)) (fin n) = c := by
  let v := fun u => (analyseSetResizing (exactEnv t) (fin u1) (fin u) (fin n)).asU32
  have top : ∃ k : ℕ, c.asU32 ≤ v (k * s) := by
    have l3 := L3_lt_three hn
    obtain ⟨k, hk⟩ := exists_nat_gt (u1 * (3 * (1 + t)) / s)
    refine ⟨k, hc.trans ?_⟩
    rw [div_lt_iff₀ hs0] at hk
    have : ¬ v (k * s) ≤ Complexity.oN.asU32 := by
      intro hle
      rcases (meets_resizing_iff ht ht1 hu1 (by positivity) hn .oN).1 hle with a | a
      · rw [div_le_iff₀ hu1] at a
        linarith
      · rw [div_lt_iff₀ hu1] at a
        nlinarith [mul_lt_mul_of_pos_left l3 (show 0 < (1 + t) * u1 by positivity)]
    have : Complexity.oN.asU32 + 1 ≤ v (k * s) := by omega
    exact this
  classical
  have hk := Nat.find_spec top
  refine ⟨Nat.find top, asU32_injective (le_antisymm ?_ hk)⟩
  rcases Nat.eq_zero_or_pos (Nat.find top) with e | e
  · rw [e]
    have : v ((0:ℕ) * s) ≤ Complexity.betterThanO1.asU32 := by
      refine (meets_resizing_iff ht ht1 hu1 (by simp) hn .betterThanO1).2 ?_
      show (1 + t) * (_ / u1) < 1
      simp
    exact this.trans (Nat.zero_le _)
  · have hlt := Nat.find_min top (Nat.sub_lt e one_pos)
    obtain ⟨m, hm⟩ : ∃ m, Nat.find top = m + 1 := ⟨_, (Nat.succ_pred_eq_of_pos e).symm⟩
    rw [hm] at hlt ⊢
    have := (C112_smooth_resizing ht ht1 hu1 hn hs (m * s) ((m + 1 : ℕ) * s) (by positivity) (by push_cast; linarith)
      (by push_cast; linarith)).2
    simp only [Nat.add_sub_cancel, not_le] at hlt
    exact this.trans hlt

end

/-- **C112** (in any arithmetic that rounds monotonically, through the conversion of durations): a class reported for some duration of the
second pass is only jumped over by passing it: two durations with verdicts on both sides of it are on both sides of that duration. -/
theorem C112_no_jump (E : FloatEnv) (L : FloatLaws E) (d1 d d' w : Duration) (h1 : 0 < d1) (hd1 : d1 / 10 ^ 9 ≤ 2 ^ 53)
    (hd : d / 10 ^ 9 ≤ 2 ^ 53) (hw : w / 10 ^ 9 ≤ 2 ^ 53) (c : Complexity) :
    (∀ i, analyseTime E i ⟨d1, w⟩ = c → (analyseTime E i ⟨d1, d⟩).asU32 < c.asU32 → c.asU32 < (analyseTime E i ⟨d1, d'⟩).asU32 →
      d < w ∧ w < d') ∧
    (∀ i, analyseTimeConstantSet E i ⟨d1, w⟩ = c → (analyseTimeConstantSet E i ⟨d1, d⟩).asU32 < c.asU32 →
      c.asU32 < (analyseTimeConstantSet E i ⟨d1, d'⟩).asU32 → d < w ∧ w < d') ∧
    (∀ i, analyseTimeSetResizing E i ⟨d1, w⟩ = c → (analyseTimeSetResizing E i ⟨d1, d⟩).asU32 < c.asU32 →
      c.asU32 < (analyseTimeSetResizing E i ⟨d1, d'⟩).asU32 → d < w ∧ w < d') := by
  have m1 := fun h i ic is => C14_time_monotone E L d1 w d h1 hd1 h hd i ic is
  have m2 := fun h i ic is => C14_time_monotone E L d1 d' w h1 hd1 h hw i ic is
  refine ⟨fun i e a b => ?_, fun i e a b => ?_, fun i e a b => ?_⟩ <;> subst e <;> constructor <;> by_contra hc
  · have := (m1 (not_lt.1 hc) i ⟨0, 0, 0⟩ ⟨0⟩).1; omega
  · have := (m2 (not_lt.1 hc) i ⟨0, 0, 0⟩ ⟨0⟩).1; omega
  · have := (m1 (not_lt.1 hc) ⟨0, 0⟩ i ⟨0⟩).2.1; omega
  · have := (m2 (not_lt.1 hc) ⟨0, 0⟩ i ⟨0⟩).2.1; omega
  · have := (m1 (not_lt.1 hc) ⟨0, 0⟩ ⟨0, 0, 0⟩ i).2.2; omega
  · have := (m2 (not_lt.1 hc) ⟨0, 0⟩ ⟨0, 0, 0⟩ i).2.2; omega

/-! ### In the shipped arithmetic -/

theorem exists_next {x : Complexity} (hx : x.asU32 < Complexity.oN4.asU32) :
    ∃ c : Complexity, x.asU32 + 1 = c.asU32 ∧ c.asU32 ≤ Complexity.oN4.asU32 := by
  cases x
  case betterThanO1 => exact ⟨.o1, rfl, by decide⟩
  case o1 => exact ⟨.betweenO1AndOLogN, rfl, by decide⟩
  case betweenO1AndOLogN => exact ⟨.oLogN, rfl, by decide⟩
  case oLogN => exact ⟨.betweenOLogNAndON, rfl, by decide⟩
  case betweenOLogNAndON => exact ⟨.oN, rfl, by decide⟩
  case oN => exact ⟨.betweenONAndONLogN, rfl, by decide⟩
  case betweenONAndONLogN => exact ⟨.oNLogN, rfl, by decide⟩
  case oNLogN => exact ⟨.betweenONLogNAndON2, rfl, by decide⟩
  case betweenONLogNAndON2 => exact ⟨.oN2, rfl, by decide⟩
  case oN2 => exact ⟨.betweenON2AndON3, rfl, by decide⟩
  case betweenON2AndON3 => exact ⟨.oN3, rfl, by decide⟩
  case oN3 => exact ⟨.betweenON3AndON4, rfl, by decide⟩
  case betweenON3AndON4 => exact ⟨.oN4, rfl, by decide⟩
  all_goals exact absurd hx (by decide)

section
variable (log2 : F → F) (powi : F → ℕ → F) (powf : F → F → F) (H : AccurateLibrary log2 powi) (tol : ℝ)
include H

/-- **C112** (binary64): the same for durations in the arithmetic that is shipped, below `O(n⁴)`: rounding takes one part in `2^40` of
each duration off the allowed step. -/
theorem C112_smooth_shipped (ht : tol = 1 / 10 ∨ tol = 1 / 4) (n1 n2 : ℕ) (g1 : 3 ≤ n1) (g2 : n1 ≤ n2) (g3 : n2 ≤ 2 ^ 32)
    (d1 d2 d2' : Duration) (hd : 0 < d1) (hd1 : d1 / 10 ^ 9 < 2 ^ 53) (hd2 : d2' / 10 ^ 9 < 2 ^ 53) (hle : d2 ≤ d2')
    (s : ℝ) (hs : SmallStep tol n1 n2 (d1 / 10 ^ 9) s)
    (hstep : (d2' : ℝ) / 10 ^ 9 * (1 + 1 / 2 ^ 40) ≤ (d2 : ℝ) / 10 ^ 9 * (1 - 1 / 2 ^ 40) + s) :
    let v := fun d => (analyseTime (shippedEnv log2 powi powf tol) ⟨n1, n2⟩ ⟨d1, d⟩).asU32
    v d2 < Complexity.oN4.asU32 → v d2' ≤ v d2 + 1 := by
  intro v hv
  have ht0 : 0 < tol := by rcases ht with rfl | rfl <;> norm_num
  have ht1 : tol < 1 := by rcases ht with rfl | rfl <;> norm_num
  have hd' : (0:ℝ) < d1 := by exact_mod_cast hd
  have hu : (0:ℝ) < d1 / 10 ^ 9 := by positivity
  have hle' : (d2:ℝ) ≤ d2' := by exact_mod_cast hle
  have hd2' : d2 / 10 ^ 9 < 2 ^ 53 := lt_of_le_of_lt (Nat.div_le_div_right hle) hd2
  have hs0 : 0 ≤ s := by
    have a : (d2:ℝ) / 10 ^ 9 ≤ d2' / 10 ^ 9 := div_le_div_of_nonneg_right hle' (by norm_num)
    have b : 0 ≤ (d2:ℝ) / 10 ^ 9 := by positivity
    have c : 0 ≤ (d2':ℝ) / 10 ^ 9 := by positivity
    norm_num at hstep ⊢
    linarith
  obtain ⟨c, hc, hc4⟩ := exists_next hv
  have own := ((C83_time log2 powi powf H tol ht d1 d2 hd hd1 hd2'
    (analyseTime (shippedEnv log2 powi powf tol) ⟨n1, n2⟩ ⟨d1, d2⟩)).1 n1 n2 g1 g2 g3 (Or.inl hv.le)).2 (le_refl _)
  have nxt := ((C83_time log2 powi powf H tol ht d1 d2' hd hd1 hd2 c).1 n1 n2 g1 g2 g3 (Or.inl hc4)).1
  have := nxt (step_meets ht0 ht1 hu (by have : (3:ℝ) ≤ n1 := by exact_mod_cast g1
                                         linarith) (by exact_mod_cast g2) hs hs0 hstep hc (fun a => absurd hv (by omega)) own)
  show _ ≤ Complexity.asU32 _ + 1
  rw [hc]
  exact this

end

/-- sizes 1000 and 1000000, a first pass of a millisecond: up to 1000 seconds, a nanosecond more moves the verdict by one class at most -/
example (d2 : Duration) (hd2 : d2 < 10 ^ 12) :
    let v := fun d => (analyseTime (shippedEnv idealLog2 idealPowi idealPowf (1 / 10)) ⟨1000, 1000000⟩ ⟨1000000, d⟩).asU32
    v d2 < Complexity.oN4.asU32 → v (d2 + 1) ≤ v d2 + 1 := by
  have e : Real.logb 2 ((1000000:ℕ):ℝ) / Real.logb 2 ((1000:ℕ):ℝ) = 2 := by
    push_cast
    rw [show (1000000:ℝ) = 1000 ^ (2:ℕ) by norm_num, Real.logb_pow, mul_div_assoc, div_self (logb_pos2 (by norm_num)).ne']; norm_num
  have hb : (d2:ℝ) ≤ 10 ^ 12 := by exact_mod_cast hd2.le
  refine C112_smooth_shipped idealLog2 idealPowi idealPowf ideal_library (1 / 10) (Or.inl rfl) 1000 1000000 (by norm_num) (by norm_num)
    (by norm_num) 1000000 d2 (d2 + 1) (by norm_num) (by norm_num) ?_ (Nat.le_succ _) (1 / 10 ^ 4) ?_ ?_
  · have : (d2 + 1) / 10 ^ 9 ≤ 10 ^ 12 / 10 ^ 9 := Nat.div_le_div_right hd2
    exact lt_of_le_of_lt this (by norm_num)
  · refine ⟨by norm_num, ?_, ?_⟩ <;> rw [e] <;> norm_num
  · have e1 : ((d2 + 1 : ℕ) : ℝ) = d2 + 1 := by push_cast; rfl
    have e2 : (((d2 + 1 : Duration) : ℕ) : ℝ) = d2 + 1 := e1
    rw [e2]
    norm_num
    linarith

/-! ### Short first passes -/

/-- **C104** (the exponential classes take time): `O(kⁿ)` and "between `O(n⁴)` and `O(kⁿ)`" are never reported for a first pass of a
second or less, whatever the sizes and the second pass; and when the second set is twice the first, never for one of 16 seconds or less. -/
theorem C104_exponential_takes_time (tol : ℝ) (ht : 0 < tol) (n1 n2 : ℕ) (h1 : 3 ≤ n1) (h : n1 ≤ n2) (d1 d2 : Duration) (hd : 0 < d1)
    (hshort : d1 ≤ 10 ^ 9 ∨ n2 = 2 * n1 ∧ d1 ≤ 16 * 10 ^ 9) :
    analyseTime (exactEnv tol) ⟨n1, n2⟩ ⟨d1, d2⟩ ≠ .okN ∧ analyseTime (exactEnv tol) ⟨n1, n2⟩ ⟨d1, d2⟩ ≠ .betweenON4AndOkN := by
  have hd' : (0:ℝ) < d1 := by exact_mod_cast hd
  have hu : (0:ℝ) < d1 / 10 ^ 9 := by positivity
  have n3 : (3:ℝ) ≤ n1 := by exact_mod_cast h1
  have hR : (1:ℝ) ≤ n2 / n1 := by rw [one_le_div (by linarith)]; exact_mod_cast h
  have hX : ((d1:ℝ) / 10 ^ 9) ^ ((n2:ℝ) / n1) ≤ (d1 / 10 ^ 9) * (n2 / n1) ^ 4 := by
    rcases hshort with hs | ⟨rfl, hs⟩
    · have h1 : (d1:ℝ) / 10 ^ 9 ≤ 1 := by
        rw [div_le_one (by positivity)]; exact_mod_cast hs
      calc ((d1:ℝ) / 10 ^ 9) ^ ((n2:ℝ) / n1) ≤ (d1 / 10 ^ 9) ^ (1:ℝ) := Real.rpow_le_rpow_of_exponent_ge hu h1 hR
        _ = d1 / 10 ^ 9 * 1 := by rw [Real.rpow_one, mul_one]
        _ ≤ _ := mul_le_mul_of_nonneg_left (one_le_pow₀ hR) hu.le
    · have e : (((2 * n1 : ℕ) : ℝ)) / n1 = 2 := by push_cast; field_simp
      have h1 : (d1:ℝ) / 10 ^ 9 ≤ 16 := by
        rw [div_le_iff₀ (by positivity)]; exact_mod_cast hs
      rw [e, show (2:ℝ) = ((2:ℕ):ℝ) by norm_num, Real.rpow_natCast]
      push_cast
      nlinarith
  have above : ∀ x : ℝ, (1 + tol) * grows (fun n => n ^ 4) (n1:ℝ) n2 < x / (d1 / 10 ^ 9) → (1 + tol) * ((d1:ℝ) / 10 ^ 9) ^ ((n2:ℝ) / n1) < x := by
    intro x hx
    rw [show grows (fun n => n ^ 4) (n1:ℝ) n2 = ((n2:ℝ) / n1) ^ 4 by simp [grows, div_pow], lt_div_iff₀ hu] at hx
    have := mul_le_mul_of_nonneg_left hX (show 0 ≤ 1 + tol by linarith)
    linarith
  have pX : 0 ≤ ((d1:ℝ) / 10 ^ 9) ^ ((n2:ℝ) / n1) := Real.rpow_nonneg hu.le _
  constructor <;> intro e <;> rw [C104_time tol ht n1 n2 h1 h d1 d2 hd] at e
  · have := above _ e.1
    have := e.2.2
    linarith
  · have := above _ e.1
    have := e.2
    nlinarith

/-- a first pass of 20 seconds, and one of 400 seconds on twice the set -/
example : analyseTime (exactEnv (1 / 10)) ⟨1000, 2000⟩ ⟨20 * 10 ^ 9, 400 * 10 ^ 9⟩ = .okN := by
  rw [C104_time (1 / 10) (by norm_num) 1000 2000 (by norm_num) (by norm_num) _ _ (by norm_num)]
  have e : (((20 * 10 ^ 9 : ℕ):ℝ) / 10 ^ 9) ^ (((2000:ℕ):ℝ) / (1000:ℕ)) = 400 := by
    rw [show (((2000:ℕ):ℝ) / (1000:ℕ)) = ((2:ℕ):ℝ) by norm_num, Real.rpow_natCast]; norm_num
  refine ⟨?_, ?_, ?_⟩
  · show (1 + 1 / 10) * (((2000:ℕ):ℝ) ^ 4 / ((1000:ℕ):ℝ) ^ 4) < _
    norm_num
  · rw [e]; norm_num
  · rw [e]; norm_num

/-! ### The project's tests, for all usages -/

theorem smooth_test_step : SmallStep (1 / 10) 2 14 10 1 ∧ SmallExponentialStep (1 / 10) 2 14 10 1 := by
  have l : Real.logb 2 14 < 4 := by
    rw [Real.logb_lt_iff_lt_rpow (by norm_num) (by norm_num), show (4:ℝ) = ((4:ℕ):ℝ) by norm_num, Real.rpow_natCast]; norm_num
  have l' : 3 < Real.logb 2 14 := by
    rw [Real.lt_logb_iff_rpow_lt (by norm_num) (by norm_num), show (3:ℝ) = ((3:ℕ):ℝ) by norm_num, Real.rpow_natCast]; norm_num
  have e : (10:ℝ) ^ ((14:ℝ) / 2) = 10000000 := by
    rw [show (14:ℝ) / 2 = ((7:ℕ):ℝ) by norm_num, Real.rpow_natCast]; norm_num
  refine ⟨⟨by norm_num, ?_, ?_⟩, ?_⟩
  · rw [Real.logb_self_eq_one (by norm_num), div_one]; linarith
  · rw [Real.logb_self_eq_one (by norm_num), div_one]; linarith
  · unfold SmallExponentialStep; rw [e]; norm_num

/-- `smooth_transitions`: from one whole second usage to the next, the verdict stays or moves to the next class -/
example (u2 : ℕ) :
    let v := fun u : ℕ => (analyseComplexity (exactEnv (1 / 10)) (fin 10) (fin u) (fin 2) (fin 14)).asU32
    v (u2 + 1) - v u2 = 0 ∨ v (u2 + 1) - v u2 = 1 := by
  intro v
  have := C112_smooth (t := 1 / 10) (by norm_num) (by norm_num) (by norm_num) (by norm_num) (by norm_num) smooth_test_step.1 u2 (u2 + 1 : ℕ)
    (by positivity) (by push_cast; linarith) (by push_cast; linarith) fun _ => smooth_test_step.2
  have : v (u2 + 1) ≤ v u2 + 1 := this.2
  omega

/-- … and all the classes are gone through -/
example (c : Complexity) : ∃ u2 : ℕ, analyseComplexity (exactEnv (1 / 10)) (fin 10) (fin u2) (fin 2) (fin 14) = c := by
  obtain ⟨k, hk⟩ := C112_every_verdict (t := 1 / 10) (by norm_num) (by norm_num) (by norm_num) (by norm_num) (by norm_num) smooth_test_step.1
    smooth_test_step.2 one_pos c
  exact ⟨k, by rwa [mul_one] at hk⟩

/-- … the last one at the end of the test's range -/
example : analyseComplexity (exactEnv (1 / 10)) (fin 10) (fin 11000001) (fin 2) (fin 14) = .worseThanExponential := by
  have e : (10:ℝ) ^ ((14:ℝ) / 2) = 10000000 := by
    rw [show (14:ℝ) / 2 = ((7:ℕ):ℝ) by norm_num, Real.rpow_natCast]; norm_num
  rw [window_iff_of (by norm_num) (by norm_num) (by norm_num) (slowLog_two (by norm_num))]
  refine ⟨?_, ?_⟩
  · show (1 + 1 / 10) * ((14:ℝ) ^ 4 / 2 ^ 4) < _
    norm_num
  · rw [e]; norm_num

theorem smooth_resizing_step : SmallStepResizing (1 / 10) 1000 100 1 := by
  have p := logb_pos2 (n := 1000) (by norm_num)
  have e : Real.logb 2 (1000 * 3) / Real.logb 2 1000 = 1 + Real.logb 2 3 / Real.logb 2 1000 := by
    rw [Real.logb_mul (by norm_num) (by norm_num), add_div, div_self p.ne']
  have a : Real.logb 2 3 / Real.logb 2 1000 < 1 / 6 := by
    rw [div_lt_iff₀ p]
    have : 6 * Real.logb 2 3 < Real.logb 2 1000 := by
      rw [show 6 * Real.logb 2 3 = Real.logb 2 (3 ^ 6) by rw [Real.logb_pow]; norm_num]
      exact Real.logb_lt_logb (by norm_num) (by norm_num) (by norm_num)
    linarith
  have b : 1 / 7 < Real.logb 2 3 / Real.logb 2 1000 := by
    rw [lt_div_iff₀ p]
    have : Real.logb 2 1000 < 7 * Real.logb 2 3 := by
      rw [show 7 * Real.logb 2 3 = Real.logb 2 (3 ^ 7) by rw [Real.logb_pow]; norm_num]
      exact Real.logb_lt_logb (by norm_num) (by norm_num) (by norm_num)
    linarith
  refine ⟨by norm_num, ?_, ?_⟩ <;> rw [e] <;> linarith

/-- `smooth_transitions_for_set_resizing_iterator_algorithm_` -/
example (u2 : ℕ) :
    let v := fun u : ℕ => (analyseSetResizing (exactEnv (1 / 10)) (fin 100) (fin u) (fin 1000)).asU32
    v (u2 + 1) - v u2 = 0 ∨ v (u2 + 1) - v u2 = 1 := by
  intro v
  have := C112_smooth_resizing (t := 1 / 10) (by norm_num) (by norm_num) (by norm_num) (by norm_num) smooth_resizing_step u2 (u2 + 1 : ℕ)
    (by positivity) (by push_cast; linarith) (by push_cast; linarith)
  have : v (u2 + 1) ≤ v u2 + 1 := this.2
  omega

end BigO
