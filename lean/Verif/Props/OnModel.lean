import Verif.Props.Verdict
import Verif.Spec.OnModel
import Mathlib.Analysis.SpecialFunctions.Log.Deriv
import Mathlib.Analysis.Complex.ExponentialBounds

/-!
# C95: create and delete operations that cost what the theory says
-/
namespace BigO
open F Filter Topology

theorem usage_const (a : ℝ) (n k : ℕ) : resizingUsage (fun _ => a) n k = n * a := by
  simp [resizingUsage]

theorem usage_linear (a : ℝ) (n k : ℕ) : resizingUsage (fun m => a * m) n k = a * (n * (k * n) + n * (n + 1) / 2) := by
  unfold resizingUsage
  generalize hb : k * n = b
  have hb' : (k:ℝ) * n = b := by exact_mod_cast hb
  rw [hb']
  clear hb hb'
  induction n with
  | zero => simp
  | succ n ih => rw [Finset.sum_range_succ, ih]; push_cast; ring

theorem usage_square (a : ℝ) (n k : ℕ) : resizingUsage (fun m => a * m ^ 2) n k =
    a * (n * (k * n) ^ 2 + (k * n) * (n * (n + 1)) + n * (n + 1) * (2 * n + 1) / 6) := by
  unfold resizingUsage
  generalize hb : k * n = b
  have hb' : (k:ℝ) * n = b := by exact_mod_cast hb
  rw [hb']
  clear hb hb'
  induction n with
  | zero => simp
  | succ n ih => rw [Finset.sum_range_succ, ih]; push_cast; ring

/-- **C95** (constant cost): reported as `O(1)`. -/
theorem C95_constant (tol a : ℝ) (ht : 0 < tol) (ht1 : tol < 1) (ha : 0 < a) (n : ℕ) (hn : 2 ≤ n) :
    analyseSetResizing (exactEnv tol) (fin (resizingUsage (fun _ => a) n 0)) (fin (resizingUsage (fun _ => a) n 1)) (fin n) = .o1 := by
  rw [usage_const, usage_const]
  have hn' : (2:ℝ) ≤ n := by exact_mod_cast hn
  have hp : 0 < (n:ℝ) * a := by positivity
  have h := C10_acceptance tol _ _ n ht ht1 hp hp.le hn'
  have h0 := h.1
  have h1 := h.2.1
  rw [div_self hp.ne'] at h0 h1
  have : ¬ (1 + tol) * 1 < 1 := by linarith
  have g0 := mt h0.1 this
  have g1 := h1.2 (by linarith)
  have e0 : Complexity.betterThanO1.asU32 = 0 := rfl
  have e1 : Complexity.o1.asU32 = 1 := rfl
  exact asU32_injective (by omega)

theorem log_growth_le {n : ℝ} (hn : 6 ≤ n) : Real.logb 2 (n * 3) / Real.logb 2 n ≤ 2 := by
  have hp := logb_pos2 (n := n) (by linarith)
  rw [div_le_iff₀ hp, ← Real.logb_rpow_eq_mul_logb_of_pos (by linarith)]
  apply Real.logb_le_logb_of_le (by norm_num) (by linarith)
  rw [show (2:ℝ) = (2:ℕ) by norm_num, Real.rpow_natCast]
  nlinarith

/-- **C95** (cost proportional to the number of elements): reported as `O(n)`, if each pass has at least 6 elements (and, for tolerances
below 10%, enough of them). -/
theorem C95_linear (tol a : ℝ) (ht : 0 < tol) (ht1 : tol ≤ 1 / 4) (ha : 0 < a) (n : ℕ) (hn : 6 ≤ n) (htn : 2 ≤ 3 * tol * (n + 1)) :
    analyseSetResizing (exactEnv tol) (fin (resizingUsage (fun m => a * m) n 0)) (fin (resizingUsage (fun m => a * m) n 1)) (fin n) = .oN := by
  rw [usage_linear, usage_linear]
  have hn' : (6:ℝ) ≤ n := by exact_mod_cast hn
  have hp : 0 < a * (n * ((0:ℕ) * n) + n * (n + 1) / 2) := by push_cast; positivity
  have hp2 : 0 ≤ a * (n * ((1:ℕ) * n) + n * (n + 1) / 2) := by positivity
  have h := C10_acceptance tol _ _ n ht (by linarith) hp hp2 (by linarith)
  have hr : a * (n * ((1:ℕ) * n) + n * (n + 1) / 2) / (a * (n * ((0:ℕ) * n) + n * (n + 1) / 2)) = (3 * n + 1) / (n + 1) := by
    have : (n:ℝ) ≠ 0 := by linarith
    push_cast
    field_simp
    ring
  obtain ⟨-, -, -, -, h4, h5⟩ := h
  rw [hr] at h4 h5
  have hpos : (0:ℝ) < n + 1 := by linarith
  have hlow : 19 / 7 ≤ (3 * (n:ℝ) + 1) / (n + 1) := by rw [le_div_iff₀ hpos]; linarith
  have hup : (3 * (n:ℝ) + 1) / (n + 1) ≤ 3 := by rw [div_le_iff₀ hpos]; linarith
  have hL := log_growth_le hn'
  have k4 : ¬ ((3 * (n:ℝ) + 1) / (n + 1) ≤ 1 + tol ∨
      (3 * (n:ℝ) + 1) / (n + 1) < (1 + tol) * (Real.logb 2 (n * 3) / Real.logb 2 n) ∨ (3 * (n:ℝ) + 1) / (n + 1) < 3 * (1 - tol)) := by
    rintro (h | h | h)
    · linarith
    · have : (1 + tol) * (Real.logb 2 (n * 3) / Real.logb 2 n) ≤ 5 / 4 * 2 :=
        mul_le_mul (by linarith) hL (div_nonneg (logb_pos2 (by linarith)).le (logb_pos2 (by linarith)).le) (by norm_num)
      linarith
    · rw [div_lt_iff₀ hpos] at h; nlinarith
  have g4 := mt h4.1 k4
  have g5 := h5.2 (Or.inl (by linarith))
  have e4 : Complexity.betweenOLogNAndON.asU32 = 4 := rfl
  have e5 : Complexity.oN.asU32 = 5 := rfl
  exact asU32_injective (by omega)

/-- **C95** (cost proportional to the square of the number of elements): found worse than `O(n)`. -/
theorem C95_square_rejected (tol a : ℝ) (ht : 0 < tol) (ht1 : tol ≤ 1 / 4) (ha : 0 < a) (n : ℕ) (hn : 3 ≤ n) :
    Complexity.oN.asU32 < (analyseSetResizing (exactEnv tol) (fin (resizingUsage (fun m => a * m ^ 2) n 0))
      (fin (resizingUsage (fun m => a * m ^ 2) n 1)) (fin n)).asU32 := by
  rw [usage_square, usage_square]
  have hn' : (3:ℝ) ≤ n := by exact_mod_cast hn
  have hp : 0 < a * (n * ((0:ℕ) * n) ^ 2 + ((0:ℕ) * n) * (n * (n + 1)) + n * (n + 1) * (2 * n + 1) / 6 : ℝ) := by push_cast; positivity
  have hp2 : 0 ≤ a * (n * ((1:ℕ) * n) ^ 2 + ((1:ℕ) * n) * (n * (n + 1)) + n * (n + 1) * (2 * n + 1) / 6 : ℝ) := by positivity
  have h := (C10_acceptance tol _ _ n ht (by linarith) hp hp2 (by linarith)).2.2.2.2.2
  have hr : a * (n * ((1:ℕ) * n) ^ 2 + ((1:ℕ) * n) * (n * (n + 1)) + n * (n + 1) * (2 * n + 1) / 6 : ℝ) /
      (a * (n * ((0:ℕ) * n) ^ 2 + ((0:ℕ) * n) * (n * (n + 1)) + n * (n + 1) * (2 * n + 1) / 6)) = (7 * n + 1) / (n + 1) := by
    have : (n:ℝ) ≠ 0 := by linarith
    push_cast
    field_simp
    ring
  rw [hr] at h
  have hpos : (0:ℝ) < n + 1 := by linarith
  have hlow : 11 / 2 ≤ (7 * (n:ℝ) + 1) / (n + 1) := by rw [le_div_iff₀ hpos]; linarith
  have hL : Real.logb 2 ((n:ℝ) * 3) / Real.logb 2 n ≤ 2 := by
    have hp := logb_pos2 (n := (n:ℝ)) (by linarith)
    rw [div_le_iff₀ hp, ← Real.logb_rpow_eq_mul_logb_of_pos (by linarith)]
    apply Real.logb_le_logb_of_le (by norm_num) (by linarith)
    rw [show (2:ℝ) = (2:ℕ) by norm_num, Real.rpow_natCast]
    nlinarith
  rw [← not_le, h]
  rintro (h | h)
  · linarith
  · have : (1 + tol) * (Real.logb 2 (n * 3) / Real.logb 2 n) ≤ 5 / 4 * 2 :=
      mul_le_mul (by linarith) hL (div_nonneg (logb_pos2 (by linarith)).le (logb_pos2 (by linarith)).le) (by norm_num)
    linarith

/-! ## Logarithmic cost -/

theorem log_sum_ge (n : ℕ) : (n:ℝ) * Real.log n - n ≤ ∑ i ∈ Finset.range n, Real.log ((i + 1 : ℕ) : ℝ) := by
  induction n with
  | zero => simp
  | succ n ih =>
    rw [Finset.sum_range_succ]
    rcases Nat.eq_zero_or_pos n with rfl | hn
    · simp
    have hn' : (0:ℝ) < n := by exact_mod_cast hn
    have h : Real.log ((n + 1 : ℕ) : ℝ) - Real.log n ≤ 1 / n := by
      rw [← Real.log_div (by positivity) hn'.ne']
      have := Real.log_le_sub_one_of_pos (show 0 < ((n + 1 : ℕ) : ℝ) / n by positivity)
      refine this.trans (le_of_eq ?_)
      push_cast
      field_simp
      ring
    have h' : n * (Real.log ((n + 1 : ℕ) : ℝ) - Real.log n) ≤ 1 := by
      calc _ ≤ n * (1 / n : ℝ) := mul_le_mul_of_nonneg_left h hn'.le
        _ = 1 := by field_simp
    push_cast at *
    nlinarith

theorem log_sum_le (n : ℕ) : ∑ i ∈ Finset.range n, Real.log ((n + i + 1 : ℕ) : ℝ) ≤ n * Real.log ((3 * n + 1) / 2) := by
  have h2 : 2 * ∑ i ∈ Finset.range n, Real.log ((n + i + 1 : ℕ) : ℝ) ≤ 2 * (n * Real.log ((3 * n + 1) / 2)) := by
    have hre := Finset.sum_range_reflect (fun i => Real.log ((n + i + 1 : ℕ) : ℝ)) n
    rw [two_mul]
    nth_rewrite 1 [← hre]
    rw [← Finset.sum_add_distrib]
    calc _ ≤ ∑ i ∈ Finset.range n, 2 * Real.log ((3 * n + 1) / 2) := by
          refine Finset.sum_le_sum fun i hi => ?_
          have hi := Finset.mem_range.1 hi
          rw [← Real.log_mul (by positivity) (by positivity)]
          have : 2 * Real.log ((3 * n + 1) / 2) = Real.log (((3 * n + 1) / 2 : ℝ) ^ 2) := by rw [Real.log_pow]; norm_num
          rw [this]
          apply Real.log_le_log (by positivity)
          have e : ((n + (n - 1 - i) + 1 : ℕ) : ℝ) = 2 * n - i := by
            rw [show n + (n - 1 - i) + 1 = 2 * n - i by omega, Nat.cast_sub (by omega)]; push_cast; ring
          rw [e]
          push_cast
          nlinarith [sq_nonneg ((n:ℝ) - 1 - 2 * i)]
      _ = _ := by simp; ring
  linarith

theorem usage_log (a : ℝ) (n k : ℕ) : resizingUsage (fun m => a * Real.logb 2 m) n k =
    a / Real.log 2 * ∑ i ∈ Finset.range n, Real.log ((k * n + i + 1 : ℕ) : ℝ) := by
  unfold resizingUsage
  rw [Finset.mul_sum]
  refine Finset.sum_congr rfl fun i _ => ?_
  simp only [Real.logb]
  ring

/-- the two sums of logarithms -/
theorem log_sums_pos {n : ℕ} (hn : 3 ≤ n) : 0 < (n:ℝ) * Real.log n - n := by
  have : 1 < Real.log n := by
    rw [Real.lt_log_iff_exp_lt (by positivity)]
    have := Real.exp_one_lt_d9
    have : (3:ℝ) ≤ n := by exact_mod_cast hn
    linarith
  have hn' : (0:ℝ) < n := by positivity
  nlinarith

theorem log_ratio_bound {a : ℝ} (ha : 0 < a) {n : ℕ} (hn : 3 ≤ n) :
    0 < resizingUsage (fun m => a * Real.logb 2 m) n 0 ∧ 0 ≤ resizingUsage (fun m => a * Real.logb 2 m) n 1 ∧
    resizingUsage (fun m => a * Real.logb 2 m) n 1 / resizingUsage (fun m => a * Real.logb 2 m) n 0 ≤
      Real.log ((3 * n + 1) / 2) / (Real.log n - 1) := by
  have hl2 : 0 < Real.log 2 := Real.log_pos (by norm_num)
  have h1 := log_sum_ge n
  have h2 := log_sum_le n
  have hp := log_sums_pos hn
  have hn' : (0:ℝ) < n := by positivity
  rw [usage_log, usage_log]
  simp only [zero_mul, zero_add, one_mul]
  have hS1 := lt_of_lt_of_le hp h1
  have hS2 : 0 ≤ ∑ i ∈ Finset.range n, Real.log ((n + i + 1 : ℕ) : ℝ) :=
    Finset.sum_nonneg fun i _ => Real.log_nonneg (by exact_mod_cast (by omega : 1 ≤ n + i + 1))
  refine ⟨by positivity, by positivity, ?_⟩
  rw [mul_div_mul_left _ _ (by positivity)]
  calc _ ≤ (n * Real.log ((3 * n + 1) / 2)) / (n * Real.log n - n) :=
        div_le_div₀ (hS2.trans h2) h2 hp h1
    _ = _ := by
      rw [show (n:ℝ) * Real.log n - n = n * (Real.log n - 1) by ring, mul_div_mul_left _ _ hn'.ne']

/-- passes of logarithmic operations never get cheaper -/
theorem log_usage_mono {a : ℝ} (ha : 0 < a) {n : ℕ} (hn : 3 ≤ n) :
    1 ≤ resizingUsage (fun m => a * Real.logb 2 m) n 1 / resizingUsage (fun m => a * Real.logb 2 m) n 0 := by
  rw [le_div_iff₀ (log_ratio_bound ha hn).1, one_mul]
  refine Finset.sum_le_sum fun i _ => mul_le_mul_of_nonneg_left ?_ ha.le
  exact Real.logb_le_logb_of_le (by norm_num) (by positivity) (by exact_mod_cast (by omega : 0 * n + i + 1 ≤ 1 * n + i + 1))

theorem log3_bounds : 19 / 12 * Real.log 2 ≤ Real.log 3 ∧ Real.log 3 ≤ 8 / 5 * Real.log 2 := by
  constructor
  · have : Real.log ((2:ℝ) ^ 19) ≤ Real.log ((3:ℝ) ^ 12) := Real.log_le_log (by norm_num) (by norm_num)
    rw [Real.log_pow, Real.log_pow] at this
    push_cast at this
    linarith
  · have : Real.log ((3:ℝ) ^ 5) ≤ Real.log ((2:ℝ) ^ 8) := Real.log_le_log (by norm_num) (by norm_num)
    rw [Real.log_pow, Real.log_pow] at this
    push_cast at this
    linarith

/-- `log ((3n+1)/2)` is little more than `log n + log 1.5` -/
theorem log_half_le {n : ℕ} (hn : 256 ≤ n) : Real.log ((3 * n + 1) / 2) ≤ Real.log n + 0.42 := by
  have hn' : (256:ℝ) ≤ n := by exact_mod_cast hn
  have h1 : Real.log ((3 * n + 1) / 2) ≤ Real.log (n * (769 / 512)) := by
    apply Real.log_le_log (by positivity)
    linarith
  rw [Real.log_mul (by positivity) (by norm_num)] at h1
  have h2 : Real.log (769 / 512 : ℝ) = Real.log (3 / 2) + Real.log (769 / 768) := by
    rw [← Real.log_mul (by norm_num) (by norm_num)]; norm_num
  have h3 : Real.log (769 / 768 : ℝ) ≤ 1 / 768 := by
    have := Real.log_le_sub_one_of_pos (show (0:ℝ) < 769 / 768 by norm_num)
    linarith
  have h4 : Real.log (3 / 2 : ℝ) ≤ 3 / 5 * Real.log 2 := by
    rw [Real.log_div (by norm_num) (by norm_num)]
    linarith [log3_bounds.2]
  have := Real.log_two_lt_d9
  linarith

theorem log_ge_of_256 {n : ℕ} (hn : 256 ≤ n) : (5.54:ℝ) ≤ Real.log n := by
  have hn' : (256:ℝ) ≤ n := by exact_mod_cast hn
  have h := Real.log_le_log (by norm_num) hn'
  rw [show (256:ℝ) = 2 ^ 8 by norm_num, Real.log_pow] at h
  have := Real.log_two_gt_d9
  push_cast at h
  linarith

/-- logarithmic cost: not reported worse than `O(log n)`, if each pass has at least 256 elements -/
theorem log_accepted_256 (tol a : ℝ) (ht : 1 / 10 ≤ tol) (ht1 : tol < 1) (ha : 0 < a) (n : ℕ) (hn : 256 ≤ n) :
    (analyseSetResizing (exactEnv tol) (fin (resizingUsage (fun m => a * Real.logb 2 m) n 0))
      (fin (resizingUsage (fun m => a * Real.logb 2 m) n 1)) (fin n)).asU32 ≤ Complexity.oLogN.asU32 := by
  obtain ⟨p1, p2, hr⟩ := log_ratio_bound ha (n := n) (by omega)
  have hn' : (256:ℝ) ≤ n := by exact_mod_cast hn
  rw [(C10_acceptance tol _ _ n (by linarith) ht1 p1 p2 (by linarith)).2.2.2.1]
  right
  refine lt_of_le_of_lt hr ?_
  have hx := log_ge_of_256 hn
  have hlg : Real.logb 2 ((n:ℝ) * 3) / Real.logb 2 n = (Real.log n + Real.log 3) / Real.log n := by
    have hl2 : Real.log 2 ≠ 0 := (Real.log_pos (by norm_num)).ne'
    rw [Real.logb, Real.logb, Real.log_mul (by positivity) (by norm_num)]
    field_simp
  rw [hlg]
  have hl3 : (1.097:ℝ) ≤ Real.log 3 := by
    have := log3_bounds.1
    have := Real.log_two_gt_d9
    linarith
  set x := Real.log n with hxdef
  have hh := log_half_le hn
  rw [← hxdef] at hh
  calc Real.log ((3 * n + 1) / 2) / (x - 1) ≤ (x + 0.42) / (x - 1) := by
        apply div_le_div_of_nonneg_right hh (by linarith)
    _ < 1.1 * ((x + 1.097) / x) := by
        rw [div_lt_iff₀ (by linarith), show 1.1 * ((x + 1.097) / x) * (x - 1) = (1.1 * (x + 1.097) * (x - 1)) / x by ring,
          lt_div_iff₀ (by linarith)]
        nlinarith
    _ ≤ (1 + tol) * ((x + Real.log 3) / x) := by
        apply mul_le_mul (by linarith) _ (by positivity) (by linarith)
        exact div_le_div_of_nonneg_right (by linarith) (by linarith)

/-- the sums of logarithms are logarithms of factorials -/
theorem log_sum_prod (n b : ℕ) : ∑ i ∈ Finset.range n, Real.log ((b + i + 1 : ℕ) : ℝ) = Real.log ((∏ i ∈ Finset.range n, (b + i + 1) : ℕ) : ℝ) := by
  induction n with
  | zero => simp
  | succ n ih =>
    rw [Finset.sum_range_succ, Finset.prod_range_succ, ih, Nat.cast_mul, Real.log_mul]
    · exact_mod_cast (Finset.prod_pos (fun i _ => Nat.succ_pos _)).ne'
    · positivity

/-! ## Concrete cases -/

/-- inserting 1000 + 1000 elements into a sorted array, each at a cost of 3 units per element already there -/
example : analyseSetResizing (exactEnv (1 / 10)) (fin (resizingUsage (fun m => 3 * m) 1000 0))
    (fin (resizingUsage (fun m => 3 * m) 1000 1)) (fin (1000 : ℕ)) = .oN :=
  C95_linear (1 / 10) 3 (by norm_num) (by norm_num) (by norm_num) 1000 (by norm_num) (by norm_num)

end BigO
