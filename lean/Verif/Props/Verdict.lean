import Verif.Proofs.Antitone
import Verif.Proofs.ExactMore
import Verif.Proofs.Duration
import Mathlib.Analysis.SpecialFunctions.Log.Base
import Mathlib.Analysis.SpecialFunctions.Pow.Asymptotics
import Mathlib.Analysis.Asymptotics.Lemmas
import Mathlib.Analysis.Asymptotics.SpecificAsymptotics
import Mathlib.Analysis.SpecialFunctions.Exp

/-!
# Properties of the verdict functions (C01-C16, C18)

"verdict not worse than limit `c`" is `verdict.asU32 ≤ c.asU32`: that is literally the acceptance check of the code.
-/
namespace BigO
open F

/-! ## C01, C06: monotonicity of `analyse_complexity` -/

/-- **C01.** For every arithmetic satisfying `FloatLaws`, whatever `log2`, `powi`, `powf` compute: a larger second-pass
usage never gets a better verdict. All f64 values of `n1`, `n2` (including 0, infinities and NaN) are covered. -/
theorem C01_monotone (E : FloatEnv) (L : FloatLaws E) (u1 u2 u2' n1 n2 : F)
    (h1 : fin 0 < u1) (h2 : fin 0 ≤ u2) (h : u2 ≤ u2') :
    (analyseComplexity E u1 u2 n1 n2).asU32 ≤ (analyseComplexity E u1 u2' n1 n2).asU32 :=
  analyse_mono L h1 h2 h

/-- **C06.** A larger (finite) first-pass usage never gets a worse verdict, if `powf` is monotone. -/
theorem C06_antitone (E : FloatEnv) (L : FloatLaws E) (P : PowfLaws E) (u1 u1' u2 : ℝ) (n1 n2 : F)
    (h1 : 0 < u1) (h : u1 ≤ u1') (h2 : 0 ≤ u2) (hn : fin 0 ≤ E.div n2 n1) :
    (analyseComplexity E (fin u1') (fin u2) n1 n2).asU32 ≤ (analyseComplexity E (fin u1) (fin u2) n1 n2).asU32 :=
  analyse_anti L P h1 h (by simpa using h2) hn ⟨u2, rfl⟩

/-! ## C02, C03, C05: acceptance criteria, exact arithmetic -/

theorem acceptance_slow_log (t u1 u2 n1 n2 : ℝ) (ht : 0 < t) (hu1 : 0 < u1) (hu2 : 0 ≤ u2) (hs : SlowLog n1 n2)
    (c : Complexity) (f : ℝ → ℝ) (hc : growth c = some f) :
    (analyseComplexity (exactEnv t) (fin u1) (fin u2) (fin n1) (fin n2)).asU32 ≤ c.asU32 ↔
      u2 / u1 ≤ (1 + t) * (f n2 / f n1) := by
  obtain ⟨k, hk, e, hr⟩ := growth_ratio hc n1 n2
  rw [e, accept_odd_of ht hu1 hu2 hs hk, hr]

/-- **C02.** For `3 ≤ n1 ≤ n2`, the verdict is at most the named class `c` with growth function `f` exactly when the
measured growth is at most `1+t` times the ideal growth. -/
theorem C02_acceptance (t u1 u2 n1 n2 : ℝ) (ht : 0 < t) (hu1 : 0 < u1) (hu2 : 0 ≤ u2) (h1 : 3 ≤ n1) (h : n1 ≤ n2)
    (c : Complexity) (f : ℝ → ℝ) (hc : growth c = some f) :
    (analyseComplexity (exactEnv t) (fin u1) (fin u2) (fin n1) (fin n2)).asU32 ≤ c.asU32 ↔
      u2 / u1 ≤ (1 + t) * (f n2 / f n1) := by
  obtain ⟨k, hk, e, hr⟩ := growth_ratio hc n1 n2
  rw [e, accept_odd ht hu1 hu2 h1 h hk, hr]

/-- **C02** (exponential class): at most `O(kⁿ)` iff within `O(n⁴)` or `u2 ≤ (1+t)·u1^(n2/n1)`. -/
theorem C02_acceptance_exponential (t u1 u2 n1 n2 : ℝ) (ht : 0 < t) (hu1 : 0 < u1) (hu2 : 0 ≤ u2) (h1 : 3 ≤ n1)
    (h : n1 ≤ n2) :
    (analyseComplexity (exactEnv t) (fin u1) (fin u2) (fin n1) (fin n2)).asU32 ≤ Complexity.okN.asU32 ↔
      u2 / u1 ≤ (1 + t) * (n2 / n1) ^ 4 ∨ u2 ≤ (1 + t) * u1 ^ (n2 / n1) :=
  accept_exp ht hu1 hu2 h1 h

/-- the limit just below a named class, e.g. `BetweenOLogNAndON` below `ON` -/
def justBelow (c b : Complexity) : Prop := b.asU32 + 1 = c.asU32

theorem acceptance_between_slow_log (t u1 u2 n1 n2 : ℝ) (ht : 0 < t) (hu1 : 0 < u1) (hu2 : 0 ≤ u2) (hs : SlowLog n1 n2)
    (c c' b : Complexity) (f f' : ℝ → ℝ) (hc : growth c = some f) (hc' : growth c' = some f')
    (hb : justBelow c b) (hb' : justBelow b c') :
    (analyseComplexity (exactEnv t) (fin u1) (fin u2) (fin n1) (fin n2)).asU32 ≤ b.asU32 ↔
      u2 / u1 ≤ (1 + t) * (f' n2 / f' n1) ∨ u2 / u1 < (1 - t) * (f n2 / f n1) := by
  obtain ⟨k, hk, e, hr⟩ := growth_ratio hc n1 n2
  obtain ⟨k', hk', e', hr'⟩ := growth_ratio hc' n1 n2
  unfold justBelow at hb hb'
  have hkk : k = k' + 1 := by omega
  subst hkk
  rw [show b.asU32 = 2 * (k' + 1) by omega, accept_even_of ht hu1 hu2 hs hk, hr, hr']

/-- **C02** ("between" limits): if `c'` and `c` are consecutive named classes with growth `f'` and `f`, the verdict is at
most "between `c'` and `c`" iff the growth is within tolerance of `f'` or strictly below `1-t` times that of `f`. -/
theorem C02_acceptance_between (t u1 u2 n1 n2 : ℝ) (ht : 0 < t) (hu1 : 0 < u1) (hu2 : 0 ≤ u2) (h1 : 3 ≤ n1) (h : n1 ≤ n2)
    (c c' b : Complexity) (f f' : ℝ → ℝ) (hc : growth c = some f) (hc' : growth c' = some f')
    (hb : justBelow c b) (hb' : justBelow b c') :
    (analyseComplexity (exactEnv t) (fin u1) (fin u2) (fin n1) (fin n2)).asU32 ≤ b.asU32 ↔
      u2 / u1 ≤ (1 + t) * (f' n2 / f' n1) ∨ u2 / u1 < (1 - t) * (f n2 / f n1) := by
  obtain ⟨k, hk, e, hr⟩ := growth_ratio hc n1 n2
  obtain ⟨k', hk', e', hr'⟩ := growth_ratio hc' n1 n2
  unfold justBelow at hb hb'
  have hkk : k = k' + 1 := by omega
  subst hkk
  rw [show b.asU32 = 2 * (k' + 1) by omega, accept_even ht hu1 hu2 h1 h hk, hr, hr']

/-- **C02** fails below set size 3: with `n1 = 2, n2 = 3` the ideal `log` growth exceeds the ideal linear growth, and a
measured growth within the `O(log n)` tolerance but far above linear tolerance is *accepted* by an `O(n)` limit. -/
theorem C02_small_sets_counterexample :
    ¬ ∀ (t u1 u2 n1 n2 : ℝ), 0 < t → 0 < u1 → 0 ≤ u2 → 2 ≤ n1 → n1 ≤ n2 →
      ((analyseComplexity (exactEnv t) (fin u1) (fin u2) (fin n1) (fin n2)).asU32 ≤ Complexity.oN.asU32 ↔
        u2 / u1 ≤ (1 + t) * (n2 / n1)) := by
  intro H
  have hlog : (1.58 : ℝ) ≤ Real.logb 2 3 := by
    rw [Real.le_logb_iff_rpow_le (by norm_num) (by norm_num)]
    have : ((2:ℝ) ^ (1.58:ℝ)) = ((2:ℝ) ^ (158:ℕ)) ^ ((1:ℝ)/100) := by
      rw [← Real.rpow_natCast, ← Real.rpow_mul (by norm_num)]; norm_num
    rw [this, show (3:ℝ) = ((3:ℝ) ^ (100:ℕ)) ^ ((1:ℝ)/100) by
      rw [← Real.rpow_natCast, ← Real.rpow_mul (by norm_num)]; norm_num]
    exact Real.rpow_le_rpow (by norm_num) (by norm_num) (by norm_num)
  have h := (H (1/10) 1 (1.7) 2 3 (by norm_num) (by norm_num) (by norm_num) (by norm_num) (by norm_num)).1
  have hle : (analyseComplexity (exactEnv (1/10)) (fin 1) (fin 1.7) (fin 2) (fin 3)).asU32 ≤ 2 * 1 + 1 := by
    rw [exact_rank (by norm_num) (by norm_num) (by norm_num) (by norm_num),
      pick_tiers_odd (by norm_num) (ratios_pos (by norm_num) (by norm_num)) (by simp [ratios])]
    refine ⟨1, by simp [ratios], le_refl _, ?_⟩
    simp [ratios]; norm_num at *; linarith
  have := h (hle.trans (by decide))
  norm_num at this

/-- **C03.** For set sizes from 2 on (in any order), growth within `1+t` of the ideal growth of a named class is never
reported worse than that class. -/
theorem C03_no_false_alarm (t u1 u2 n1 n2 : ℝ) (ht : 0 < t) (hu1 : 0 < u1) (hu2 : 0 ≤ u2) (h1 : 2 ≤ n1) (h2 : 2 ≤ n2)
    (c : Complexity) (f : ℝ → ℝ) (hc : growth c = some f) (hin : u2 / u1 ≤ (1 + t) * (f n2 / f n1)) :
    (analyseComplexity (exactEnv t) (fin u1) (fin u2) (fin n1) (fin n2)).asU32 ≤ c.asU32 := by
  obtain ⟨k, hk, e, hr⟩ := growth_ratio hc n1 n2
  rw [e, exact_rank hu1 hu2 h1 h2, pick_tiers_odd ht (ratios_pos h1 h2) hk]
  exact ⟨k, hk, le_refl _, by rw [hr]; exact hin⟩

/-- **C03** in terms of the algorithm: usage exactly `a * f n` with any constant factor `a > 0`. -/
theorem C03_on_model (t a n1 n2 : ℝ) (ht : 0 < t) (ha : 0 < a) (h1 : 2 ≤ n1) (h2 : 2 ≤ n2)
    (c : Complexity) (f : ℝ → ℝ) (hc : growth c = some f) :
    (analyseComplexity (exactEnv t) (fin (a * f n1)) (fin (a * f n2)) (fin n1) (fin n2)).asU32 ≤ c.asU32 := by
  have hpos : ∀ n, 2 ≤ n → 0 < f n := by
    intro n hn
    have := logb_pos2 hn
    have hn0 : 0 < n := by linarith
    cases c <;> simp only [growth, Option.some.injEq, reduceCtorEq] at hc <;> subst hc <;> positivity
  have p1 := hpos n1 h1
  have p2 := hpos n2 h2
  refine C03_no_false_alarm t _ _ n1 n2 ht (by positivity) (by positivity) h1 h2 c f hc ?_
  rw [mul_div_mul_left _ _ ha.ne']
  have : 0 < f n2 / f n1 := by positivity
  nlinarith

/-- **C05**, true part: usage exactly `kⁿ` is never reported worse than `O(kⁿ)`. -/
theorem C05_exponential_partial (t k n1 n2 : ℝ) (ht : 0 < t) (hk : 0 < k) (h1 : 0 < n1) (h2 : 0 < n2) :
    (analyseComplexity (exactEnv t) (fin (k ^ n1)) (fin (k ^ n2)) (fin n1) (fin n2)).asU32 ≤ Complexity.okN.asU32 := by
  have p1 : 0 < k ^ n1 := Real.rpow_pos_of_pos hk _
  have p2 : 0 < k ^ n2 := Real.rpow_pos_of_pos hk _
  have e : (k ^ n1) ^ (n2 / n1) = k ^ n2 := by
    rw [← Real.rpow_mul hk.le]; congr 1; field_simp
  have hlast : F.abs ((exactEnv t).sub ((exactEnv t).div (fin (k ^ n2)) ((exactEnv t).powf (fin (k ^ n1))
      ((exactEnv t).div (fin n2) (fin n1)))) (fin 1)) ≤ (exactEnv t).tol := by
    rw [ex_div h2.le h1, ex_powf p1, e]
    exact (ex_within p2.le p2).2 (by rw [div_self p2.ne']; simp [ht.le])
  have step : ∀ (P : Prop) [Decidable P] (a b : Complexity), a.asU32 ≤ Complexity.okN.asU32 → b.asU32 ≤ Complexity.okN.asU32 →
      (if P then a else b).asU32 ≤ Complexity.okN.asU32 := by
    intro P _ a b ha hb; split <;> assumption
  unfold analyseComplexity
  rw [if_pos hlast]
  iterate 15 refine @step _ (_) _ _ (by decide) ?_
  decide

/-- **C05** (exactly when a constant factor is tolerated): usage `c·kⁿ` is not reported worse than `O(kⁿ)` iff it looks polynomial between the
two sizes or `c` is at least `(1/(1+t))^(n1/(n2-n1))` (written without roots). In particular every `c ≥ 1` is tolerated. -/
theorem C05_constant_factor_iff (t c k n1 n2 : ℝ) (ht : 0 < t) (hc : 0 < c) (hk : 0 < k) (h1 : 3 ≤ n1) (h : n1 ≤ n2) :
    (analyseComplexity (exactEnv t) (fin (c * k ^ n1)) (fin (c * k ^ n2)) (fin n1) (fin n2)).asU32 ≤ Complexity.okN.asU32 ↔
      k ^ (n2 - n1) ≤ (1 + t) * (n2 / n1) ^ 4 ∨ 1 ≤ (1 + t) * c ^ (n2 / n1 - 1) := by
  have p1 : 0 < k ^ n1 := Real.rpow_pos_of_pos hk _
  have p2 : 0 < k ^ n2 := Real.rpow_pos_of_pos hk _
  have hn1 : n1 ≠ 0 := by linarith
  rw [C02_acceptance_exponential t _ _ n1 n2 ht (by positivity) (by positivity) h1 h, mul_div_mul_left _ _ hc.ne', Real.rpow_sub hk,
    Real.mul_rpow hc.le p1.le, ← Real.rpow_mul hk.le, mul_div_cancel₀ n2 hn1, Real.rpow_sub hc, Real.rpow_one]
  have e : (1 + t) * (c ^ (n2 / n1) * k ^ n2) = ((1 + t) * c ^ (n2 / n1)) * k ^ n2 := by ring
  rw [e, mul_le_mul_iff_left₀ p2, mul_div_assoc', le_div_iff₀ hc, one_mul]

/-- **C05** is false for a constant factor: `c·2ⁿ` with `c = 1/1024`, set sizes 10 and 20, is reported worse than
exponential. -/
theorem C05_constant_factor_counterexample :
    ¬ ∀ (t c k n1 n2 : ℝ), 0 < t → t < 1 → 0 < c → 1 < k → 3 ≤ n1 → n1 ≤ n2 →
      (analyseComplexity (exactEnv t) (fin (c * k ^ n1)) (fin (c * k ^ n2)) (fin n1) (fin n2)).asU32
        ≤ Complexity.okN.asU32 := by
  intro H
  have h := H (1/10) (1/1024) 2 10 20 (by norm_num) (by norm_num) (by norm_num) (by norm_num) (by norm_num) (by norm_num)
  have e1 : (1/1024 : ℝ) * 2 ^ (10:ℝ) = 1 := by
    rw [show (10:ℝ) = ((10:ℕ):ℝ) by norm_num, Real.rpow_natCast]; norm_num
  have e2 : (1/1024 : ℝ) * 2 ^ (20:ℝ) = 1024 := by
    rw [show (20:ℝ) = ((20:ℕ):ℝ) by norm_num, Real.rpow_natCast]; norm_num
  rw [e1, e2, C02_acceptance_exponential _ _ _ _ _ (by norm_num) (by norm_num) (by norm_num) (by norm_num) (by norm_num)] at h
  norm_num at h

/-! ## C04: units -/

/-- **C04**, true part (regular analysis): as long as the verdict is within the polynomial classes, changing the measuring
unit does not change it. Missing: the exponential tier, see the counterexample. -/
theorem C04_unit_independent_partial (t s u1 u2 n1 n2 : ℝ) (hs : 0 < s) (hu1 : 0 < u1) (hu2 : 0 ≤ u2)
    (h1 : 2 ≤ n1) (h2 : 2 ≤ n2)
    (hpoly : (analyseComplexity (exactEnv t) (fin u1) (fin u2) (fin n1) (fin n2)).asU32 ≤ Complexity.oN4.asU32) :
    analyseComplexity (exactEnv t) (fin (s * u1)) (fin (s * u2)) (fin n1) (fin n2) =
      analyseComplexity (exactEnv t) (fin u1) (fin u2) (fin n1) (fin n2) := by
  apply asU32_injective
  rw [exact_rank hu1 hu2 h1 h2] at *
  rw [exact_rank (by positivity) (by positivity) h1 h2, mul_div_mul_left _ _ hs.ne']
  apply pick_tiers_congr
  have : Complexity.oN4.asU32 = 13 := rfl
  simp [ratios] at *
  omega

/-- **C04** is false of the exponential tier: usages 1 and 1024 are "worse than exponential", the same usages in a unit
1024 times smaller are not. -/
theorem C04_unit_counterexample :
    ¬ ∀ (t s u1 u2 n1 n2 : ℝ), 0 < t → t < 1 → 0 < s → 0 < u1 → 0 ≤ u2 → 3 ≤ n1 → n1 ≤ n2 →
      analyseComplexity (exactEnv t) (fin (s * u1)) (fin (s * u2)) (fin n1) (fin n2) =
        analyseComplexity (exactEnv t) (fin u1) (fin u2) (fin n1) (fin n2) := by
  intro H
  have h := H (1/10) 1024 1 1024 10 20 (by norm_num) (by norm_num) (by norm_num) (by norm_num) (by norm_num)
    (by norm_num) (by norm_num)
  have h1 : (analyseComplexity (exactEnv (1/10)) (fin (1024 * 1)) (fin (1024 * 1024)) (fin 10) (fin 20)).asU32
      ≤ Complexity.okN.asU32 := by
    rw [C02_acceptance_exponential _ _ _ _ _ (by norm_num) (by norm_num) (by norm_num) (by norm_num) (by norm_num)]
    right
    rw [show (20:ℝ) / 10 = ((2:ℕ):ℝ) by norm_num, Real.rpow_natCast]; norm_num
  rw [h, C02_acceptance_exponential _ _ _ _ _ (by norm_num) (by norm_num) (by norm_num) (by norm_num) (by norm_num)] at h1
  norm_num at h1

/-- **C04** for set-resizing algorithms: fully unit independent. -/
theorem C04_unit_independent_set_resizing (t s u1 u2 n : ℝ) (ht : 0 < t) (hs : 0 < s) (hu1 : 0 < u1) (hu2 : 0 ≤ u2)
    (hn : 2 ≤ n) :
    analyseSetResizing (exactEnv t) (fin (s * u1)) (fin (s * u2)) (fin n) =
      analyseSetResizing (exactEnv t) (fin u1) (fin u2) (fin n) := by
  apply asU32_injective
  rw [sr_eq_pick, sr_eq_pick, sr_exact_tests ht (by positivity) (by positivity) hn, sr_exact_tests ht hu1 hu2 hn,
    mul_div_mul_left _ _ hs.ne']
  have : ((1 + t) * (s * u2) < s * u1) ↔ ((1 + t) * u2 < u1) := by
    rw [show (1 + t) * (s * u2) = s * ((1 + t) * u2) by ring]
    exact mul_lt_mul_iff_right₀ hs
  rw [this]

/-! ## C07, C08: degenerate measurements -/

/-- **C07.** If the first pass has 0 or 1 elements and the second at least 2, every finite growth is reported as at most
"between O(1) and O(log n)". -/
theorem C07_degenerate_sets (E : FloatEnv) (L : FloatLaws E) (G : LogLaws E) (u1 u2 : F) (n1 n2 : ℕ)
    (r : ℝ) (hr : E.div u2 u1 = fin r) (hr0 : 0 ≤ r) (h1 : n1 ≤ 1) (h2 : 2 ≤ n2) :
    (analyseComplexity E u1 u2 (fin n1) (fin n2)).asU32 ≤ Complexity.betweenO1AndOLogN.asU32 := by
  obtain ⟨t, c, d, ht, hc, -, t0, t1, c0, c1, -⟩ := L.tol_consts
  obtain ⟨l, hl, hlog⟩ := G.log_two_up n2 h2
  rw [analyse_eq_pick]
  show pick _ ≤ 2
  rw [pick_le_iff (by simp [tests])]
  rcases hr0.lt_or_eq with hpos | hz
  · refine ⟨2, by simp [tests], le_refl _, ?_⟩
    show below E (E.div u2 u1) (E.div (E.log2 (fin n2)) (E.log2 (fin n1)))
    unfold below
    rw [oneMinusTol_eq L ht hc t1, hr, hlog]
    rcases (show n1 = 0 ∨ n1 = 1 by omega) with rfl | rfl
    · rw [Nat.cast_zero, G.log_zero]
      have : E.div (fin l) (inf true) = nzero := by simp [FloatEnv.div, zero, Xor, not_lt.2 hl.le]
      rw [this]
      simp [FloatEnv.div, FloatEnv.divFin, hpos.ne', infS, Xor, not_lt.2 hpos.le, F.lt_def]
    · rw [Nat.cast_one, G.log_one]
      have : E.div (fin l) (fin 0) = inf false := by
        simp [FloatEnv.div, FloatEnv.divFin, infS, Xor, not_lt.2 hl.le, hl.ne']
      rw [this]
      simp [FloatEnv.div, zero, Xor, not_lt.2 hpos.le, F.lt_def, c0]
  · refine ⟨0, by simp [tests], by omega, ?_⟩
    show below E u2 u1
    unfold below
    rw [oneMinusTol_eq L ht hc t1, hr, ← hz]
    simpa using c0

/-- **C08**, true part: equal non-zero usage on both passes is `O(1)`, for both kinds of analysis and any set size. -/
theorem C08_equal_usage_partial (E : FloatEnv) (L : FloatLaws E) (u : ℝ) (hu : 0 < u) (n1 n2 : F) :
    analyseComplexity E (fin u) (fin u) n1 n2 = .o1 ∧ analyseSetResizing E (fin u) (fin u) n1 = .o1 := by
  obtain ⟨t, c, d, ht, hc, -, t0, t1, c0, c1, -⟩ := L.tol_consts
  have e1 : E.rnd 1 = fin 1 := by simpa using L.rnd_nat 1 (by norm_num)
  have hd : E.div (fin u) (fin u) = fin 1 := by rw [div_fin_fin_pos hu hu.ne', div_self hu.ne', e1]
  have hs : E.sub (fin 1) (fin 1) = fin 0 := by simp [FloatEnv.sub, FloatEnv.rnd0]
  constructor
  · unfold analyseComplexity
    rw [hd, hs, oneMinusTol_eq L ht hc t1, ht, if_neg (by simp [c1.le]), if_pos (by simp [F.abs, t0.le])]
  · unfold analyseSetResizing
    rw [hd, hs, ht, if_neg (by simp [t0.le]), if_pos (by simp [F.abs, t0.le])]

/-- **C08** is false for zero usage: an algorithm that allocates nothing on both passes (or whose passes take no measurable
time) is reported "worse than exponential" by the regular analysis, whatever its set sizes and the rounding (`hp` is the
IEEE rule `0^y = 0` for `y > 0`), and "worse than O(log n)" by the set-resizing one. -/
theorem C08_zero_usage_is_worst (E : FloatEnv) (n1 n2 : F) (hp : E.powf (fin 0) (E.div n2 n1) = fin 0) :
    analyseComplexity E (fin 0) (fin 0) n1 n2 = .worseThanExponential ∧
    analyseSetResizing E (fin 0) (fin 0) n1 = .betweenOLogNAndON := by
  have hd : E.div (fin 0) (fin 0) = nan := by simp [FloatEnv.div, FloatEnv.divFin]
  have hn : ∀ g, E.div nan g = nan := fun g => rfl
  have hs : E.sub nan (fin 1) = nan := rfl
  have ha : F.abs nan = nan := rfl
  constructor
  · unfold analyseComplexity
    simp [hp, hd, hn, hs, ha]
  · unfold analyseSetResizing
    simp [hd, hn, hs, ha]

/-- **C08** refuted in its full form (all usages `u ≥ 0`). -/
theorem C08_counterexample :
    ¬ ∀ (t u n1 n2 : ℝ), 0 < t → t < 1 → 0 ≤ u → 2 ≤ n1 → n1 ≤ n2 →
      analyseComplexity (exactEnv t) (fin u) (fin u) (fin n1) (fin n2) = .o1 := by
  intro H
  have h := H (1/10) 0 10 20 (by norm_num) (by norm_num) le_rfl (by norm_num) (by norm_num)
  have hp : (exactEnv (1/10)).powf (fin 0) ((exactEnv (1/10)).div (fin 20) (fin 10)) = fin 0 := by
    rw [ex_div (by norm_num) (by norm_num)]
    simp only [exactEnv, idealPowf]
    norm_num
  rw [(C08_zero_usage_is_worst _ _ _ hp).1] at h
  exact absurd h (by decide)

/-- If the first pass uses nothing and the second something, the regular verdict is always "worse than exponential". -/
theorem C08_zero_first_pass (t u2 n1 n2 : ℝ) (hu2 : 0 < u2) (h1 : 2 ≤ n1) (h2 : 2 ≤ n2) :
    analyseComplexity (exactEnv t) (fin 0) (fin u2) (fin n1) (fin n2) = .worseThanExponential := by
  have p1 : 0 < n1 := by linarith
  have p2 : 0 < n2 := by linarith
  have l1 := logb_pos2 h1
  have l2 := logb_pos2 h2
  have hd : (exactEnv t).div (fin u2) (fin 0) = inf false := by
    simp [FloatEnv.div, FloatEnv.divFin, infS, Xor, not_lt.2 hu2.le, hu2.ne']
  have hg : ∀ g : ℝ, 0 < g → (exactEnv t).div (inf false) (fin g) = inf false := by
    intro g hg
    simp [FloatEnv.div, infS, Xor, not_lt.2 hg.le]
  have hs : (exactEnv t).sub (inf false) (fin 1) = inf false := rfl
  have ha : F.abs (inf false) = inf false := rfl
  have hlt : ∀ x : ℝ, ¬ (inf false < fin x) := by intro x; simp [F.lt_def]
  have hle : ∀ x : ℝ, ¬ (inf false ≤ fin x) := by intro x; simp [F.le_def]
  have hp : (exactEnv t).powf (fin 0) (fin (n2 / n1)) = fin 0 := by
    have : 0 < n2 / n1 := by positivity
    simp [exactEnv, idealPowf, p1.ne', p2.ne', not_lt.2 this.le]
  have htol : (exactEnv t).tol = fin t := rfl
  unfold analyseComplexity
  rw [hd, ex_oneMinusTol, ex_log p1, ex_log p2, ex_div l2.le l1, ex_div p2.le p1, ex_mul p2.le l2.le, ex_mul p1.le l1.le,
    ex_div (mul_pos p2 l2).le (mul_pos p1 l1), ex_powi (by norm_num), ex_powi (by norm_num), ex_powi (by norm_num), hp, hd,
    hg _ (by positivity), hg _ (by positivity), hg _ (by positivity), hg _ (by positivity), hg _ (by positivity),
    hg _ (by positivity), hs, ha, htol]
  simp [hlt, hle]

/-! ## C09-C11: set-resizing analysis -/

/-- **C09.** Monotone in the second-pass usage, for every arithmetic satisfying `FloatLaws` and every `n`
(`-0.0` is excluded: no measurement produces it). -/
theorem C09_monotone (E : FloatEnv) (L : FloatLaws E) (u1 u2 u2' n : F)
    (h1 : fin 0 < u1) (h2 : fin 0 ≤ u2) (hz : u2 ≠ nzero) (h : u2 ≤ u2') :
    (analyseSetResizing E u1 u2 n).asU32 ≤ (analyseSetResizing E u1 u2' n).asU32 :=
  sr_mono L h1 h2 hz h

/-- **C10.** All acceptance thresholds of the set-resizing analysis, `n ≥ 2`, exact arithmetic. -/
theorem C10_acceptance (t u1 u2 n : ℝ) (ht : 0 < t) (ht1 : t < 1) (hu1 : 0 < u1) (hu2 : 0 ≤ u2) (hn : 2 ≤ n) :
    let v := analyseSetResizing (exactEnv t) (fin u1) (fin u2) (fin n)
    let r := u2 / u1
    let logGrowth := Real.logb 2 (n * 3) / Real.logb 2 n
    (v.asU32 ≤ Complexity.betterThanO1.asU32 ↔ (1 + t) * r < 1) ∧
    (v.asU32 ≤ Complexity.o1.asU32 ↔ r ≤ 1 + t) ∧
    (v.asU32 ≤ Complexity.betweenO1AndOLogN.asU32 ↔ r ≤ 1 + t ∨ r < logGrowth) ∧
    (v.asU32 ≤ Complexity.oLogN.asU32 ↔ r ≤ 1 + t ∨ r < (1 + t) * logGrowth) ∧
    (v.asU32 ≤ Complexity.betweenOLogNAndON.asU32 ↔ r ≤ 1 + t ∨ r < (1 + t) * logGrowth ∨ r < 3 * (1 - t)) ∧
    (v.asU32 ≤ Complexity.oN.asU32 ↔ r ≤ 3 * (1 + t) ∨ r < (1 + t) * logGrowth) := by
  have h := sr_accept ht ht1 hu1 hu2 hn
  exact ⟨Nat.le_zero.trans h.1, h.2⟩

/-- **C11.** No measurement makes the set-resizing analysis report worse than "between O(n) and O(n log n)". -/
theorem C11_ceiling (E : FloatEnv) (u1 u2 n : F) (limit : Complexity)
    (hl : Complexity.betweenONAndONLogN.asU32 ≤ limit.asU32) :
    (analyseSetResizing E u1 u2 n).asU32 ≤ limit.asU32 := by
  refine le_trans ?_ hl
  unfold analyseSetResizing
  split_ifs <;> decide

/-- **C11**, sharp: the ceiling is reached (growth 4 on set size 4). -/
theorem C11_ceiling_reached : ∃ u1 u2 n : ℝ,
    analyseSetResizing (exactEnv (1/10)) (fin u1) (fin u2) (fin n) = .betweenONAndONLogN := by
  refine ⟨1, 100, 9, asU32_injective ?_⟩
  have h := sr_accept (t := 1/10) (u1 := 1) (u2 := 100) (n := 9) (by norm_num) (by norm_num) (by norm_num) (by norm_num) (by norm_num)
  have hle := C11_ceiling (exactEnv (1/10)) (fin 1) (fin 100) (fin 9) .betweenONAndONLogN le_rfl
  have hL : L3 9 = 3 / 2 := by
    unfold L3
    rw [show (9:ℝ) * 3 = 3 ^ (3:ℕ) by norm_num, show (9:ℝ) = 3 ^ (2:ℕ) by norm_num, Real.logb_pow, Real.logb_pow]
    have : 0 < Real.logb 2 3 := Real.logb_pos (by norm_num) (by norm_num)
    field_simp; norm_num
  have h5 := h.2.2.2.2.2
  have : ¬ ((100:ℝ) / 1 ≤ 3 * (1 + 1 / 10) ∨ (100:ℝ) / 1 < (1 + 1 / 10) * L3 9) := by rw [hL]; norm_num
  have hnot := mt h5.1 this
  have e : Complexity.betweenONAndONLogN.asU32 = 6 := rfl
  omega

/-! ## C12-C14, C18: the time and space wrappers -/

/-- **C12.** Constant-set analyses do not depend on the order of the set sizes nor on the repetitions. -/
theorem C12_order_irrelevant (E : FloatEnv) (p : Profile) (a b rep rep' : ℕ) (tm : TimeMeasurements)
    (sm : SpaceMeasurements) :
    analyseTimeConstantSet E ⟨a, b, rep⟩ tm = analyseTimeConstantSet E ⟨b, a, rep'⟩ tm ∧
    analyseSpaceConstantSet E p ⟨a, b, rep⟩ sm = analyseSpaceConstantSet E p ⟨b, a, rep'⟩ sm := by
  constructor
  · simp [analyseTimeConstantSet, min_comm a b, max_comm a b]
  · simp [analyseSpaceConstantSet, min_comm a b, max_comm a b]

/-- peak above baseline of a pass, as a (possibly negative) integer -/
def peakAboveBaseline (s : SpacePass) : ℤ := (s.maxUsed : ℤ) - s.usedBefore

/-- **C13.** Two sets of readings with the same peak above baseline on each pass get the same result (verdict or panic)
from the three space analyses, in both build profiles. -/
theorem C13_only_peak_matters (E : FloatEnv) (p : Profile) (m m' : SpaceMeasurements)
    (h1 : peakAboveBaseline m.pass1 = peakAboveBaseline m'.pass1)
    (h2 : peakAboveBaseline m.pass2 = peakAboveBaseline m'.pass2)
    (i : PassesInfo) (ic : ConstantSetPassesInfo) (is : SetResizingPassesInfo) :
    analyseSpace E p i m = analyseSpace E p i m' ∧
    analyseSpaceConstantSet E p ic m = analyseSpaceConstantSet E p ic m' ∧
    analyseSpaceSetResizing E p is m = analyseSpaceSetResizing E p is m' := by
  have key : ∀ s s' : SpacePass, peakAboveBaseline s = peakAboveBaseline s' →
      usizeSub p s.maxUsed s.usedBefore = usizeSub p s'.maxUsed s'.usedBefore := by
    intro s s' h
    unfold peakAboveBaseline at h
    unfold usizeSub
    by_cases hc : s.usedBefore ≤ s.maxUsed
    · rw [if_pos hc, if_pos (by omega)]; congr 1; omega
    · rw [if_neg hc, if_neg (by omega)]
      cases p
      · rfl
      · simp only [Except.ok.injEq]
        congr 1
        omega
  simp only [analyseSpace, analyseSpaceConstantSet, analyseSpaceSetResizing, key _ _ h1, key _ _ h2, and_self]

/-- **C13.** In an overflow-checked build the three space analyses panic exactly when some pass has its peak below its
baseline; without overflow checks they never panic. -/
theorem C13_panic_iff (E : FloatEnv) (m : SpaceMeasurements)
    (i : PassesInfo) (ic : ConstantSetPassesInfo) (is : SetResizingPassesInfo) :
    let bad := peakAboveBaseline m.pass1 < 0 ∨ peakAboveBaseline m.pass2 < 0
    ((∃ e, analyseSpace E .checked i m = .error e) ↔ bad) ∧
    ((∃ e, analyseSpaceConstantSet E .checked ic m = .error e) ↔ bad) ∧
    ((∃ e, analyseSpaceSetResizing E .checked is m = .error e) ↔ bad) ∧
    (∃ v, analyseSpace E .wrapping i m = .ok v) ∧
    (∃ v, analyseSpaceConstantSet E .wrapping ic m = .ok v) ∧
    (∃ v, analyseSpaceSetResizing E .wrapping is m = .ok v) := by
  intro bad
  have hb : bad ↔ (m.pass1.maxUsed < m.pass1.usedBefore ∨ m.pass2.maxUsed < m.pass2.usedBefore) := by
    simp only [bad, peakAboveBaseline]; omega
  rw [hb]
  simp only [analyseSpace, analyseSpaceConstantSet, analyseSpaceSetResizing, usizeSub, bind, Except.bind]
  by_cases a : m.pass1.usedBefore ≤ m.pass1.maxUsed <;> by_cases b : m.pass2.usedBefore ≤ m.pass2.maxUsed <;>
    simp [a, b, pure, Except.pure] <;> omega

/-- **C14.** A longer second pass never gets a better time verdict from any of the three time analyses, through the
conversion of `Duration` to f64 seconds (durations below 2^53 seconds; the first pass took at least 1 ns). -/
theorem C14_time_monotone (E : FloatEnv) (L : FloatLaws E) (d1 d2 d2' : Duration) (h1 : 0 < d1)
    (hd1 : d1 / 10 ^ 9 ≤ 2 ^ 53) (h : d2 ≤ d2') (hd2 : d2' / 10 ^ 9 ≤ 2 ^ 53)
    (i : PassesInfo) (ic : ConstantSetPassesInfo) (is : SetResizingPassesInfo) :
    (analyseTime E i ⟨d1, d2⟩).asU32 ≤ (analyseTime E i ⟨d1, d2'⟩).asU32 ∧
    (analyseTimeConstantSet E ic ⟨d1, d2⟩).asU32 ≤ (analyseTimeConstantSet E ic ⟨d1, d2'⟩).asU32 ∧
    (analyseTimeSetResizing E is ⟨d1, d2⟩).asU32 ≤ (analyseTimeSetResizing E is ⟨d1, d2'⟩).asU32 := by
  have hd2' : d2 / 10 ^ 9 ≤ 2 ^ 53 := (Nat.div_le_div_right h).trans hd2
  have w := asSecs_wf L hd2'
  have w' := asSecs_wf L hd2
  have hm : asSecsF64 E d2 ≤ asSecsF64 E d2' := ⟨w.1.2.1, w'.1.2.1, asSecs_mono L h hd2⟩
  have hp := asSecs_pos L hd1 h1
  exact ⟨analyse_mono L hp w.1 hm, analyse_mono L hp w.1 hm, sr_mono L hp w.1 w.2 hm⟩

/-- **C18.** A higher second-pass peak over its baseline never gets a better space verdict from any of the three space
analyses (readings without underflow; the first pass uses at least one byte). -/
theorem C18_space_monotone (E : FloatEnv) (L : FloatLaws E) (p : Profile) (s1 : SpacePass) (s2 s2' : SpacePass)
    (h1 : s1.usedBefore < s1.maxUsed) (hw : s2.usedBefore ≤ s2.maxUsed) (hw' : s2'.usedBefore ≤ s2'.maxUsed)
    (h : s2.maxUsed - s2.usedBefore ≤ s2'.maxUsed - s2'.usedBefore)
    (i : PassesInfo) (ic : ConstantSetPassesInfo) (is : SetResizingPassesInfo) :
    (∃ v v', analyseSpace E p i ⟨s1, s2⟩ = .ok v ∧ analyseSpace E p i ⟨s1, s2'⟩ = .ok v' ∧ v.asU32 ≤ v'.asU32) ∧
    (∃ v v', analyseSpaceConstantSet E p ic ⟨s1, s2⟩ = .ok v ∧ analyseSpaceConstantSet E p ic ⟨s1, s2'⟩ = .ok v' ∧
      v.asU32 ≤ v'.asU32) ∧
    (∃ v v', analyseSpaceSetResizing E p is ⟨s1, s2⟩ = .ok v ∧ analyseSpaceSetResizing E p is ⟨s1, s2'⟩ = .ok v' ∧
      v.asU32 ≤ v'.asU32) := by
  have e1 : usizeSub p s1.maxUsed s1.usedBefore = .ok (s1.maxUsed - s1.usedBefore) := by
    unfold usizeSub; rw [if_pos (by omega)]
  have e2 : usizeSub p s2.maxUsed s2.usedBefore = .ok (s2.maxUsed - s2.usedBefore) := by
    unfold usizeSub; rw [if_pos (by omega)]
  have e3 : usizeSub p s2'.maxUsed s2'.usedBefore = .ok (s2'.maxUsed - s2'.usedBefore) := by
    unfold usizeSub; rw [if_pos (by omega)]
  have hp : fin 0 < E.ofNat (s1.maxUsed - s1.usedBefore) := by
    refine ⟨trivial, rnd0_num L _, ?_⟩
    unfold FloatEnv.ofNat
    have h1' : ((1:ℕ):ℝ) ≤ ((s1.maxUsed - s1.usedBefore : ℕ) : ℝ) := by exact_mod_cast (by omega)
    have := L.rnd_mono _ _ h1'
    rw [L.rnd_nat 1 (by norm_num)] at this
    rw [rnd0_toE L]
    refine lt_of_lt_of_le ?_ this
    simp
  have h0 : ∀ n : ℕ, fin 0 ≤ E.ofNat n ∧ E.ofNat n ≠ nzero := fun n =>
    ⟨rnd0_nonneg L (by positivity), rnd0_not_nzero L (by positivity)⟩
  have hm : E.ofNat (s2.maxUsed - s2.usedBefore) ≤ E.ofNat (s2'.maxUsed - s2'.usedBefore) := by
    refine ⟨rnd0_num L _, rnd0_num L _, rnd0_mono L ?_⟩
    exact_mod_cast (by omega)
  simp only [analyseSpace, analyseSpaceConstantSet, analyseSpaceSetResizing, e1, e2, e3, bind, Except.bind, pure, Except.pure]
  exact ⟨⟨_, _, rfl, rfl, analyse_mono L hp (h0 _).1 hm⟩, ⟨_, _, rfl, rfl, analyse_mono L hp (h0 _).1 hm⟩,
    ⟨_, _, rfl, rfl, sr_mono L hp (h0 _).1 (h0 _).2 hm⟩⟩

/-! ## C15, C16: the verdict enum -/

open Asymptotics Filter in
/-- **C15.** Of two named classes, the one with the smaller number is asymptotically negligible against the other. -/
theorem C15_order_is_asymptotic (k : ℝ) (hk : 1 < k) (c c' : Complexity) (f f' : ℝ → ℝ)
    (hc : growthK k c = some f) (hc' : growthK k c' = some f') (h : c.asU32 < c'.asU32) :
    f =o[atTop] f' := by
  have l2 : (0:ℝ) < Real.log 2 := Real.log_pos (by norm_num)
  have logo1 : (fun _ : ℝ => (1:ℝ)) =o[atTop] (fun n => Real.logb 2 n) := by
    rw [isLittleO_const_left]; right
    exact tendsto_norm_atTop_atTop.comp (Real.tendsto_logb_atTop (by norm_num))
  have logn : (fun n : ℝ => Real.logb 2 n) =o[atTop] (fun n : ℝ => n) := by
    have := (Real.isLittleO_log_id_atTop).const_mul_left (1 / Real.log 2)
    refine this.congr_left ?_
    intro x; unfold Real.logb; ring
  have nnlog : (fun n : ℝ => n) =o[atTop] (fun n : ℝ => n * Real.logb 2 n) := by
    have := (isBigO_refl (fun n : ℝ => n) atTop).mul_isLittleO logo1
    simpa using this
  have nlog2 : (fun n : ℝ => n * Real.logb 2 n) =o[atTop] (fun n : ℝ => n ^ 2) := by
    have := (isBigO_refl (fun n : ℝ => n) atTop).mul_isLittleO logn
    refine this.congr_right ?_
    intro x; ring
  have pw : ∀ a b : ℕ, a < b → (fun n : ℝ => n ^ a) =o[atTop] (fun n : ℝ => n ^ b) := fun a b hab =>
    isLittleO_pow_pow_atTop_of_lt hab
  have ex : (fun n : ℝ => n ^ 4) =o[atTop] (fun n : ℝ => k ^ n) := by
    have hk' : 0 < Real.log k := Real.log_pos hk
    have h1 := isLittleO_pow_exp_pos_mul_atTop 4 hk'
    refine h1.congr_right ?_
    intro x
    rw [Real.rpow_def_of_pos (by linarith)]
  have a2 := logo1.trans logn
  have a3 := a2.trans nnlog
  have a4 := a3.trans nlog2
  have a5 := a4.trans (pw 2 3 (by norm_num))
  have a6 := a5.trans (pw 3 4 (by norm_num))
  have b3 := logn.trans nnlog
  have b4 := b3.trans nlog2
  have b5 := b4.trans (pw 2 3 (by norm_num))
  have b6 := b5.trans (pw 3 4 (by norm_num))
  have c4 := nnlog.trans nlog2
  have c5 := c4.trans (pw 2 3 (by norm_num))
  have c6 := c5.trans (pw 3 4 (by norm_num))
  have d5 := nlog2.trans (pw 2 3 (by norm_num))
  have d6 := d5.trans (pw 3 4 (by norm_num))
  cases c <;> simp only [growthK, growth, Option.some.injEq, reduceCtorEq] at hc <;> subst hc <;>
    cases c' <;> simp only [growthK, growth, Option.some.injEq, reduceCtorEq] at hc' <;> subst hc' <;>
    first
    | (exfalso; revert h; decide)
    | assumption
    | exact pw _ _ (by norm_num)
    | (exact IsLittleO.trans (by first | assumption | exact pw _ _ (by norm_num)) ex)

/-- **C16.** Different verdicts have different texts in the three renderings. -/
theorem C16_texts_injective : Function.Injective Complexity.asPrettyStr ∧
    Function.Injective Complexity.asTimePrettyStr ∧ Function.Injective Complexity.asSpacePrettyStr := by
  refine ⟨?_, ?_, ?_⟩ <;> intro a b h <;> cases a <;> cases b <;>
    first | rfl | (exfalso; simp [Complexity.asTimePrettyStr, Complexity.asSpacePrettyStr, Complexity.asPrettyStr] at h)

/-- the verdict numbering is injective too: equal `as u32` means equal verdict. -/
theorem C16_numbers_injective : Function.Injective Complexity.asU32 := asU32_injective

/-! ## Non-vacuity: concrete instances of the hypotheses -/

/-- the laws have an instance (exact arithmetic, tolerance 10%); `Verif.Props.Binary64` gives the binary64 one -/
theorem laws_instance : FloatLaws (exactEnv (1/10)) ∧ LogLaws (exactEnv (1/10)) ∧ PowfLaws (exactEnv (1/10)) :=
  ⟨exact_laws (by norm_num) (by norm_num), exact_logLaws _, exact_powfLaws _⟩

/-- C01/C09: usage 5 then 10 or 50 on sets of 10 and 20 elements -/
example : (analyseComplexity (exactEnv (1/10)) (fin 5) (fin 10) (fin 10) (fin 20)).asU32 ≤
    (analyseComplexity (exactEnv (1/10)) (fin 5) (fin 50) (fin 10) (fin 20)).asU32 :=
  C01_monotone _ laws_instance.1 _ _ _ _ _ (by simp) (by simp) (by simp; norm_num)
example : (analyseSetResizing (exactEnv (1/10)) (fin 5) (fin 10) (fin 10)).asU32 ≤
    (analyseSetResizing (exactEnv (1/10)) (fin 5) (fin 50) (fin 10)).asU32 :=
  C09_monotone _ laws_instance.1 _ _ _ _ (by simp) (by simp) (by simp) (by simp; norm_num)
/-- C06 -/
example : (analyseComplexity (exactEnv (1/10)) (fin 7) (fin 10) (fin 10) (fin 20)).asU32 ≤
    (analyseComplexity (exactEnv (1/10)) (fin 5) (fin 10) (fin 10) (fin 20)).asU32 :=
  C06_antitone _ laws_instance.1 laws_instance.2.2 _ _ _ _ _ (by norm_num) (by norm_num) (by norm_num)
    (by rw [ex_div (by norm_num) (by norm_num)]; simp; norm_num)
/-- C02: doubling on a doubled set is within `O(n)`, tripling is not -/
example : (analyseComplexity (exactEnv (1/10)) (fin 5) (fin 10) (fin 10) (fin 20)).asU32 ≤ Complexity.oN.asU32 :=
  (C02_acceptance (1/10) 5 10 10 20 (by norm_num) (by norm_num) (by norm_num) (by norm_num) (by norm_num) .oN _ rfl).2
    (by norm_num)
example : ¬ (analyseComplexity (exactEnv (1/10)) (fin 5) (fin 15) (fin 10) (fin 20)).asU32 ≤ Complexity.oN.asU32 := by
  rw [C02_acceptance (1/10) 5 15 10 20 (by norm_num) (by norm_num) (by norm_num) (by norm_num) (by norm_num) .oN _ rfl]
  norm_num
/-- C02 between: 1.7-fold growth on a doubled set (of 16) is below `O(n)` -/
example : (analyseComplexity (exactEnv (1/10)) (fin 1) (fin 1.7) (fin 16) (fin 32)).asU32 ≤
    Complexity.betweenOLogNAndON.asU32 :=
  (C02_acceptance_between (1/10) 1 1.7 16 32 (by norm_num) (by norm_num) (by norm_num) (by norm_num) (by norm_num)
    .oN .oLogN .betweenOLogNAndON _ _ rfl rfl rfl rfl).2 (Or.inr (by norm_num))
/-- C03: an `n²` algorithm, 7 units per step -/
example : (analyseComplexity (exactEnv (1/10)) (fin (7 * 10 ^ 2)) (fin (7 * 20 ^ 2)) (fin 10) (fin 20)).asU32 ≤
    Complexity.oN2.asU32 :=
  C03_on_model (1/10) 7 10 20 (by norm_num) (by norm_num) (by norm_num) (by norm_num) .oN2 _ rfl
/-- C04: the linear case in another unit -/
example : analyseComplexity (exactEnv (1/10)) (fin (1000 * 5)) (fin (1000 * 10)) (fin 10) (fin 20) =
    analyseComplexity (exactEnv (1/10)) (fin 5) (fin 10) (fin 10) (fin 20) :=
  C04_unit_independent_partial (1/10) 1000 5 10 10 20 (by norm_num) (by norm_num) (by norm_num) (by norm_num) (by norm_num)
    (le_trans ((C02_acceptance (1/10) 5 10 10 20 (by norm_num) (by norm_num) (by norm_num) (by norm_num) (by norm_num) .oN _
      rfl).2 (by norm_num)) (by decide))
/-- C07: a million-fold growth from 1 to 1000 elements -/
example : (analyseComplexity (exactEnv (1/10)) (fin 1) (fin (10 ^ 6)) (fin (1:ℕ)) (fin (1000:ℕ))).asU32 ≤
    Complexity.betweenO1AndOLogN.asU32 :=
  C07_degenerate_sets _ laws_instance.1 laws_instance.2.1 _ _ 1 1000 (10 ^ 6 / 1)
    (ex_div (by norm_num) (by norm_num)) (by norm_num) (by norm_num) (by norm_num)
/-- C13: hypotheses met by readings shifted by 100 bytes -/
example : peakAboveBaseline ⟨10, 15, 30, 5⟩ = peakAboveBaseline ⟨110, 999, 130, 0⟩ := by decide
/-- C14: 1 s, then 2 s or 3.5 s -/
example : (analyseTime (exactEnv (1/10)) ⟨10, 20⟩ ⟨10 ^ 9, 2 * 10 ^ 9⟩).asU32 ≤
    (analyseTime (exactEnv (1/10)) ⟨10, 20⟩ ⟨10 ^ 9, 35 * 10 ^ 8⟩).asU32 :=
  (C14_time_monotone _ laws_instance.1 (10 ^ 9) (2 * 10 ^ 9) (35 * 10 ^ 8) (by norm_num) (by norm_num) (by norm_num)
    (by norm_num) _ ⟨0, 0, 0⟩ ⟨0⟩).1
/-- C18: hypotheses met by a pass of 100 bytes followed by 200 or 300 bytes -/
example : ∃ v v', analyseSpace (exactEnv (1/10)) .checked ⟨10, 20⟩ ⟨⟨50, 50, 150, 50⟩, ⟨50, 50, 250, 50⟩⟩ = .ok v ∧
    analyseSpace (exactEnv (1/10)) .checked ⟨10, 20⟩ ⟨⟨50, 50, 150, 50⟩, ⟨50, 50, 350, 50⟩⟩ = .ok v' ∧ v.asU32 ≤ v'.asU32 :=
  (C18_space_monotone _ laws_instance.1 .checked ⟨50, 50, 150, 50⟩ ⟨50, 50, 250, 50⟩ ⟨50, 50, 350, 50⟩ (by decide) (by decide) (by decide) (by decide) _ ⟨0, 0, 0⟩ ⟨0⟩).1
/-- C15: two named classes -/
example : ∃ f f', growthK 2 .oNLogN = some f ∧ growthK 2 .okN = some f' ∧
    Complexity.oNLogN.asU32 < Complexity.okN.asU32 := ⟨_, _, rfl, rfl, by decide⟩

end BigO
