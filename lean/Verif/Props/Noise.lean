import Verif.Spec.Noise
import Verif.Props.Detection
import Verif.Props.WholeTest

/-!
# C99: measurement noise
-/
namespace BigO

theorem WithinError.bounds {δ x u : ℝ} (h : WithinError δ x u) : (1 - δ) * x ≤ u ∧ u ≤ (1 + δ) * x := by
  have := abs_le.1 h
  constructor <;> linarith

theorem within_of {δ e x : ℝ} (hx : 0 ≤ x) (he : |e| ≤ δ) : WithinError δ x ((1 + e) * x) := by
  unfold WithinError
  have : (1 + e) * x - x = e * x := by ring
  rw [this, abs_mul, abs_of_nonneg hx]
  exact mul_le_mul_of_nonneg_right he hx

/-- the worst quotient that noise can make -/
theorem noisy_quotient {δ x1 x2 u1 u2 : ℝ} (hδ : δ < 1) (hx1 : 0 < x1) (hx2 : 0 < x2) (h1 : WithinError δ x1 u1) (h2 : WithinError δ x2 u2) :
    0 < u1 ∧ (1 - δ) / (1 + δ) * (x2 / x1) ≤ u2 / u1 ∧ u2 / u1 ≤ (1 + δ) / (1 - δ) * (x2 / x1) := by
  obtain ⟨a1, b1⟩ := h1.bounds
  obtain ⟨a2, b2⟩ := h2.bounds
  have hd : 0 < 1 - δ := by linarith
  have hu1 : 0 < u1 := lt_of_lt_of_le (by positivity) a1
  have hd' : 0 < 1 + δ := by
    by_contra hneg
    have : (1 + δ) * x1 ≤ 0 := mul_nonpos_of_nonpos_of_nonneg (by linarith) hx1.le
    linarith
  refine ⟨hu1, ?_, ?_⟩
  · rw [div_mul_div_comm, div_le_div_iff₀ (by positivity) hu1]
    calc (1 - δ) * x2 * u1 ≤ (1 - δ) * x2 * ((1 + δ) * x1) := by gcongr
      _ ≤ u2 * ((1 + δ) * x1) := by gcongr
  · rw [div_mul_div_comm, div_le_div_iff₀ hu1 (by positivity)]
    calc u2 * ((1 - δ) * x1) ≤ u2 * u1 := mul_le_mul_of_nonneg_left a1 ((by positivity : 0 ≤ (1 - δ) * x2).trans a2)
      _ ≤ (1 + δ) * x2 * u1 := by gcongr

theorem noise_margin {tol δ : ℝ} (ht : 0 < tol) (hδ : δ < 1) : (1 + δ) / (1 - δ) ≤ 1 + tol ↔ δ ≤ tol / (2 + tol) := by
  rw [div_le_iff₀ (by linarith), le_div_iff₀ (by linarith)]
  constructor <;> intro h <;> linarith

/-- **C99** (how much noise is harmless): an algorithm of class `c` is never found worse than its class, whatever the measurement noise of up to
`δ`, if and only if `δ ≤ tol / (2 + tol)`, whatever the class and the set sizes: 4.76% at a tolerance of 10%, 11.1% at 25%. -/
theorem C99_accepted_iff (tol δ a n1 n2 : ℝ) (ht : 0 < tol) (hδ0 : 0 ≤ δ) (hδ : δ < 1) (ha : 0 < a) (h1 : 3 ≤ n1) (h : n1 ≤ n2)
    (c : Complexity) (f : ℝ → ℝ) (hc : growth c = some f) :
    (∀ u1 u2, WithinError δ (a * f n1) u1 → WithinError δ (a * f n2) u2 →
      (analyseComplexity (exactEnv tol) (.fin u1) (.fin u2) (.fin n1) (.fin n2)).asU32 ≤ c.asU32) ↔ δ ≤ tol / (2 + tol) := by
  have p1 := growth_pos hc (n := n1) (by linarith)
  have p2 := growth_pos hc (n := n2) (by linarith)
  have x1 : 0 < a * f n1 := by positivity
  have x2 : 0 < a * f n2 := by positivity
  have hq : a * f n2 / (a * f n1) = f n2 / f n1 := mul_div_mul_left _ _ ha.ne'
  rw [← noise_margin ht hδ]
  constructor
  · intro hall
    have hd : 0 < 1 - δ := by linarith
    have := hall ((1 + -δ) * (a * f n1)) ((1 + δ) * (a * f n2)) (within_of x1.le (by rw [abs_neg, abs_of_nonneg hδ0]))
      (within_of x2.le (by rw [abs_of_nonneg hδ0]))
    rw [C02_acceptance tol _ _ n1 n2 ht (by rw [← sub_eq_add_neg]; positivity) (by positivity) h1 h c f hc, ← sub_eq_add_neg,
      ← div_mul_div_comm, hq] at this
    exact le_of_mul_le_mul_right this (by positivity)
  · intro hm u1 u2 w1 w2
    obtain ⟨hu1, lo, hi⟩ := noisy_quotient hδ x1 x2 w1 w2
    have hu2 : 0 ≤ u2 := le_trans (mul_nonneg (by linarith) x2.le) w2.bounds.1
    rw [C02_acceptance tol _ _ n1 n2 ht hu1 hu2 h1 h c f hc]
    refine hi.trans ?_
    rw [hq]
    exact mul_le_mul_of_nonneg_right hm (by positivity)

/-- **C99** (how much noise cannot hide a bad algorithm): an algorithm that grows like `f` is always found worse than the limit `O(g)`, whatever
the noise of up to `δ`, if and only if between the two sizes `f` grows more than `(1 + tol)(1 + δ)/(1 - δ)` times as much as `g`. -/
theorem C99_rejected_iff (tol δ a n1 n2 : ℝ) (ht : 0 < tol) (hδ0 : 0 ≤ δ) (hδ : δ < 1) (ha : 0 < a) (h1 : 3 ≤ n1) (h : n1 ≤ n2)
    (c c' : Complexity) (f g : ℝ → ℝ) (hf : growth c = some f) (hg : growth c' = some g) :
    (∀ u1 u2, WithinError δ (a * f n1) u1 → WithinError δ (a * f n2) u2 →
      c'.asU32 < (analyseComplexity (exactEnv tol) (.fin u1) (.fin u2) (.fin n1) (.fin n2)).asU32) ↔
      (1 + tol) * ((1 + δ) / (1 - δ)) * grows g n1 n2 < grows f n1 n2 := by
  have p1 := growth_pos hf (n := n1) (by linarith)
  have p2 := growth_pos hf (n := n2) (by linarith)
  have x1 : 0 < a * f n1 := by positivity
  have x2 : 0 < a * f n2 := by positivity
  have hd : 0 < 1 - δ := by linarith
  have hd' : 0 < 1 + δ := by linarith
  have hq : a * f n2 / (a * f n1) = grows f n1 n2 := mul_div_mul_left _ _ ha.ne'
  have key : ∀ q, (1 + tol) * grows g n1 n2 < (1 - δ) / (1 + δ) * q ↔ (1 + tol) * ((1 + δ) / (1 - δ)) * grows g n1 n2 < q := by
    intro q
    rw [div_mul_eq_mul_div, lt_div_iff₀ hd', mul_div_assoc', div_mul_eq_mul_div, div_lt_iff₀ hd]
    constructor <;> intro h <;> linarith
  constructor
  · intro hall
    have := hall ((1 + δ) * (a * f n1)) ((1 + -δ) * (a * f n2)) (within_of x1.le (by rw [abs_of_nonneg hδ0]))
      (within_of x2.le (by rw [abs_neg, abs_of_nonneg hδ0]))
    rw [← not_le, C02_acceptance tol _ _ n1 n2 ht (by positivity) (by rw [← sub_eq_add_neg]; positivity) h1 h c' g hg, ← sub_eq_add_neg,
      ← div_mul_div_comm, hq, not_le] at this
    exact (key _).1 this
  · intro hm u1 u2 w1 w2
    obtain ⟨hu1, lo, hi⟩ := noisy_quotient hδ x1 x2 w1 w2
    have hu2 : 0 ≤ u2 := le_trans (mul_nonneg (by linarith) x2.le) w2.bounds.1
    rw [← not_le, C02_acceptance tol _ _ n1 n2 ht hu1 hu2 h1 h c' g hg, not_le]
    rw [hq] at lo
    exact lt_of_lt_of_le ((key _).2 hm) lo

example : (1 / 10 : ℝ) / (2 + 1 / 10) = 1 / 21 ∧ (1 / 4 : ℝ) / (2 + 1 / 4) = 1 / 9 := by norm_num

/-- a doubled set tells `n²` from `O(n)` through 20% of noise at a tolerance of 25% -/
example : ∀ u1 u2, WithinError (1 / 5) (7 * (1000 : ℝ) ^ 2) u1 → WithinError (1 / 5) (7 * (2000 : ℝ) ^ 2) u2 →
    Complexity.oN.asU32 < (analyseComplexity (exactEnv (1 / 4)) (.fin u1) (.fin u2) (.fin 1000) (.fin 2000)).asU32 := by
  refine (C99_rejected_iff (1 / 4) (1 / 5) 7 1000 2000 (by norm_num) (by norm_num) (by norm_num) (by norm_num) (by norm_num) (by norm_num)
    .oN2 .oN _ _ rfl rfl).2 ?_
  norm_num [grows]

/-! ## whole tests, with the shipped arithmetic -/

section tests
variable {log2 : F → F} {powi : F → ℕ → F} {powf : F → F → F} (H : AccurateLibrary log2 powi) {tol : ℝ}
  (ht : tol = 1 / 10 ∨ tol = 1 / 4) (env : RegEnv) (hE : env.f64 = shippedEnv log2 powi powf tol) (cfg : RegCfg)
  (hn : SaneSizes cfg.n1 cfg.n2)

theorem meets_noisy {tol δ x1 x2 u1 u2 n1 n2 : ℝ} {c : Complexity} {f : ℝ → ℝ} (hc : growth c = some f) (ht : 0 < tol) (hδ0 : 0 ≤ δ)
    (hδ : δ + 1 / 2 ^ 40 ≤ tol / (2 + tol)) (hx1 : 0 < x1) (hx2 : 0 < x2) (hq : x2 / x1 = grows f n1 n2) (w1 : WithinError δ x1 u1) (w2 : WithinError δ x2 u2) :
    MeetsLimit tol n1 n2 u1 (u2 * abitMore) c := by
  rw [meets_named hc, ← hq]
  unfold abitMore
  have hk : tol / (2 + tol) < 1 := by rw [div_lt_one (by linarith)]; linarith
  have he : (0:ℝ) < 1 / 2 ^ 40 := by positivity
  generalize (1:ℝ) / 2 ^ 40 = ε at *
  have hδ1 : δ < 1 := by linarith
  obtain ⟨hu1, -, hi⟩ := noisy_quotient hδ1 hx1 hx2 w1 w2
  have hm : (1 + δ) / (1 - δ) * (1 + ε) ≤ 1 + tol := by
    rw [div_mul_eq_mul_div, div_le_iff₀ (by linarith)]
    rw [le_div_iff₀ (by linarith)] at hδ
    nlinarith
  calc u2 * (1 + ε) / u1 = u2 / u1 * (1 + ε) := by ring
    _ ≤ (1 + δ) / (1 - δ) * (x2 / x1) * (1 + ε) := by gcongr
    _ = (1 + δ) / (1 - δ) * (1 + ε) * (x2 / x1) := by ring
    _ ≤ (1 + tol) * (x2 / x1) := by gcongr

theorem comparable_of {m1 m2 : PassResult} (s1 : PlausibleReading m1.space) (s2 : PlausibleReading m2.space) (t1 : PlausibleTime m1.time)
    (t2 : PlausibleTime m2.time) (pt : 0 < seconds m1.time) (ps : (0:ℝ) < bytesUsed m1.space) : Comparable m1 m2 := by
  have hmax : (2:ℕ) ^ 62 ≤ usizeMax := by unfold usizeMax; norm_num
  refine ⟨?_, t1, t2, ?_, s2.before_le, s1.small.le.trans hmax, s2.small.le.trans hmax⟩
  · unfold seconds at pt
    by_contra h0
    have : m1.time = 0 := Nat.eq_zero_of_not_pos h0
    rw [this] at pt
    simp at pt
  · have : 0 < bytesUsed m1.space := by exact_mod_cast ps
    unfold bytesUsed at this
    omega

include H ht hE hn in
/-- **C99** (whole tests): a regular test whose limits are the classes of the algorithm always succeeds, at the first attempt, if noise
stays below `tol / (2 + tol)` (minus one part in 2^40 for the arithmetic) of the ideal time and bytes. -/
theorem C99_test_accepted (t : List RegEv) (hb : Benign env) (hn32 : cfg.n2 < 2 ^ 32) (f g : ℝ → ℝ) (hf : growth cfg.tmax = some f)
    (hg : growth cfg.smax = some g) (δ : ℝ) (hδ0 : 0 ≤ δ) (hδ : δ + 1 / 2 ^ 40 ≤ tol / (2 + tol)) (hN : NoisyAlgorithm env cfg δ f g) :
    (testAlgorithm env cfg t).1 = .ok () ∧
      ∃ (a : Attempt) (ext : List RegEv), (testAlgorithm env cfg t).2 = t ++ ext ∧ regCallsOf ext = a.calls := by
  have htol : 0 < tol := by rcases ht with rfl | rfl <;> norm_num
  have hpoly : ∀ {c : Complexity} {k : ℝ → ℝ}, growth c = some k → LimitCovered powf cfg.n1 cfg.n2 (some c) := by
    intro c k hk c' e
    cases e
    cases c <;> simp [growth] at hk <;> simp [Covered, Complexity.asU32]
  have n1 : (3:ℝ) ≤ cfg.n1 := by exact_mod_cast hn.1
  have n2 : (3:ℝ) ≤ cfg.n2 := by exact_mod_cast hn.1.trans hn.2.1
  obtain ⟨a, b, ha, hb', q1, q2⟩ := hN.noise
  have f1 := growth_pos hf (n := cfg.n1) (by linarith)
  have f2 := growth_pos hf (n := cfg.n2) (by linarith)
  have g1 := growth_pos hg (n := cfg.n1) (by linarith)
  have g2 := growth_pos hg (n := cfg.n2) (by linarith)
  have hδ1 : δ < 1 := by
    have hk : tol / (2 + tol) < 1 := by rw [div_lt_one (by linarith)]; linarith
    have he : (0:ℝ) < 1 / 2 ^ 40 := by positivity
    linarith
  refine C85_regular_accepts H ht env hE cfg hn (hpoly hf) (hpoly hg) t hb hn32 ?_
  intro h1 h2 x1 x2 e1 e2
  obtain ⟨m1, r1, k1, s1, t1⟩ := hb h1 .pass1
  obtain ⟨m2, r2, k2, s2, t2⟩ := hb h2 .pass2
  rw [e1] at k1; cases k1
  rw [e2] at k2; cases k2
  obtain ⟨wt1, ws1⟩ := q1 _ _ e1
  obtain ⟨wt2, ws2⟩ := q2 _ _ e2
  have pt := (noisy_quotient hδ1 (by positivity) (by positivity : 0 < a * f cfg.n2) wt1 wt2).1
  have ps := (noisy_quotient hδ1 (by positivity) (by positivity : 0 < b * g cfg.n2) ws1 ws2).1
  refine ⟨?_, ?_⟩
  · exact comparable_of s1 s2 t1 t2 pt ps
  · exact ⟨fun l e => by cases e; exact meets_noisy hf htol hδ0 hδ (by positivity) (by positivity) (mul_div_mul_left _ _ ha.ne') wt1 wt2,
      fun l e => by cases e; exact meets_noisy hg htol hδ0 hδ (by positivity) (by positivity) (mul_div_mul_left _ _ hb'.ne') ws1 ws2⟩

include H ht hE hn in
/-- **C99** (whole tests): a regular test always fails, however often it retries, if the time of the algorithm grows, between the two
sizes, more than `(1 + tol)(1 + δ)/(1 - δ)` times as much as the limit (and one part in 2^40 for the arithmetic) and noise stays below `δ`. -/
theorem C99_test_rejected (t : List RegEv) (hb : Benign env) (c : Complexity) (f g l : ℝ → ℝ) (hf : growth c = some f)
    (hl : growth cfg.tmax = some l) (hs : LimitCovered powf cfg.n1 cfg.n2 (some cfg.smax)) (hg : 0 < g cfg.n1) (hg2 : 0 < g cfg.n2) (δ : ℝ) (hδ0 : 0 ≤ δ) (hδ : δ < 1)
    (hgrow : (1 + tol) * ((1 + δ) / (1 - δ)) * grows l cfg.n1 cfg.n2 < grows f cfg.n1 cfg.n2 * abitLess) (hN : NoisyAlgorithm env cfg δ f g) :
    ∃ e, (testAlgorithm env cfg t).1 = .error e := by
  have hpoly : LimitCovered powf cfg.n1 cfg.n2 (some cfg.tmax) := by
    intro c' e
    cases e
    generalize cfg.tmax = c at *
    cases c <;> simp [growth] at hl <;> simp [Covered, Complexity.asU32]
  have n1 : (3:ℝ) ≤ cfg.n1 := by exact_mod_cast hn.1
  have n2 : (3:ℝ) ≤ cfg.n2 := by exact_mod_cast hn.1.trans hn.2.1
  obtain ⟨a, b, ha, hb', q1, q2⟩ := hN.noise
  have f1 := growth_pos hf (n := cfg.n1) (by linarith)
  have f2 := growth_pos hf (n := cfg.n2) (by linarith)
  refine C85_regular_rejects H ht env hE cfg hn hpoly hs t ?_
  intro h1 h2 x1 x2 e1 e2
  obtain ⟨m1, r1, k1, s1, t1⟩ := hb h1 .pass1
  obtain ⟨m2, r2, k2, s2, t2⟩ := hb h2 .pass2
  rw [e1] at k1; cases k1
  rw [e2] at k2; cases k2
  obtain ⟨wt1, ws1⟩ := q1 _ _ e1
  obtain ⟨wt2, ws2⟩ := q2 _ _ e2
  have hx2 : 0 < a * f cfg.n2 := by positivity
  have pt := noisy_quotient hδ (by positivity) hx2 wt1 wt2
  have ps := (noisy_quotient hδ (by positivity) (by positivity : 0 < b * g cfg.n2) ws1 ws2).1
  refine ⟨comparable_of s1 s2 t1 t2 pt.1 ps, fun hcon => ?_⟩
  have hm := hcon.time _ rfl
  rw [meets_named hl] at hm
  have hq : a * f cfg.n2 / (a * f cfg.n1) = grows f cfg.n1 cfg.n2 := mul_div_mul_left _ _ ha.ne'
  have lo := pt.2.1
  rw [hq] at lo
  have hd : 0 < 1 - δ := by linarith
  have hd' : 0 < 1 + δ := by linarith
  have hless : 0 < abitLess := by unfold abitLess; norm_num
  have hfin : (1 - δ) / (1 + δ) * (grows f cfg.n1 cfg.n2 * abitLess) ≤ (1 + tol) * grows l cfg.n1 cfg.n2 := by
    calc (1 - δ) / (1 + δ) * (grows f cfg.n1 cfg.n2 * abitLess) = (1 - δ) / (1 + δ) * grows f cfg.n1 cfg.n2 * abitLess := by ring
      _ ≤ seconds m2.time / seconds m1.time * abitLess := by gcongr
      _ = seconds m2.time * abitLess / seconds m1.time := by ring
      _ ≤ _ := hm
  rw [div_mul_eq_mul_div, div_le_iff₀ hd'] at hfin
  rw [mul_div_assoc', div_mul_eq_mul_div, div_lt_iff₀ hd] at hgrow
  linarith

end tests
/-! ## a quadratic algorithm whose second pass is measured 8% too slow -/

def noisyPass (second : Bool) : PassResult := if second then ⟨4320000, ⟨50, 50, 450, 50⟩⟩ else ⟨10 ^ 6, ⟨50, 50, 150, 50⟩⟩

noncomputable def noisyEnv (T : TextEnv) : RegEnv :=
  ⟨.checked, shippedEnv idealLog2 idealPowi (fun x _ => x) (1 / 4), T, fun _ => "", fun _ c => .ok (noisyPass (c = .pass2), 0)⟩

theorem noisy_sizes : SaneSizes 1000 2000 := by unfold SaneSizes; decide

theorem noisy_benign (T : TextEnv) : Benign (noisyEnv T) := by
  intro h c
  refine ⟨_, _, rfl, ?_, ?_⟩
  · cases c <;> exact ⟨by decide, by decide, by decide, by decide⟩
  · cases c <;> (unfold PlausibleTime; decide)

theorem noisy_algorithm (T : TextEnv) (limit : Complexity) (retries : ℕ) :
    NoisyAlgorithm (noisyEnv T) ⟨"noisy", retries, 1000, 2000, limit, .oN2⟩ (8 / 100) (fun n => n ^ 2) (fun n => n ^ 2) := by
  refine ⟨1 / 10 ^ 9, 1 / 10 ^ 4, by norm_num, by norm_num, ?_, ?_⟩
  · intro h x e
    cases e
    constructor <;> simp only [WithinError, seconds, bytesUsed, noisyPass, reduceCtorEq, decide_false, Bool.false_eq_true, if_false] <;> norm_num [abs_le]
  · intro h x e
    cases e
    constructor <;> simp only [WithinError, seconds, bytesUsed, noisyPass, decide_true, if_true] <;> norm_num [abs_le]

example (T : TextEnv) (retries : ℕ) : (testAlgorithm (noisyEnv T) ⟨"noisy", retries, 1000, 2000, .oN2, .oN2⟩ []).1 = .ok () :=
  (C99_test_accepted ideal_library (Or.inr rfl) (noisyEnv T) rfl _ noisy_sizes [] (noisy_benign T) (by norm_num) _ _ rfl rfl (8 / 100)
    (by norm_num) (by norm_num) (noisy_algorithm T .oN2 retries)).1

example (T : TextEnv) (retries : ℕ) : ∃ e, (testAlgorithm (noisyEnv T) ⟨"noisy", retries, 1000, 2000, .oN, .oN2⟩ []).1 = .error e :=
  C99_test_rejected ideal_library (Or.inr rfl) (noisyEnv T) rfl ⟨"noisy", retries, 1000, 2000, .oN, .oN2⟩ noisy_sizes [] (noisy_benign T) .oN2
    (fun n => n ^ 2) (fun n => n ^ 2) (fun n => n) rfl rfl (by intro c h; cases h; simp [Covered, Complexity.asU32]) (by norm_num) (by norm_num) (8 / 100)
    (by norm_num) (by norm_num) (by unfold grows abitLess; norm_num) (noisy_algorithm T .oN retries)

end BigO
