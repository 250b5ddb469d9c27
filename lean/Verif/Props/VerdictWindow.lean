import Verif.Proofs.VerdictWindow
import Verif.Props.Shipped

/-!
# C104: which measurements get which verdict, and which verdicts can be given at all

The windows and the conditions are in `Verif.Spec.VerdictWindow`.
-/
namespace BigO
open F

/-- **C104** (time): the verdict is `c` exactly when the two durations (in seconds) lie in the window of `c`. -/
theorem C104_time (tol : ℝ) (ht : 0 < tol) (n1 n2 : ℕ) (h1 : 3 ≤ n1) (h : n1 ≤ n2) (d1 d2 : Duration) (hd : 0 < d1) (c : Complexity) :
    analyseTime (exactEnv tol) ⟨n1, n2⟩ ⟨d1, d2⟩ = c ↔ VerdictWindow tol n1 n2 (d1 / 10 ^ 9) (d2 / 10 ^ 9) c := by
  unfold analyseTime
  rw [ex_asSecs, ex_asSecs, ex_ofNat, ex_ofNat]
  have hd' : (0:ℝ) < d1 := by exact_mod_cast hd
  exact window_iff ht (by positivity) (by positivity) (by exact_mod_cast h1) (by exact_mod_cast h) c

/-- **C104** (time, read and update operations; the set sizes may come in any order). -/
theorem C104_time_constant_set (tol : ℝ) (ht : 0 < tol) (a b rep : ℕ) (ha : 3 ≤ a) (hb : 3 ≤ b) (d1 d2 : Duration) (hd : 0 < d1)
    (c : Complexity) :
    analyseTimeConstantSet (exactEnv tol) ⟨a, b, rep⟩ ⟨d1, d2⟩ = c ↔
      VerdictWindow tol (min a b : ℕ) (max a b : ℕ) (d1 / 10 ^ 9) (d2 / 10 ^ 9) c := by
  unfold analyseTimeConstantSet
  rw [ex_asSecs, ex_asSecs, ex_ofNat, ex_ofNat]
  have hd' : (0:ℝ) < d1 := by exact_mod_cast hd
  exact window_iff ht (by positivity) (by positivity) (by exact_mod_cast le_min ha hb) (by exact_mod_cast min_le_max) c

/-- **C104** (time, create and delete operations). -/
theorem C104_time_set_resizing (tol : ℝ) (ht : 0 < tol) (ht1 : tol < 1) (n : ℕ) (hn : 2 ≤ n) (d1 d2 : Duration) (hd : 0 < d1)
    (c : Complexity) :
    analyseTimeSetResizing (exactEnv tol) ⟨n⟩ ⟨d1, d2⟩ = c ↔ ResizingWindow tol n (d1 / 10 ^ 9) (d2 / 10 ^ 9) c := by
  unfold analyseTimeSetResizing
  rw [ex_asSecs, ex_asSecs, ex_ofNat]
  have hd' : (0:ℝ) < d1 := by exact_mod_cast hd
  exact resizing_window_iff ht ht1 (by positivity) (by positivity) (by exact_mod_cast hn) c

/-- **C104** (space, all three kinds): the same windows for the bytes the passes used. -/
theorem C104_space (tol : ℝ) (ht : 0 < tol) (ht1 : tol < 1) (p : Profile) (s1 s2 : SpacePass) (h1 : s1.usedBefore < s1.maxUsed)
    (h2 : s2.usedBefore ≤ s2.maxUsed) (c : Complexity) :
    (∀ n1 n2 : ℕ, 3 ≤ n1 → n1 ≤ n2 → (analyseSpace (exactEnv tol) p ⟨n1, n2⟩ ⟨s1, s2⟩ = .ok c ↔
      VerdictWindow tol n1 n2 (bytesUsed s1) (bytesUsed s2) c)) ∧
    (∀ a b rep : ℕ, 3 ≤ a → 3 ≤ b → (analyseSpaceConstantSet (exactEnv tol) p ⟨a, b, rep⟩ ⟨s1, s2⟩ = .ok c ↔
      VerdictWindow tol (min a b : ℕ) (max a b : ℕ) (bytesUsed s1) (bytesUsed s2) c)) ∧
    (∀ n : ℕ, 2 ≤ n → (analyseSpaceSetResizing (exactEnv tol) p ⟨n⟩ ⟨s1, s2⟩ = .ok c ↔
      ResizingWindow tol n (bytesUsed s1) (bytesUsed s2) c)) := by
  have hb : (0:ℝ) < bytesUsed s1 := by
    have : 0 < bytesUsed s1 := by unfold bytesUsed; omega
    exact_mod_cast this
  simp only [analyseSpace, analyseSpaceConstantSet, analyseSpaceSetResizing, space_sub p h1.le, space_sub p h2, bind, Except.bind,
    pure, Except.pure, ex_ofNat, Except.ok.injEq]
  refine ⟨fun n1 n2 g1 g => ?_, fun a b rep ga gb => ?_, fun n g => ?_⟩
  · exact window_iff ht hb (by positivity) (by exact_mod_cast g1) (by exact_mod_cast g) c
  · exact window_iff ht hb (by positivity) (by exact_mod_cast le_min ga gb) (by exact_mod_cast min_le_max) c
  · exact resizing_window_iff ht ht1 hb (by positivity) (by exact_mod_cast g) c

/-- **C104** (which verdicts exist, regular analysis): for two sizes `3 ≤ n1 < n2` and a first usage `u1`, some second usage gets the
verdict `c` if and only if `CanBeReported`: always for the named classes up to `O(n⁴)` and for both ends. -/
theorem C104_reportable (tol u1 n1 n2 : ℝ) (ht : 0 < tol) (ht1 : tol < 1) (hu1 : 0 < u1) (h1 : 3 ≤ n1) (h : n1 < n2) (c : Complexity) :
    (∃ u2, 0 ≤ u2 ∧ analyseComplexity (exactEnv tol) (fin u1) (fin u2) (fin n1) (fin n2) = c) ↔ CanBeReported tol n1 n2 u1 c := by
  rw [← reach_iff ht ht1 hu1 h1 h]
  exact exists_congr fun u2 => and_congr_right fun h2 => window_iff ht hu1 h2 h1 h.le c

/-- **C104** (which verdicts exist, create and delete operations). -/
theorem C104_reportable_resizing (tol u1 n : ℝ) (ht : 0 < tol) (ht1 : tol < 1) (hu1 : 0 < u1) (hn : 2 ≤ n) (c : Complexity) :
    (∃ u2, 0 ≤ u2 ∧ analyseSetResizing (exactEnv tol) (fin u1) (fin u2) (fin n) = c) ↔ CanBeReportedResizing tol n c := by
  rw [← resizing_reach_iff ht ht1 hu1 hn]
  exact exists_congr fun u2 => and_congr_right fun h2 => resizing_window_iff ht ht1 hu1 h2 hn c

/-- **C104** (two equal set sizes tell nothing apart): only three verdicts are left. -/
theorem C104_equal_sizes (tol : ℝ) (ht : 0 < tol) (n : ℕ) (h1 : 3 ≤ n) (d1 d2 : Duration) (hd : 0 < d1) :
    analyseTime (exactEnv tol) ⟨n, n⟩ ⟨d1, d2⟩ = .betterThanO1 ∨ analyseTime (exactEnv tol) ⟨n, n⟩ ⟨d1, d2⟩ = .o1 ∨
      analyseTime (exactEnv tol) ⟨n, n⟩ ⟨d1, d2⟩ = .worseThanExponential := by
  have n3 : (3:ℝ) ≤ n := by exact_mod_cast h1
  have hl := logb_pos2 (n := (n:ℝ)) (by linarith)
  have hn : (0:ℝ) < n := by linarith
  have hd' : (0:ℝ) < d1 := by exact_mod_cast hd
  have q : (n:ℝ) / n = 1 := div_self hn.ne'
  have hu : (0:ℝ) < d1 / 10 ^ 9 := by positivity
  cases e : analyseTime (exactEnv tol) ⟨n, n⟩ ⟨d1, d2⟩ <;> simp only [reduceCtorEq, or_true, true_or, or_self] <;>
    rw [C104_time tol ht n n h1 le_rfl d1 d2 hd] at e <;>
    simp only [VerdictWindow, TooMuchFor, TooLittleFor, Matches, grows, q, div_self hl.ne', div_self (mul_pos hn hl).ne',
      div_self (pow_pos hn _).ne', div_one, mul_one, Real.rpow_one, lt_div_iff₀ hu, div_lt_iff₀ hu, le_div_iff₀ hu, div_le_iff₀ hu] at e <;>
    nlinarith [mul_pos ht hu]

/-- **C104** (doubling the set): no pair of durations is reported as "between O(1) and O(log n)" or as "between O(n) and O(n log n)"
once the first set has `2^((1-tol)/(2·tol))` elements: 23 with the tolerance of 10%, 3 with that of 25%. -/
theorem C104_doubling_gap (tol : ℝ) (ht : 0 < tol) (ht1 : tol < 1) (n : ℕ) (h1 : 3 ≤ n) (hn : (2:ℝ) ^ ((1 - tol) / (2 * tol)) ≤ n)
    (d1 d2 : Duration) (hd : 0 < d1) :
    analyseTime (exactEnv tol) ⟨n, 2 * n⟩ ⟨d1, d2⟩ ≠ .betweenO1AndOLogN ∧ analyseTime (exactEnv tol) ⟨n, 2 * n⟩ ⟨d1, d2⟩ ≠ .betweenONAndONLogN := by
  have n3 : (3:ℝ) ≤ n := by exact_mod_cast h1
  have hl := logb_pos2 (n := (n:ℝ)) (by linarith)
  have hd' : (0:ℝ) < d1 := by exact_mod_cast hd
  have hg : (1 - tol) / (2 * tol) ≤ Real.logb 2 n := by
    rw [Real.le_logb_iff_rpow_le (by norm_num) (by linarith)]; exact hn
  have no : ¬ (1 + tol < (1 - tol) * (Real.logb 2 (2 * n) / Real.logb 2 n)) := by
    rw [Real.logb_mul (by norm_num) (by linarith), Real.logb_self_eq_one (by norm_num), ← mul_div_assoc, lt_div_iff₀ hl]
    rw [div_le_iff₀ (by linarith)] at hg
    linarith
  have key := fun c => (C104_reportable tol (d1 / 10 ^ 9) n (2 * n) ht ht1 (by positivity) n3 (by linarith) c).1
  have e : ∀ c, analyseTime (exactEnv tol) ⟨n, 2 * n⟩ ⟨d1, d2⟩ = c → CanBeReported tol n (2 * n) (d1 / 10 ^ 9) c := by
    intro c hc
    refine key c ⟨d2 / 10 ^ 9, by positivity, ?_⟩
    rw [← hc]
    unfold analyseTime
    rw [ex_asSecs, ex_asSecs, ex_ofNat, ex_ofNat]
    push_cast
    rfl
  exact ⟨fun h => no (e _ h), fun h => no (e _ h)⟩

/-- **C104** (growing sets): "between O(1) and O(log n)" can be reported of a create or delete operation if and only if a pass has fewer
than `3^(1/tol)` elements: 59049 with the tolerance of 10%, 81 with that of 25%. -/
theorem C104_resizing_log_gap (tol u1 n : ℝ) (ht : 0 < tol) (ht1 : tol < 1) (hu1 : 0 < u1) (hn : 2 ≤ n) :
    (∃ u2, 0 ≤ u2 ∧ analyseSetResizing (exactEnv tol) (fin u1) (fin u2) (fin n) = .betweenO1AndOLogN) ↔ n < 3 ^ (1 / tol) := by
  rw [C104_reportable_resizing tol u1 n ht ht1 hu1 hn]
  show 1 + tol < Real.logb 2 (n * 3) / Real.logb 2 n ↔ _
  have hl := logb_pos2 hn
  have n0 : 0 < n := by linarith
  rw [lt_div_iff₀ hl, Real.logb_mul n0.ne' (by norm_num), add_mul, one_mul, add_lt_add_iff_left,
    ← Real.logb_rpow_eq_mul_logb_of_pos n0, Real.logb_lt_logb_iff (by norm_num) (by positivity) (by norm_num)]
  constructor
  · intro h
    have := Real.rpow_lt_rpow (by positivity) h (show 0 < 1 / tol by positivity)
    rwa [← Real.rpow_mul n0.le, mul_one_div_cancel ht.ne', Real.rpow_one] at this
  · intro h
    have := Real.rpow_lt_rpow n0.le h ht
    rwa [← Real.rpow_mul (by norm_num), one_div_mul_cancel ht.ne', Real.rpow_one] at this

/-! ## The shipped arithmetic -/

/-- the test that decided holds -/
theorem pick_holds {ps : List Prop} {k : ℕ} (h : pick ps = k) (hk : k < ps.length) : ps[k] := by
  induction ps generalizing k with
  | nil => simp at hk
  | cons p ps ih =>
    rw [pick_cons] at h
    split at h
    · subst h; assumption
    · subst h; exact ih rfl (by simpa using hk)

theorem log_tier_of {E : FloatEnv} {u1 u2 n1 n2 : F} (h : analyseComplexity E u1 u2 n1 n2 = .betweenO1AndOLogN) :
    below E (E.div u2 u1) (E.div (E.log2 n2) (E.log2 n1)) := by
  exact pick_holds (k := 2) (by rw [← analyse_eq_pick, h]; rfl) (by simp [tests])

theorem nlog_tier_of {E : FloatEnv} {u1 u2 n1 n2 : F} (h : analyseComplexity E u1 u2 n1 n2 = .betweenONAndONLogN) :
    below E (E.div u2 u1) (E.div (E.mul n2 (E.log2 n2)) (E.mul n1 (E.log2 n1))) := by
  exact pick_holds (k := 6) (by rw [← analyse_eq_pick, h]; rfl) (by simp [tests])

/-- **C104** (shipped binary64 arithmetic): if the logarithms of the two sizes are so close that their quotient times `1 - tol` stays
below `1 + tol`, up to one part in 2^40, then no pair of durations is ever reported as "between O(1) and O(log n)" or as "between O(n)
and O(n log n)". -/
theorem C104_shipped_log_gap (log2 : F → F) (powi : F → ℕ → F) (powf : F → F → F) (H : AccurateLibrary log2 powi) (tol : ℝ)
    (ht : tol = 1 / 10 ∨ tol = 1 / 4) (n1 n2 : ℕ) (g1 : 3 ≤ n1) (g2 : n1 ≤ n2) (g3 : n2 ≤ 2 ^ 32)
    (gap : (1 - tol) * (Real.logb 2 n2 / Real.logb 2 n1) * (1 + 1 / 2 ^ 40) ≤ (1 + tol) * (1 - 1 / 2 ^ 40))
    (d1 d2 : Duration) (hd : 0 < d1) (hd1 : d1 / 10 ^ 9 < 2 ^ 53) (hd2 : d2 / 10 ^ 9 < 2 ^ 53) :
    let v := analyseTime (shippedEnv log2 powi powf tol) ⟨n1, n2⟩ ⟨d1, d2⟩
    v ≠ .betweenO1AndOLogN ∧ v ≠ .betweenONAndONLogN := by
  intro v
  have a1 := ((C83_time log2 powi powf H tol ht d1 d2 hd hd1 hd2 .o1).1 n1 n2 g1 g2 g3 (Or.inl (by decide))).1
  have an := ((C83_time log2 powi powf H tol ht d1 d2 hd hd1 hd2 .oN).1 n1 n2 g1 g2 g3 (Or.inl (by decide))).1
  obtain ⟨t, A⟩ := shipped_acc log2 powi powf H tol ht
  obtain ⟨v1, e1, u1⟩ := A.secs_near hd1
  obtain ⟨v2, e2, u2⟩ := A.secs_near hd2
  have ev : v = analyseComplexity (shippedEnv log2 powi powf tol) (fin v1) (fin v2) (fin n1) (fin n2) := by
    show analyseTime (shippedEnv log2 powi powf tol) ⟨n1, n2⟩ ⟨d1, d2⟩ = _
    unfold analyseTime
    rw [e1, e2, A.ofNat_exact (n := n1) (by omega), A.ofNat_exact (n := n2) (by omega)]
  have hd' : (0:ℝ) < d1 := by exact_mod_cast hd
  have p1 : (0:ℝ) < n1 := by exact_mod_cast (show 0 < n1 by omega)
  have p2 : (0:ℝ) < n2 := by exact_mod_cast (show 0 < n2 by omega)
  have l1 := logb_pos2 (n := (n1:ℝ)) (by exact_mod_cast (show 2 ≤ n1 by omega))
  have l2 := logb_pos2 (n := (n2:ℝ)) (by exact_mod_cast (show 2 ≤ n2 by omega))
  have u1' : Near kappa 2 v1 ((d1:ℝ) / 10 ^ 9) ∧ Mag 64 ((d1:ℝ) / 10 ^ 9) := by
    rcases u1 with h | ⟨-, h⟩
    · exact h
    · have : (0:ℝ) < (d1:ℝ) / 10 ^ 9 := by positivity
      linarith
  rcases u2 with ⟨w2, m2⟩ | ⟨-, z⟩
  · have hr : (0:ℝ) < (d2:ℝ) / 10 ^ 9 / ((d1:ℝ) / 10 ^ 9) := div_pos w2.2.1 (by positivity)
    have ht0 : (0:ℝ) < 1 + tol := by rcases ht with rfl | rfl <;> norm_num
    simp only [MeetsLimit, grows, mul_div_right_comm] at a1 an
    have hL : 0 < Real.logb 2 n2 / Real.logb 2 n1 := by positivity
    constructor
    · intro h
      obtain ⟨q, hq, hn⟩ := A.tier_log u1'.1 w2 u1'.2 m2 (n1 := n1) (n2 := n2) (by omega) (by omega) (by omega) (by omega)
      have b := A.of_below kappa_up kappa_down hq hn (log_tier_of (ev ▸ h))
      have no : ¬ v.asU32 ≤ Complexity.o1.asU32 := by rw [h]; decide
      have a := not_le.1 (mt a1 no)
      rw [div_mul_eq_mul_div, div_lt_iff₀ hL] at b
      generalize (d2:ℝ) / 10 ^ 9 / ((d1:ℝ) / 10 ^ 9) = r at *
      nlinarith
    · intro h
      obtain ⟨q, hq, hn⟩ := A.tier_nlog u1'.1 w2 u1'.2 m2 (n1 := n1) (n2 := n2) (by omega) (by omega) (by omega) (by omega)
      have b := A.of_below kappa_up kappa_down hq hn (nlog_tier_of (ev ▸ h))
      have no : ¬ v.asU32 ≤ Complexity.oN.asU32 := by rw [h]; decide
      have a := not_le.1 (mt an no)
      rw [show (n2:ℝ) * Real.logb 2 n2 / (n1 * Real.logb 2 n1) = n2 / n1 * (Real.logb 2 n2 / Real.logb 2 n1) by field_simp,
        div_mul_eq_mul_div, div_lt_iff₀ (by positivity)] at b
      have hq0 : (0:ℝ) < n2 / n1 := by positivity
      generalize (d2:ℝ) / 10 ^ 9 / ((d1:ℝ) / 10 ^ 9) = r at *
      generalize (n2:ℝ) / n1 = Q at *
      generalize Real.logb 2 n2 / Real.logb 2 n1 = L at *
      have c1 : (1 + tol) * Q * (1 - 1 / 2 ^ 40) < r * (1 + 1 / 2 ^ 40) * (1 - 1 / 2 ^ 40) := by
        have : (0:ℝ) < 1 - 1 / 2 ^ 40 := by norm_num
        nlinarith
      have c2 : r * (1 - 1 / 2 ^ 40) * (1 + 1 / 2 ^ 40) < (1 - tol) * (Q * L) * (1 + 1 / 2 ^ 40) := by
        have : (0:ℝ) < 1 + 1 / 2 ^ 40 := by norm_num
        nlinarith
      have c3 : (1 - tol) * L * (1 + 1 / 2 ^ 40) * Q ≤ (1 + tol) * (1 - 1 / 2 ^ 40) * Q := mul_le_mul_of_nonneg_right gap hq0.le
      nlinarith
  · have le1 : v.asU32 ≤ Complexity.o1.asU32 := by
      refine a1 ?_
      show _ / _ ≤ _
      have e : (d2:ℝ) / 10 ^ 9 * (1 + 1 / 2 ^ 40) / ((d1:ℝ) / 10 ^ 9) = 0 := by rw [z, zero_mul, zero_div]
      rw [e]
      rcases ht with rfl | rfl <;> norm_num
    constructor <;> intro h <;> rw [h] at le1 <;> exact absurd le1 (by decide)

/-- **C104** (shipped arithmetic, doubling the set): with the tolerance of 10% from 23 elements on, and with that of 25% always, no pair of
durations is ever reported as "between O(1) and O(log n)" or as "between O(n) and O(n log n)". -/
theorem C104_shipped_doubling_gap (log2 : F → F) (powi : F → ℕ → F) (powf : F → F → F) (H : AccurateLibrary log2 powi) (tol : ℝ) (n : ℕ)
    (ht : tol = 1 / 10 ∧ 23 ≤ n ∨ tol = 1 / 4 ∧ 3 ≤ n) (g3 : 2 * n ≤ 2 ^ 32)
    (d1 d2 : Duration) (hd : 0 < d1) (hd1 : d1 / 10 ^ 9 < 2 ^ 53) (hd2 : d2 / 10 ^ 9 < 2 ^ 53) :
    let v := analyseTime (shippedEnv log2 powi powf tol) ⟨n, 2 * n⟩ ⟨d1, d2⟩
    v ≠ .betweenO1AndOLogN ∧ v ≠ .betweenONAndONLogN := by
  have n3 : 3 ≤ n := by omega
  have n3' : (3:ℝ) ≤ n := by exact_mod_cast n3
  have hl := logb_pos2 (n := (n:ℝ)) (by linarith)
  refine C104_shipped_log_gap log2 powi powf H tol (by tauto) n (2 * n) n3 (by omega) g3 ?_ d1 d2 hd hd1 hd2
  push_cast
  rw [Real.logb_mul (by norm_num) (by linarith), Real.logb_self_eq_one (by norm_num), add_div, div_self hl.ne']
  have lower : ∀ {a b k : ℕ}, (2:ℝ) ^ a ≤ (k:ℝ) ^ b → k ≤ n → 0 < b → 0 < k → (a:ℝ) / b ≤ Real.logb 2 n := by
    intro a b k h hk hb h0
    have h0' : (0:ℝ) < k := by exact_mod_cast h0
    have hb' : (0:ℝ) < b := by exact_mod_cast hb
    have : (a:ℝ) ≤ b * Real.logb 2 k := by
      rw [← Real.logb_pow, Real.le_logb_iff_rpow_le (by norm_num) (by positivity), Real.rpow_natCast]
      exact h
    have hm : Real.logb 2 k ≤ Real.logb 2 n := Real.logb_le_logb_of_le (by norm_num) h0' (by exact_mod_cast hk)
    rw [div_le_iff₀ hb']
    nlinarith
  rcases ht with ⟨rfl, h⟩ | ⟨rfl, h⟩
  · have := lower (a := 113) (b := 25) (k := 23) (by norm_num) h (by norm_num) (by norm_num)
    have inv : 1 / Real.logb 2 n ≤ 25 / 113 := by
      rw [div_le_div_iff₀ hl (by norm_num)]
      push_cast at this
      linarith
    norm_num at inv ⊢
    nlinarith
  · have := lower (a := 158) (b := 100) (k := 3) (by norm_num) h (by norm_num) (by norm_num)
    have inv : 1 / Real.logb 2 n ≤ 100 / 158 := by
      rw [div_le_div_iff₀ hl (by norm_num)]
      push_cast at this
      linarith
    norm_num at inv ⊢
    nlinarith

/-! ## Concrete cases -/

/-- sizes 1000 and 2000, 1 second, then 4 seconds: quadratic -/
example : analyseTime (exactEnv (1 / 10)) ⟨1000, 2000⟩ ⟨10 ^ 9, 4 * 10 ^ 9⟩ = .oN2 := by
  rw [C104_time (1 / 10) (by norm_num) 1000 2000 (by norm_num) (by norm_num) _ _ (by norm_num)]
  have hl := log_ratio_le (n1 := 1000) (n2 := 2000) (by norm_num) (by norm_num)
  have hlt : Real.logb 2 2000 / Real.logb 2 1000 < 3 / 2 := by
    rw [div_lt_iff₀ (logb_pos2 (by norm_num)), show (3:ℝ) / 2 * Real.logb 2 1000 = Real.logb 2 1000 + Real.logb 2 1000 / 2 by ring,
      show (2000:ℝ) = 1000 * 2 by norm_num, Real.logb_mul (by norm_num) (by norm_num), Real.logb_self_eq_one (by norm_num)]
    have : 9 ≤ Real.logb 2 1000 := by
      rw [Real.le_logb_iff_rpow_le (by norm_num) (by norm_num)]
      rw [show (9:ℝ) = ((9:ℕ):ℝ) by norm_num, Real.rpow_natCast]; norm_num
    linarith
  have l1 := logb_pos2 (n := (1000:ℝ)) (by norm_num)
  have e : ((2000:ℕ):ℝ) * Real.logb 2 (2000:ℕ) / (((1000:ℕ):ℝ) * Real.logb 2 (1000:ℕ)) = 2 * (Real.logb 2 2000 / Real.logb 2 1000) := by
    push_cast; field_simp; ring
  refine ⟨?_, ?_, ?_⟩
  · show (1 + 1 / 10) * (((2000:ℕ):ℝ) * Real.logb 2 (2000:ℕ) / (((1000:ℕ):ℝ) * Real.logb 2 (1000:ℕ))) < _
    rw [e]; push_cast; norm_num; linarith
  · unfold grows; push_cast; norm_num
  · unfold grows; push_cast; norm_num

/-- with sizes 1000 and 2000 and a tolerance of 10%, nothing is ever "between O(n) and O(n log n)" -/
example (d2 : Duration) : analyseTime (exactEnv (1 / 10)) ⟨1000, 2000⟩ ⟨10 ^ 9, d2⟩ ≠ .betweenONAndONLogN := by
  refine (C104_doubling_gap (1 / 10) (by norm_num) (by norm_num) 1000 (by norm_num) ?_ (10 ^ 9) d2 (by norm_num)).2
  have : (2:ℝ) ^ ((1 - 1 / 10 : ℝ) / (2 * (1 / 10))) ≤ 2 ^ (9:ℝ) := Real.rpow_le_rpow_of_exponent_le (by norm_num) (by norm_num)
  rw [show (9:ℝ) = ((9:ℕ):ℝ) by norm_num, Real.rpow_natCast] at this
  refine this.trans ?_
  push_cast; norm_num

/-- but it can be with sizes 10 and 1000 -/
example : ∃ u2, 0 ≤ u2 ∧ analyseComplexity (exactEnv (1 / 10)) (fin 1) (fin u2) (fin 10) (fin 1000) = .betweenONAndONLogN := by
  rw [C104_reportable (1 / 10) 1 10 1000 (by norm_num) (by norm_num) (by norm_num) (by norm_num) (by norm_num)]
  show (1:ℝ) + 1 / 10 < (1 - 1 / 10) * (Real.logb 2 1000 / Real.logb 2 10)
  rw [show (1000:ℝ) = 10 ^ (3:ℕ) by norm_num, Real.logb_pow, mul_div_assoc, div_self (logb_pos2 (by norm_num)).ne']
  norm_num

/-- the same in the shipped arithmetic, for an ideal library -/
example (d2 : Duration) (hd2 : d2 / 10 ^ 9 < 2 ^ 53) :
    analyseTime (shippedEnv idealLog2 idealPowi idealPowf (1 / 10)) ⟨1000, 2000⟩ ⟨10 ^ 9, d2⟩ ≠ .betweenONAndONLogN :=
  (C104_shipped_doubling_gap idealLog2 idealPowi idealPowf ideal_library (1 / 10) 1000 (Or.inl ⟨rfl, by norm_num⟩) (by norm_num) (10 ^ 9) d2
    (by norm_num) (by norm_num) hd2).2

end BigO
