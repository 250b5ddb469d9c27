import Verif.Props.Shipped
import Verif.Model.Alloc

/-!
# The project's own unit tests, replayed on the model

Not properties: these are the literal expectations of the project's test modules, checked on the model by proof (any maths library
accurate to 2^-48, binary64 rounding), so that a transcription error of the analysis code would show up here.
-/
namespace BigO
open F

theorem verdict_eq {v c q : Complexity} (h : c.asU32 = q.asU32 + 1) (h1 : v.asU32 ≤ c.asU32) (h2 : ¬ v.asU32 ≤ q.asU32) : v = c := by
  have : v.asU32 = c.asU32 := by omega
  revert this h1 h2 h
  cases v <;> cases c <;> simp [Complexity.asU32]

theorem verdict_eq_of {meets : ℝ → Complexity → Prop} {u2 : ℝ} {v c q : Complexity} (h : c.asU32 = q.asU32 + 1)
    (hc : AcceptsUpTo meets u2 v c) (hq : AcceptsUpTo meets u2 v q)
    (m : meets (u2 * (1 + 1 / 2 ^ 40)) c) (nm : ¬ meets (u2 * (1 - 1 / 2 ^ 40)) q) : v = c :=
  verdict_eq h (hc.1 m) (fun hle => nm (hq.2 hle))

theorem verdict_first {meets : ℝ → Complexity → Prop} {u2 : ℝ} {v : Complexity} (hc : AcceptsUpTo meets u2 v .betterThanO1)
    (m : meets (u2 * (1 + 1 / 2 ^ 40)) .betterThanO1) : v = .betterThanO1 := by
  have := hc.1 m
  revert this
  cases v <;> simp [Complexity.asU32]

theorem verdict_ok {meets : ℝ → Complexity → Prop} {u2 : ℝ} {r : Rs Complexity} {c q : Complexity} (h : c.asU32 = q.asU32 + 1)
    (hc : ∃ v, r = .ok v ∧ AcceptsUpTo meets u2 v c) (hq : ∃ v, r = .ok v ∧ AcceptsUpTo meets u2 v q)
    (m : meets (u2 * (1 + 1 / 2 ^ 40)) c) (nm : ¬ meets (u2 * (1 - 1 / 2 ^ 40)) q) : r = .ok c := by
  obtain ⟨v, e, a⟩ := hc
  obtain ⟨v', e', a'⟩ := hq
  rw [e] at e'; cases e'
  exact e.trans (congrArg Except.ok (verdict_eq_of h a a' m nm))

theorem nat_pow_lt {a m b n : ℕ} (h : a ^ m < b ^ n) : (a:ℝ) ^ m < (b:ℝ) ^ n := by
  rw [← Nat.cast_pow, ← Nat.cast_pow]; exact Nat.cast_lt.2 h

/-- log2(1000) lies between 9.965 and 9.966 -/
theorem log1000 : (9.965 : ℝ) < Real.logb 2 1000 ∧ Real.logb 2 1000 < 9.966 := by
  have e1 : (2:ℝ) ^ 1993 < (1000:ℝ) ^ 200 := by
    have := nat_pow_lt (show 2 ^ 1993 < 1000 ^ 200 by decide +kernel); rwa [Nat.cast_ofNat, Nat.cast_ofNat] at this
  have e2 : (1000:ℝ) ^ 500 < (2:ℝ) ^ 4983 := by
    have := nat_pow_lt (show 1000 ^ 500 < 2 ^ 4983 by decide +kernel); rwa [Nat.cast_ofNat, Nat.cast_ofNat] at this
  constructor
  · rw [Real.lt_logb_iff_rpow_lt (by norm_num) (by norm_num)]
    have h : ((2:ℝ) ^ (9.965:ℝ)) ^ (200:ℕ) < (1000:ℝ) ^ (200:ℕ) := by
      rw [← Real.rpow_natCast, ← Real.rpow_mul (by norm_num)]
      rw [show (9.965:ℝ) * ((200:ℕ):ℝ) = ((1993:ℕ):ℝ) by norm_num, Real.rpow_natCast]
      exact e1
    exact lt_of_pow_lt_pow_left₀ _ (by norm_num) h
  · rw [Real.logb_lt_iff_lt_rpow (by norm_num) (by norm_num)]
    have h : (1000:ℝ) ^ (500:ℕ) < ((2:ℝ) ^ (9.966:ℝ)) ^ (500:ℕ) := by
      rw [← Real.rpow_natCast ((2:ℝ) ^ (9.966:ℝ)), ← Real.rpow_mul (by norm_num)]
      rw [show (9.966:ℝ) * ((500:ℕ):ℝ) = ((4983:ℕ):ℝ) by norm_num, Real.rpow_natCast]
      exact e2
    exact lt_of_pow_lt_pow_left₀ _ (by positivity) h

theorem log2000 : Real.logb 2 2000 = Real.logb 2 1000 + 1 := by
  rw [show (2000:ℝ) = 1000 * 2 by norm_num, Real.logb_mul (by norm_num) (by norm_num), Real.logb_self_eq_one (by norm_num)]

theorem growth_log : (1.1003 : ℝ) < Real.logb 2 2000 / Real.logb 2 1000 ∧ Real.logb 2 2000 / Real.logb 2 1000 < 1.1004 := by
  obtain ⟨h1, h2⟩ := log1000
  have hp : 0 < Real.logb 2 1000 := by linarith
  rw [log2000, lt_div_iff₀ hp, div_lt_iff₀ hp]
  constructor <;> nlinarith

/-- log2(3) lies between 1.58 and 1.6 -/
theorem log3 : (1.58 : ℝ) < Real.logb 2 3 ∧ Real.logb 2 3 < 1.6 := by
  constructor
  · rw [Real.lt_logb_iff_rpow_lt (by norm_num) (by norm_num)]
    have h : ((2:ℝ) ^ (1.58:ℝ)) ^ (50:ℕ) < (3:ℝ) ^ (50:ℕ) := by
      rw [← Real.rpow_natCast, ← Real.rpow_mul (by norm_num)]
      rw [show (1.58:ℝ) * ((50:ℕ):ℝ) = ((79:ℕ):ℝ) by norm_num, Real.rpow_natCast]
      norm_num
    exact lt_of_pow_lt_pow_left₀ _ (by norm_num) h
  · rw [Real.logb_lt_iff_lt_rpow (by norm_num) (by norm_num)]
    have h : (3:ℝ) ^ (5:ℕ) < ((2:ℝ) ^ (1.6:ℝ)) ^ (5:ℕ) := by
      rw [← Real.rpow_natCast ((2:ℝ) ^ (1.6:ℝ)), ← Real.rpow_mul (by norm_num)]
      rw [show (1.6:ℝ) * ((5:ℕ):ℝ) = ((8:ℕ):ℝ) by norm_num, Real.rpow_natCast]
      norm_num
    exact lt_of_pow_lt_pow_left₀ _ (by positivity) h

theorem growth_log3 : (1.15 : ℝ) < Real.logb 2 3000 / Real.logb 2 1000 ∧ Real.logb 2 3000 / Real.logb 2 1000 < 1.17 := by
  obtain ⟨h1, h2⟩ := log1000
  obtain ⟨h3, h4⟩ := log3
  have hp : 0 < Real.logb 2 1000 := by linarith
  rw [show (3000:ℝ) = 1000 * 3 by norm_num, Real.logb_mul (by norm_num) (by norm_num), lt_div_iff₀ hp, div_lt_iff₀ hp]
  constructor <;> nlinarith

theorem growth_log2600 : (1 : ℝ) < Real.logb 2 2600 / Real.logb 2 1000 ∧ Real.logb 2 2600 / Real.logb 2 1000 < 1.17 := by
  obtain ⟨h1, h2⟩ := log1000
  have hp : 0 < Real.logb 2 1000 := by linarith
  have h3 : Real.logb 2 1000 < Real.logb 2 2600 := Real.logb_lt_logb (by norm_num) (by norm_num) (by norm_num)
  have h4 : Real.logb 2 2600 < Real.logb 2 3000 := Real.logb_lt_logb (by norm_num) (by norm_num) (by norm_num)
  refine ⟨(one_lt_div hp).2 h3, lt_trans ?_ growth_log3.2⟩
  exact div_lt_div_of_pos_right h4 hp

section
variable (log2 : F → F) (powi : F → ℕ → F) (powf : F → F → F) (H : AccurateLibrary log2 powi)
include H

/-- `time_analysis.rs` 89-158 -/
example :
    let run (t1 t2 : ℕ) := analyseTime (shippedEnv log2 powi powf (1/10)) ⟨1000, 2000⟩ ⟨t1 * 1000, t2 * 1000⟩
    run 100 89 = .betterThanO1 ∧ run 100 100 = .o1 ∧ run 100 111 = .oLogN ∧ run 100 150 = .betweenOLogNAndON ∧ run 100 200 = .oN ∧
    run 1000 2220 = .oNLogN ∧ run 1000 3000 = .betweenONLogNAndON2 ∧ run 1000 4000 = .oN2 ∧ run 1000 8000 = .oN3 ∧
    run 1000 16000 = .oN4 := by
  intro run
  have A := fun (t1 t2 : ℕ) h1 h1' h2 (c : Complexity) hc =>
    (C83_time log2 powi powf H (1/10) (Or.inl rfl) (t1 * 1000) (t2 * 1000) h1 h1' h2 c).1 1000 2000 (by norm_num) (by norm_num)
    (by norm_num) (Or.inl hc)
  obtain ⟨g1, g2⟩ := growth_log
  have gn : grows (fun n => n * Real.logb 2 n) 1000 2000 = 2 * (Real.logb 2 2000 / Real.logb 2 1000) := by
    unfold grows; ring
  have row := fun (t1 t2 : ℕ) h1 h1' h2 (c q : Complexity) hcq hc hq m nm => verdict_eq_of (c := c) (q := q) hcq
    (A t1 t2 h1 h1' h2 c hc) (A t1 t2 h1 h1' h2 q hq) m nm
  refine ⟨verdict_first (A 100 89 (by norm_num) (by norm_num) (by norm_num) _ (by decide)) ?_, 
    row 100 100 (by norm_num) (by norm_num) (by norm_num) .o1 .betterThanO1 rfl (by decide) (by decide) ?_ ?_, 
    row 100 111 (by norm_num) (by norm_num) (by norm_num) .oLogN .betweenO1AndOLogN rfl (by decide) (by decide) ?_ ?_, 
    row 100 150 (by norm_num) (by norm_num) (by norm_num) .betweenOLogNAndON .oLogN rfl (by decide) (by decide) ?_ ?_, 
    row 100 200 (by norm_num) (by norm_num) (by norm_num) .oN .betweenOLogNAndON rfl (by decide) (by decide) ?_ ?_, 
    row 1000 2220 (by norm_num) (by norm_num) (by norm_num) .oNLogN .betweenONAndONLogN rfl (by decide) (by decide) ?_ ?_, 
    row 1000 3000 (by norm_num) (by norm_num) (by norm_num) .betweenONLogNAndON2 .oNLogN rfl (by decide) (by decide) ?_ ?_, 
    row 1000 4000 (by norm_num) (by norm_num) (by norm_num) .oN2 .betweenONLogNAndON2 rfl (by decide) (by decide) ?_ ?_, 
    row 1000 8000 (by norm_num) (by norm_num) (by norm_num) .oN3 .betweenON2AndON3 rfl (by decide) (by decide) ?_ ?_, 
    row 1000 16000 (by norm_num) (by norm_num) (by norm_num) .oN4 .betweenON3AndON4 rfl (by decide) (by decide) ?_ ?_⟩
  all_goals
    norm_num [MeetsLimit, gn]
    try norm_num [grows]
    try linarith

/-- `time_analysis.rs` 160-190: the exponential rows (`Duration::from_secs_f64(1.0e7 * 0.901)` = 9 010 000 s, ...) -/
example (HP : AccuratePowf powf) :
    let run (t1 t2 : ℕ) := analyseTime (shippedEnv log2 powi powf (1/10)) ⟨10, 70⟩ ⟨t1 * 10 ^ 9, t2 * 10 ^ 9⟩
    run 10 10000000 = .okN ∧ run 10 9010000 = .okN ∧ run 10 10990000 = .okN ∧ run 10 11010000 = .worseThanExponential := by
  intro run
  have A := fun (t1 t2 : ℕ) h1 h1' h2 (c : Complexity) =>
    (C83_time log2 powi powf H (1/10) (Or.inl rfl) (t1 * 10 ^ 9) (t2 * 10 ^ 9) h1 h1' h2 c).1 10 70 (by norm_num) (by norm_num)
    (by norm_num) (Or.inr (Or.inr ⟨HP, by norm_num⟩))
  have row := fun (t1 t2 : ℕ) h1 h1' h2 (c q : Complexity) hcq m nm => verdict_eq_of (c := c) (q := q) hcq
    (A t1 t2 h1 h1' h2 c) (A t1 t2 h1 h1' h2 q) m nm
  refine ⟨row 10 10000000 (by norm_num) (by norm_num) (by norm_num) .okN .betweenON4AndOkN rfl ?_ ?_,
    row 10 9010000 (by norm_num) (by norm_num) (by norm_num) .okN .betweenON4AndOkN rfl ?_ ?_,
    row 10 10990000 (by norm_num) (by norm_num) (by norm_num) .okN .betweenON4AndOkN rfl ?_ ?_,
    row 10 11010000 (by norm_num) (by norm_num) (by norm_num) .worseThanExponential .okN rfl ?_ ?_⟩
  all_goals
    norm_num [MeetsLimit, grows]

/-- `time_analysis.rs` 193-241: constant set -/
example :
    let run (t1 t2 : ℕ) := analyseTimeConstantSet (shippedEnv log2 powi powf (1/10)) ⟨1000, 2000, 1000⟩ ⟨t1 * 1000, t2 * 1000⟩
    run 100 89 = .betterThanO1 ∧ run 100 100 = .o1 ∧ run 100 111 = .oLogN ∧ run 100 150 = .betweenOLogNAndON ∧ run 100 200 = .oN ∧
    run 100 226 = .oNLogN := by
  intro run
  have A := fun (t1 t2 : ℕ) h1 h1' h2 (c : Complexity) hc =>
    (C83_time log2 powi powf H (1/10) (Or.inl rfl) (t1 * 1000) (t2 * 1000) h1 h1' h2 c).2.1 1000 2000 1000 (by norm_num) (by norm_num)
    (by norm_num) (by norm_num) (Or.inl hc)
  obtain ⟨g1, g2⟩ := growth_log
  have gn : grows (fun n => n * Real.logb 2 n) 1000 2000 = 2 * (Real.logb 2 2000 / Real.logb 2 1000) := by
    unfold grows; ring
  have row := fun (t1 t2 : ℕ) h1 h1' h2 (c q : Complexity) hcq hc hq m nm => verdict_eq_of (c := c) (q := q) hcq
    (A t1 t2 h1 h1' h2 c hc) (A t1 t2 h1 h1' h2 q hq) m nm
  refine ⟨verdict_first (A 100 89 (by norm_num) (by norm_num) (by norm_num) _ (by decide)) ?_,
    row 100 100 (by norm_num) (by norm_num) (by norm_num) .o1 .betterThanO1 rfl (by decide) (by decide) ?_ ?_,
    row 100 111 (by norm_num) (by norm_num) (by norm_num) .oLogN .betweenO1AndOLogN rfl (by decide) (by decide) ?_ ?_,
    row 100 150 (by norm_num) (by norm_num) (by norm_num) .betweenOLogNAndON .oLogN rfl (by decide) (by decide) ?_ ?_,
    row 100 200 (by norm_num) (by norm_num) (by norm_num) .oN .betweenOLogNAndON rfl (by decide) (by decide) ?_ ?_,
    row 100 226 (by norm_num) (by norm_num) (by norm_num) .oNLogN .betweenONAndONLogN rfl (by decide) (by decide) ?_ ?_⟩
  all_goals
    norm_num [MeetsLimit, gn]
    try norm_num [grows]
    try linarith

/-- `time_analysis.rs` 244-297: set resizing -/
example :
    let run (t1 t2 : ℕ) := analyseTimeSetResizing (shippedEnv log2 powi powf (1/10)) ⟨1000⟩ ⟨t1 * 1000, t2 * 1000⟩
    run 100 90 = .betterThanO1 ∧ run 100 100 = .o1 ∧ run 100 122 = .oLogN ∧ run 100 200 = .betweenOLogNAndON ∧ run 100 300 = .oN ∧
    run 100 333 = .betweenONAndONLogN := by
  intro run
  have A := fun (t1 t2 : ℕ) h1 h1' h2 (c : Complexity) =>
    (C83_time log2 powi powf H (1/10) (Or.inl rfl) (t1 * 1000) (t2 * 1000) h1 h1' h2 c).2.2 1000 (by norm_num) (by norm_num)
  obtain ⟨g1, g2⟩ := growth_log3
  have row := fun (t1 t2 : ℕ) h1 h1' h2 (c q : Complexity) hcq m nm => verdict_eq_of (c := c) (q := q) hcq
    (A t1 t2 h1 h1' h2 c) (A t1 t2 h1 h1' h2 q) m nm
  refine ⟨verdict_first (A 100 90 (by norm_num) (by norm_num) (by norm_num) _) ?_,
    row 100 100 (by norm_num) (by norm_num) (by norm_num) .o1 .betterThanO1 rfl ?_ ?_,
    row 100 122 (by norm_num) (by norm_num) (by norm_num) .oLogN .betweenO1AndOLogN rfl ?_ ?_,
    row 100 200 (by norm_num) (by norm_num) (by norm_num) .betweenOLogNAndON .oLogN rfl ?_ ?_,
    row 100 300 (by norm_num) (by norm_num) (by norm_num) .oN .betweenOLogNAndON rfl ?_ ?_,
    row 100 333 (by norm_num) (by norm_num) (by norm_num) .betweenONAndONLogN .oN rfl ?_ ?_⟩
  all_goals
    norm_num [MeetsResizingLimit]
    try linarith

/-- `space_analysis.rs` 86-188: constant set -/
example (p : Profile) :
    let run (n2 m1 m2 : ℕ) := analyseSpaceConstantSet (shippedEnv log2 powi powf (1/10)) p ⟨1000, n2, 1000⟩ ⟨⟨0, 0, m1, 0⟩, ⟨0, 0, m2, 0⟩⟩
    run 2000 1024 0 = .ok .betterThanO1 ∧ run 2000 1000 1000 = .ok .o1 ∧ run 2000 6 7 = .ok .oLogN ∧
    run 2600 166 285 = .ok .betweenOLogNAndON ∧ run 2000 1000 2000 = .ok .oN ∧ run 2000 1000 2400 = .ok .oNLogN := by
  intro run
  have A := fun (n2 m1 m2 : ℕ) h1 b1 b2 h3 h4 (c : Complexity) hc =>
    (C83_space log2 powi powf H (1/10) (Or.inl rfl) p ⟨0, 0, m1, 0⟩ ⟨0, 0, m2, 0⟩ h1 (Nat.zero_le _) b1 b2 c).2.1 1000 n2 1000
    (by norm_num) h3 (by norm_num) h4 (Or.inl hc)
  obtain ⟨g1, g2⟩ := growth_log
  obtain ⟨g3, g4⟩ := growth_log2600
  have gn : grows (fun n => n * Real.logb 2 n) 1000 2000 = 2 * (Real.logb 2 2000 / Real.logb 2 1000) := by
    unfold grows; ring
  have row := fun (n2 m1 m2 : ℕ) h1 b1 b2 h3 h4 (c q : Complexity) hcq hc hq m nm => verdict_ok (c := c) (q := q) hcq
    (A n2 m1 m2 h1 b1 b2 h3 h4 c hc) (A n2 m1 m2 h1 b1 b2 h3 h4 q hq) m nm
  refine ⟨?_,
    row 2000 1000 1000 (by decide) (by decide) (by decide) (by decide) (by decide) .o1 .betterThanO1 rfl (by decide) (by decide) ?_ ?_,
    row 2000 6 7 (by decide) (by decide) (by decide) (by decide) (by decide) .oLogN .betweenO1AndOLogN rfl (by decide) (by decide) ?_ ?_,
    row 2600 166 285 (by decide) (by decide) (by decide) (by decide) (by decide) .betweenOLogNAndON .oLogN rfl (by decide) (by decide) ?_ ?_,
    row 2000 1000 2000 (by decide) (by decide) (by decide) (by decide) (by decide) .oN .betweenOLogNAndON rfl (by decide) (by decide) ?_ ?_,
    row 2000 1000 2400 (by decide) (by decide) (by decide) (by decide) (by decide) .oNLogN .betweenONAndONLogN rfl (by decide) (by decide) ?_ ?_⟩
  · obtain ⟨v, e, a⟩ := A 2000 1024 0 (by decide) (by decide) (by decide) (by decide) (by decide) .betterThanO1 (by decide)
    exact e.trans (congrArg Except.ok (verdict_first a (by norm_num [MeetsLimit, bytesUsed])))
  all_goals
    norm_num [MeetsLimit, gn, bytesUsed]
    try norm_num [grows]
    try linarith

/-- `space_analysis.rs` 190-315: set resizing; `log_sum_bit_values(10)` = 8491 and `log_sum_bit_values(11)` = 19030 -/
example (p : Profile) :
    let run (m1 m2 : ℕ) := analyseSpaceSetResizing (shippedEnv log2 powi powf (1/10)) p ⟨1000⟩ ⟨⟨0, 0, m1, 0⟩, ⟨0, 0, m2, 0⟩⟩
    run 1024 0 = .ok .betterThanO1 ∧ run 1024 1024 = .ok .o1 ∧ run 8491 10539 = .ok .oLogN ∧
    run 18491 30539 = .ok .betweenOLogNAndON ∧ run 500500 1500000 = .ok .oN ∧ run 500500 2500000 = .ok .betweenONAndONLogN := by
  intro run
  have A := fun (m1 m2 : ℕ) h1 b1 b2 (c : Complexity) =>
    (C83_space log2 powi powf H (1/10) (Or.inl rfl) p ⟨0, 0, m1, 0⟩ ⟨0, 0, m2, 0⟩ h1 (Nat.zero_le _) b1 b2 c).2.2 1000
    (by norm_num) (by norm_num)
  obtain ⟨g1, g2⟩ := growth_log3
  have row := fun (m1 m2 : ℕ) h1 b1 b2 (c q : Complexity) hcq m nm => verdict_ok (c := c) (q := q) hcq
    (A m1 m2 h1 b1 b2 c) (A m1 m2 h1 b1 b2 q) m nm
  refine ⟨?_,
    row 1024 1024 (by decide) (by decide) (by decide) .o1 .betterThanO1 rfl ?_ ?_,
    row 8491 10539 (by decide) (by decide) (by decide) .oLogN .betweenO1AndOLogN rfl ?_ ?_,
    row 18491 30539 (by decide) (by decide) (by decide) .betweenOLogNAndON .oLogN rfl ?_ ?_,
    row 500500 1500000 (by decide) (by decide) (by decide) .oN .betweenOLogNAndON rfl ?_ ?_,
    row 500500 2500000 (by decide) (by decide) (by decide) .betweenONAndONLogN .oN rfl ?_ ?_⟩
  · obtain ⟨v, e, a⟩ := A 1024 0 (by decide) (by decide) (by decide) .betterThanO1
    exact e.trans (congrArg Except.ok (verdict_first a (by norm_num [MeetsResizingLimit, bytesUsed])))
  all_goals
    norm_num [MeetsResizingLimit, bytesUsed]
    try linarith
end

/-! ## `metrics_allocator.rs` 309-385: `test_save_point_min_and_max_memory_usage` -/

/-- current, minimum and maximum memory that `delta_statistics` reports -/
def readMem (p : Profile) (s : AllocSys) (sp : SavePoint) : Option (ℕ × ℕ × ℕ) :=
  match s.delta p 16 sp with
  | .ok (.ok d) => some (d .currentUsedMemory, d .minUsedMemory, d .maxUsedMemory)
  | _ => none

/-- `save_point()` that must succeed -/
def saveOr (p : Profile) (s : AllocSys) : AllocSys × SavePoint :=
  match s.savePoint p 16 with
  | (s', .ok sp) => (s', sp)
  | (s', _) => (s', ⟨s'.st, 0⟩)

def allocB (n : ℕ) (s : AllocSys) : AllocSys := { s with st := s.st.computeAlloc n }
def deallocB (n : ℕ) (s : AllocSys) : AllocSys := { s with st := s.st.computeDealloc n }

example (p : Profile) :
    let (s, sp1) := saveOr p AllocSys.new
    let s := allocB 54321 (allocB 12345 s)
    let r1 := [readMem p s sp1]
    let (s, sp2) := saveOr p s
    let s := allocB 3030 (allocB 30303 s)
    let r2 := [readMem p s sp2, readMem p s sp1]
    let (s, sp3) := saveOr p s
    let s := deallocB 50505 (deallocB 5050 s)
    let r3 := [readMem p s sp3, readMem p s sp2, readMem p s sp1]
    let (s, sp4) := saveOr p s
    let s := deallocB 10101 (deallocB 1010 s)
    let r4 := [readMem p s sp4, readMem p s sp3, readMem p s sp2, readMem p s sp1]
    r1 = [some (66666, 0, 66666)] ∧
    r2 = [some (99999, 66666, 99999), some (99999, 0, 99999)] ∧
    r3 = [some (44444, 44444, 99999), some (44444, 44444, 99999), some (44444, 0, 99999)] ∧
    r4 = [some (33333, 33333, 44444), some (33333, 33333, 99999), some (33333, 33333, 99999), some (33333, 0, 99999)] := by
  cases p <;> decide +kernel

/-! ## `ring_buffer.rs` 240-350: the sequential tests -/

/-- `peek`: the concatenation of the two slices -/
def peeked : RingOut ℕ → Option (List (Option ℕ))
  | .peeked a b => some (a ++ b)
  | _ => none

example (p : Profile) :
    let outs := ((RingSys.init ℕ).run p 16 ([.consumer, .peekAll 0, .enqueue 1, .peekAll 0, .enqueue 2, .peekAll 0] ++
      (List.range' 3 14).map .enqueue ++ [.peekAll 0] ++ List.replicate 15 (.dequeue 0) ++ [.enqueue 17, .peekAll 0])).2
    outs.filterMap peeked = [[], [some 1], [some 1, some 2], (List.range' 1 16).map some, [some 16, some 17]] := by
  cases p <;> decide +kernel

def dequeued? : RingOut ℕ → Option (Option (Option ℕ))
  | .dequeued v => some v
  | _ => none

/-- fill in the buffer, dequeue everything, and find it empty -/
example (p : Profile) :
    (((RingSys.init ℕ).run p 16 ([.consumer] ++ (List.range 16).map .enqueue ++ List.replicate 17 (.dequeue 0))).2.filterMap dequeued?)
      = (List.range 16).map (fun i => some (some i)) ++ [none] := by
  cases p <;> decide +kernel

def overflowMsg? : RingOut ℕ → Option String
  | .overflow e => some e.msg
  | _ => none

/-- `buffer_overflowing` -/
example (p : Profile) :
    (((RingSys.init ℕ).run p 16 ([.consumer] ++ (List.range 17).map .enqueue ++ [.peekAll 0, .dequeue 0])).2.filterMap overflowMsg?)
      = List.replicate 2 ("Ring-Buffer overflow: published_tail=17, head=0 -- tail could not be farther from head than the ring buffer " ++
        "size of 16") := by
  cases p <;> decide +kernel

end BigO
