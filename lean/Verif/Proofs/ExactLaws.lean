import Verif.Proofs.Exact

set_option linter.unusedSimpArgs false

namespace BigO
open F

theorem exact_logLaws (t : ℝ) : LogLaws (exactEnv t) where
  log_zero := by simp [exactEnv, idealLog2]
  log_one := by simp [exactEnv, idealLog2]
  log_two_up n hn := by
    have hn' : (2:ℝ) ≤ n := by exact_mod_cast hn
    exact ⟨Real.logb 2 n, logb_pos2 hn', ex_log (by linarith)⟩

theorem exact_powfLaws (t : ℝ) : PowfLaws (exactEnv t) where
  powf_pos u y hu hy := by
    rcases F.pos_cases hu with rfl | ⟨x, hx, rfl⟩
    · cases y with
      | nan => simp at hy
      | inf s =>
        cases s
        · simp [exactEnv, idealPowf, F.abs, F.lt_def]
        · simp [F.le_def] at hy
      | nzero => simp [exactEnv, idealPowf, not_lt.2 (show (0:ℝ) ≤ 1 by norm_num)]
      | fin y =>
        have : 0 ≤ y := by simpa using hy
        simp only [exactEnv, idealPowf, not_lt.2 this, if_false]
        split_ifs <;> simp_all [not_lt.2 (show (0:ℝ) ≤ 1 by norm_num)]
    · cases y with
      | nan => simp at hy
      | inf s =>
        simp only [exactEnv, idealPowf]
        split_ifs <;> simp_all [not_lt.2 (show (0:ℝ) ≤ 1 by norm_num)]
      | nzero => simp [exactEnv, idealPowf, not_lt.2 (show (0:ℝ) ≤ 1 by norm_num)]
      | fin y =>
        rw [ex_powf hx]
        have := Real.rpow_pos_of_pos hx y
        simp [this.le]
  powf_mono u v y hu huv hy := by
    have hv := F.le_of_pos hu huv
    cases y with
    | nan => simp at hy
    | inf s =>
      cases s
      · rcases F.pos_cases hu with rfl | ⟨a, ha, rfl⟩ <;> rcases F.pos_cases hv with rfl | ⟨b, hb, rfl⟩
        · exact le_refl _
        · simp [F.le_def] at huv
        · simp [exactEnv, idealPowf, F.abs, F.lt_def]
        · have hab : a ≤ b := by simpa using huv
          simp only [exactEnv, idealPowf, F.abs, isNum_fin, not_true_eq_false, if_false, fin.injEq, fin_lt_fin,
            abs_of_pos ha, abs_of_pos hb, and_true]
          rcases lt_trichotomy a 1 with h | h | h <;> rcases lt_trichotomy b 1 with h' | h' | h' <;>
            first
            | (exfalso; linarith)
            | (simp [h, h', h.ne, h'.ne, h.ne', h'.ne', not_lt.2 h.le, not_lt.2 h'.le])
            | (simp [h, h', h.ne, h.ne', not_lt.2 h.le])
            | (simp [h, h', h'.ne, h'.ne', not_lt.2 h'.le])
            | (simp [h, h'])
      · simp [F.le_def] at hy
    | nzero => exact le_refl _
    | fin y =>
      have hy : 0 ≤ y := by simpa using hy
      rcases F.pos_cases hu with rfl | ⟨a, ha, rfl⟩ <;> rcases F.pos_cases hv with rfl | ⟨b, hb, rfl⟩
      · exact le_refl _
      · simp [F.le_def] at huv
      · simp only [exactEnv, idealPowf, not_lt.2 hy, if_false]
        split_ifs <;> simp_all
      · rw [ex_powf ha, ex_powf hb]
        simp only [toE_fin, EReal.coe_le_coe_iff]
        exact Real.rpow_le_rpow ha.le (by simpa using huv) hy

/-- the growth ratio is one of the tier ratios -/
theorem growth_ratio {c : Complexity} {f : ℝ → ℝ} (h : growth c = some f) (n1 n2 : ℝ) :
    ∃ k, ∃ hk : k < (ratios n1 n2).length, c.asU32 = 2 * k + 1 ∧ (ratios n1 n2)[k] = f n2 / f n1 := by
  cases c <;> simp only [growth, Option.some.injEq, reduceCtorEq] at h <;> subst h
  · exact ⟨0, by simp [ratios], rfl, by simp [ratios]⟩
  · exact ⟨1, by simp [ratios], rfl, by simp [ratios]⟩
  · exact ⟨2, by simp [ratios], rfl, by simp [ratios]⟩
  · exact ⟨3, by simp [ratios], rfl, by simp [ratios]⟩
  · exact ⟨4, by simp [ratios], rfl, by simp [ratios, div_pow]⟩
  · exact ⟨5, by simp [ratios], rfl, by simp [ratios, div_pow]⟩
  · exact ⟨6, by simp [ratios], rfl, by simp [ratios, div_pow]⟩

/-- exact verdict of the whole chain as a `pick` -/
theorem exact_rank {t u1 u2 n1 n2 : ℝ} (hu1 : 0 < u1) (hu2 : 0 ≤ u2) (h1 : 2 ≤ n1) (h2 : 2 ≤ n2) :
    (analyseComplexity (exactEnv t) (fin u1) (fin u2) (fin n1) (fin n2)).asU32 =
      pick (tiers t (u2 / u1) (ratios n1 n2)
        [u2 / u1 ^ (n2 / n1) < 1 - t, |u2 / u1 ^ (n2 / n1) - 1| ≤ t]) := by
  rw [analyse_eq_pick, exact_tests hu1 hu2 h1 h2]

theorem pick_tiers_congr {t r : ℝ} : ∀ {gs : List ℝ} {rest rest' : List Prop},
    pick (tiers t r gs rest) < 2 * gs.length → pick (tiers t r gs rest') = pick (tiers t r gs rest)
  | [], _, _, h => by simp at h
  | g :: gs, rest, rest', h => by
    unfold tiers at *
    unfold pick at *
    by_cases h1 : r / g < 1 - t
    · simp [h1]
    · simp only [h1, if_false] at *
      unfold pick at *
      by_cases h2 : |r / g - 1| ≤ t
      · simp [h2]
      · simp only [h2, if_false] at *
        rw [pick_tiers_congr (gs := gs) (rest := rest) (rest' := rest')]
        simp at h; omega

theorem asU32_injective : Function.Injective Complexity.asU32 := by
  intro a b h
  cases a <;> cases b <;> first | rfl | (exact absurd h (by decide))

end BigO
