import Verif.Spec.Accuracy
import Verif.Spec.Limits
import Verif.Proofs.RobustResizing
import Verif.Props.Binary64

/-! # Exact and shipped arithmetic: the limits -/
set_option linter.unusedSectionVars false
namespace BigO
open F

/-! ### exact arithmetic -/

theorem accept_zero {t u1 u2 n1 n2 : ℝ} (ht : 0 < t) (hu1 : 0 < u1) (hu2 : 0 ≤ u2) (h1 : 2 ≤ n1) (h : 2 ≤ n2) :
    (analyseComplexity (exactEnv t) (fin u1) (fin u2) (fin n1) (fin n2)).asU32 ≤ 0 ↔ u2 / u1 < 1 - t := by
  rw [analyse_eq_pick, exact_tests hu1 hu2 h1 h]
  have := pick_tiers_even (t := t) (r := u2 / u1) ht (gs := ratios n1 n2)
    (rest := [u2 / u1 ^ (n2 / n1) < 1 - t, |u2 / u1 ^ (n2 / n1) - 1| ≤ t]) (k := 0) (ratios_pos h1 h) (by simp [ratios])
  rw [mul_zero] at this
  rw [this]
  simp [ratios]

theorem accept_fourteen_of {t u1 u2 n1 n2 : ℝ} (ht : 0 < t) (hu1 : 0 < u1) (hu2 : 0 ≤ u2) (hs : SlowLog n1 n2) :
    (analyseComplexity (exactEnv t) (fin u1) (fin u2) (fin n1) (fin n2)).asU32 ≤ 14 ↔
      u2 / u1 ≤ (1 + t) * (n2 / n1) ^ 4 ∨ u2 < (1 - t) * u1 ^ (n2 / n1) := by
  have h1 := hs.1
  have h := hs.2.1
  have hpw : 0 < u1 ^ (n2 / n1) := Real.rpow_pos_of_pos hu1 _
  rw [exact_rank hu1 hu2 (by linarith) (by linarith)]
  have := pick_tiers_rest (r := u2 / u1) ht (rest := [u2 / u1 ^ (n2 / n1) < 1 - t, |u2 / u1 ^ (n2 / n1) - 1| ≤ t]) (m := 0)
    (ratios_pos (n1 := n1) (n2 := n2) (by linarith) (by linarith))
  rw [show (14:ℕ) = 2 * (ratios n1 n2).length + 0 by simp [ratios], this]
  refine or_congr ?_ ?_
  · have h13 := accept_odd_of ht hu1 hu2 hs (k := 6) (by simp [ratios])
    rw [exact_rank hu1 hu2 (by linarith) (by linarith),
      pick_tiers_odd ht (ratios_pos (n1 := n1) (n2 := n2) (by linarith) (by linarith)) (by simp [ratios])] at h13
    have h6 : (ratios n1 n2)[6]'(by simp [ratios]) = (n2 / n1) ^ 4 := by simp [ratios]
    rw [h6] at h13
    rw [← h13]
    constructor
    · rintro ⟨g, hg, hle⟩
      obtain ⟨i, hi, rfl⟩ := List.getElem_of_mem hg
      have hi' : i < 7 := by simpa [ratios] using hi
      exact ⟨i, hi, by omega, hle⟩
    · rintro ⟨i, hi, -, hle⟩
      exact ⟨_, List.getElem_mem hi, hle⟩
  · simp only [pick]
    rw [← div_lt_iff₀ hpw]
    by_cases h1 : u2 / u1 ^ (n2 / n1) < 1 - t <;> simp [h1]

theorem meets_iff_of {t u1 u2 n1 n2 : ℝ} (ht : 0 < t) (hu1 : 0 < u1) (hu2 : 0 ≤ u2) (hs : SlowLog n1 n2) (c : Complexity) :
    (analyseComplexity (exactEnv t) (fin u1) (fin u2) (fin n1) (fin n2)).asU32 ≤ c.asU32 ↔ MeetsLimit t n1 n2 u1 u2 c := by
  have h1 := hs.1
  have h := hs.2.1
  have odd := fun (c : Complexity) (f : ℝ → ℝ) (hc : growth c = some f) => acceptance_slow_log t u1 u2 n1 n2 ht hu1 hu2 hs c f hc
  have even := fun (c c' b : Complexity) (f f' : ℝ → ℝ) (hc : growth c = some f) (hc' : growth c' = some f')
    (hb : justBelow c b) (hb' : justBelow b c') => acceptance_between_slow_log t u1 u2 n1 n2 ht hu1 hu2 hs c c' b f f' hc hc' hb hb'
  cases c
  case betterThanO1 => exact accept_zero ht hu1 hu2 (by linarith) (by linarith)
  case o1 => have := odd .o1 _ rfl; simpa [MeetsLimit] using this
  case betweenO1AndOLogN => have := even .oLogN .o1 .betweenO1AndOLogN _ _ rfl rfl rfl rfl; simpa [MeetsLimit, grows] using this
  case oLogN => exact odd .oLogN _ rfl
  case betweenOLogNAndON => exact even .oN .oLogN .betweenOLogNAndON _ _ rfl rfl rfl rfl
  case oN => exact odd .oN _ rfl
  case betweenONAndONLogN => exact even .oNLogN .oN .betweenONAndONLogN _ _ rfl rfl rfl rfl
  case oNLogN => exact odd .oNLogN _ rfl
  case betweenONLogNAndON2 => exact even .oN2 .oNLogN .betweenONLogNAndON2 _ _ rfl rfl rfl rfl
  case oN2 => exact odd .oN2 _ rfl
  case betweenON2AndON3 => exact even .oN3 .oN2 .betweenON2AndON3 _ _ rfl rfl rfl rfl
  case oN3 => exact odd .oN3 _ rfl
  case betweenON3AndON4 => exact even .oN4 .oN3 .betweenON3AndON4 _ _ rfl rfl rfl rfl
  case oN4 => exact odd .oN4 _ rfl
  case betweenON4AndOkN =>
    show _ ≤ 14 ↔ _
    rw [accept_fourteen_of ht hu1 hu2 hs, div_pow]; rfl
  case okN =>
    show _ ≤ 15 ↔ _
    rw [accept_exp_of ht hu1 hu2 hs, div_pow]; rfl
  case worseThanExponential =>
    simp only [MeetsLimit, iff_true]
    generalize analyseComplexity _ _ _ _ _ = v
    cases v <;> decide

theorem meets_iff {t u1 u2 n1 n2 : ℝ} (ht : 0 < t) (hu1 : 0 < u1) (hu2 : 0 ≤ u2) (h1 : 3 ≤ n1) (h : n1 ≤ n2) (c : Complexity) :
    (analyseComplexity (exactEnv t) (fin u1) (fin u2) (fin n1) (fin n2)).asU32 ≤ c.asU32 ↔ MeetsLimit t n1 n2 u1 u2 c :=
  meets_iff_of ht hu1 hu2 (slowLog_of_three h1 h) c

theorem meets_resizing_iff {t u1 u2 n : ℝ} (ht : 0 < t) (ht1 : t < 1) (hu1 : 0 < u1) (hu2 : 0 ≤ u2) (hn : 2 ≤ n) (c : Complexity) :
    (analyseSetResizing (exactEnv t) (fin u1) (fin u2) (fin n)).asU32 ≤ c.asU32 ↔ MeetsResizingLimit t n u1 u2 c := by
  have h := C10_acceptance t u1 u2 n ht ht1 hu1 hu2 hn
  have hc := fun l => C11_ceiling (exactEnv t) (fin u1) (fin u2) (fin n) l
  cases c
  case betterThanO1 => exact h.1
  case o1 => exact h.2.1
  case betweenO1AndOLogN => exact h.2.2.1
  case oLogN => exact h.2.2.2.1
  case betweenOLogNAndON => exact h.2.2.2.2.1
  case oN => exact h.2.2.2.2.2
  all_goals
    simp only [MeetsResizingLimit, iff_true]
    exact hc _ (by decide)

theorem ex_asSecs (t : ℝ) (d : Duration) : asSecsF64 (exactEnv t) d = fin ((d : ℝ) / 10 ^ 9) := by
  unfold asSecsF64
  rw [ex_ofNat, ex_ofNat, ex_div (by positivity) (by norm_num)]
  show (exactEnv t).rnd0 ((fin _).val + (fin _).val) = _
  have e : (((d / 10 ^ 9 : ℕ) : ℝ) + ((d % 10 ^ 9 : ℕ) : ℝ) / 10 ^ 9) = (d : ℝ) / 10 ^ 9 := by
    have : ((d / 10 ^ 9 * 10 ^ 9 + d % 10 ^ 9 : ℕ) : ℝ) = (d : ℝ) := by rw [Nat.div_add_mod']
    rw [← this, Nat.cast_add, Nat.cast_mul]
    have h : (((10 ^ 9 : ℕ)) : ℝ) = 10 ^ 9 := by norm_num
    rw [h]
    field_simp
  simp only [val_fin]
  rw [e]
  unfold FloatEnv.rnd0
  split_ifs with h
  · rw [h]
  · rfl

/-! ### binary64 -/

/-- accuracy factor of one operation -/
noncomputable def kappa : ℝ := 1 + 1 / 2 ^ 47

theorem mag_normal {x : ℝ} (h : Mag 1000 x) : (2:ℝ) ^ (-1022 : ℤ) ≤ x ∧ x ≤ 2 ^ (1023 : ℤ) := by
  have h1 : (2:ℝ) ^ (1000:ℕ) = 2 ^ (1000:ℤ) := (zpow_natCast 2 1000).symm
  obtain ⟨a, b⟩ := h
  rw [h1] at a b
  constructor
  · have : (2:ℝ) ^ (-1000:ℤ) ≤ x := by
      rw [zpow_neg, inv_le_iff_one_le_mul₀ (Format.two_zpow_pos _)]; exact a
    exact le_trans (Format.zpow_le_iff.2 (by norm_num)) this
  · exact b.trans (Format.zpow_le_iff.2 (by norm_num))

theorem near_of_rel {x y : ℝ} (hx : 0 < x) (h : |y - x| ≤ x / 2 ^ 48) : Near kappa 1 y x := by
  refine Near.of_rel (ε := 1 / 2 ^ 48) hx (by positivity) (by norm_num) (by norm_num [kappa]) ?_
  rwa [mul_one_div]

theorem mag_round {x : ℝ} (h : Mag 1000 x) :
    binary64.roundMag x ≠ 0 ∧ binary64.roundMag x < 2 ^ (binary64.emax + 1) ∧ Near kappa 1 (binary64.roundMag x) x := by
  obtain ⟨h1, h2⟩ := mag_normal h
  have hx := h.pos
  have hr := Format.roundMag_rel (f := binary64) h1
  have hr' : |binary64.roundMag x - x| ≤ x / 2 ^ 48 := by
    refine hr.trans ?_
    rw [div_eq_mul_inv]
    refine mul_le_mul_of_nonneg_left ?_ hx.le
    rw [show ((2:ℝ) ^ 48)⁻¹ = 2 ^ (-48:ℤ) by rw [zpow_neg]; norm_num, Format.zpow_le_iff]
    decide
  have hn := near_of_rel hx hr'
  refine ⟨hn.1.ne', ?_, hn⟩
  have hb : binary64.roundMag x ≤ 2 ^ (1023 : ℤ) := by
    refine (Format.roundMag_mono Format.ok64 hx.le h2).trans ?_
    have := Format.roundMag_exact (f := binary64) (k := 1) (q := 1023) (by decide) (by decide)
    rw [Nat.cast_one, one_mul] at this
    exact this.le
  exact hb.trans_lt (Format.zpow_lt_iff.2 (by decide))

theorem shipped_acc (log2 : F → F) (powi : F → ℕ → F) (powf : F → F → F) (H : AccurateLibrary log2 powi) (tol : ℝ)
    (ht : tol = 1 / 10 ∨ tol = 1 / 4) : ∃ t, Acc (shippedEnv log2 powi powf tol) kappa tol t := by
  have hL : FloatLaws (shippedEnv log2 powi powf tol) := by
    rcases ht with rfl | rfl
    · exact C17_laws_10 log2 powi powf
    · exact C17_laws_25 log2 powi powf
  have hm : Mag 1000 tol := Mag.mono (a := 4) (by rcases ht with rfl | rfl <;> constructor <;> norm_num) (by norm_num)
  obtain ⟨a, b, c⟩ := mag_round hm
  refine ⟨binary64.roundMag tol, hL, ?_, ?_, ?_, ?_, ?_, ?_, ?_, c, ?_, ?_⟩
  · norm_num [kappa]
  · norm_num [kappa]
  · intro x hx
    obtain ⟨a, b, c⟩ := mag_round hx
    exact ⟨_, Format.round_of_mag hx.pos rfl a b, c⟩
  · intro x hx
    obtain ⟨a, b, c⟩ := mag_round hx
    exact ⟨_, Format.round_neg_of_mag hx.pos rfl a b, c⟩
  · intro n h1 h2
    obtain ⟨l, hl, he⟩ := H.log2_near n h1 h2
    exact ⟨l, hl, near_of_rel (logb_pos2 (by exact_mod_cast h1)) he⟩
  · intro x k hx h1 h2
    obtain ⟨y, hy, he⟩ := H.powi_near x k (by rw [div_le_iff₀ (by positivity)]; exact hx.1) hx.2 h1 h2
    exact ⟨y, hy, near_of_rel (pow_pos hx.pos k) he⟩
  · exact Format.round_of_mag hm.pos rfl a b
  · rcases ht with rfl | rfl <;> norm_num
  · rcases ht with rfl | rfl <;> norm_num

theorem kappa_up : kappa ^ 16 ≤ 1 + 1 / 2 ^ 40 := by norm_num [kappa]
theorem kappa_down : kappa ^ 16 * (1 - 1 / 2 ^ 40) ≤ 1 := by norm_num [kappa]

/-! ### conversions -/

theorem Acc.ofNat_exact {E : FloatEnv} {κ τ t : ℝ} (A : Acc E κ τ t) {n : ℕ} (h : n ≤ 2 ^ 53) : E.ofNat n = fin n := by
  unfold FloatEnv.ofNat FloatEnv.rnd0
  split_ifs with h0
  · rw [h0]
  · exact A.laws.rnd_nat n h

theorem Acc.bytes_near {E : FloatEnv} {κ τ t : ℝ} (A : Acc E κ τ t) {n : ℕ} (h : n ≤ 2 ^ 64) :
    ∃ v, E.ofNat n = fin v ∧ NearUsage κ v n := by
  rcases Nat.eq_zero_or_pos n with rfl | hn
  · exact ⟨0, by simp [FloatEnv.ofNat, FloatEnv.rnd0], Or.inr ⟨rfl, by simp⟩⟩
  · have m := Acc.mag_nat (show 1 ≤ n by omega) h
    obtain ⟨v, hv, hn'⟩ := A.rnd_near n (m.mono (by norm_num))
    refine ⟨v, ?_, Or.inl ⟨hn'.mono A.κ1.le (by norm_num), m⟩⟩
    unfold FloatEnv.ofNat FloatEnv.rnd0
    rw [if_neg m.pos.ne', hv]

theorem Acc.secs_near {E : FloatEnv} {κ τ t : ℝ} (A : Acc E κ τ t) {d : ℕ} (h : d / 10 ^ 9 < 2 ^ 53) :
    ∃ v, asSecsF64 E d = fin v ∧ NearUsage κ v ((d : ℝ) / 10 ^ 9) := by
  have hsplit : ((d : ℝ) / 10 ^ 9) = ((d / 10 ^ 9 : ℕ) : ℝ) + ((d % 10 ^ 9 : ℕ) : ℝ) / 10 ^ 9 := by
    have : ((d / 10 ^ 9 * 10 ^ 9 + d % 10 ^ 9 : ℕ) : ℝ) = (d : ℝ) := by rw [Nat.div_add_mod']
    rw [← this, Nat.cast_add, Nat.cast_mul]
    have h : (((10 ^ 9 : ℕ)) : ℝ) = 10 ^ 9 := by norm_num
    rw [h]
    field_simp
  have hs := A.ofNat_exact (n := d / 10 ^ 9) (by omega)
  have hf := A.ofNat_exact (n := d % 10 ^ 9) (by omega)
  rw [hsplit]
  unfold asSecsF64
  rw [hs, hf]
  -- the fraction
  have hfrac : ∃ y, E.div (fin ((d % 10 ^ 9 : ℕ) : ℝ)) (fin (10 ^ 9)) = fin y ∧
      ((Near κ 1 y (((d % 10 ^ 9 : ℕ) : ℝ) / 10 ^ 9) ∧ 0 < d % 10 ^ 9) ∨ (y = 0 ∧ d % 10 ^ 9 = 0)) := by
    rcases Nat.eq_zero_or_pos (d % 10 ^ 9) with h0 | h0
    · refine ⟨0, ?_, Or.inr ⟨rfl, h0⟩⟩
      rw [h0]
      simp [FloatEnv.div, FloatEnv.divFin, zero, Xor, not_lt.2 (show (0:ℝ) ≤ 10^9 by norm_num)]
    · have p : (0:ℝ) < ((d % 10 ^ 9 : ℕ) : ℝ) := by exact_mod_cast h0
      have m := (Acc.mag_nat (show 1 ≤ d % 10 ^ 9 by omega) (a := 30) (by omega)).div
        (Mag.of_le (a := 30) (x := (10:ℝ) ^ 9) (by norm_num) (by norm_num))
      obtain ⟨y, hy, hyn⟩ := A.rnd_near _ (m.mono (by norm_num))
      exact ⟨y, by rw [div_fin_fin_pos p (by norm_num), hy], Or.inl ⟨hyn, h0⟩⟩
  obtain ⟨y, hy, hyc⟩ := hfrac
  rw [hy]
  show ∃ v, E.rnd0 (((d / 10 ^ 9 : ℕ) : ℝ) + y) = fin v ∧ _
  rcases Nat.eq_zero_or_pos d with hd | hd
  · subst hd
    have : y = 0 := by
      rcases hyc with ⟨_, h⟩ | ⟨h, _⟩
      · simp at h
      · exact h
    subst this
    exact ⟨0, by simp [FloatEnv.rnd0], Or.inr ⟨rfl, by simp⟩⟩
  · -- the sum is close to the true value
    have hsum : Near κ 1 (((d / 10 ^ 9 : ℕ) : ℝ) + y) (((d / 10 ^ 9 : ℕ) : ℝ) + ((d % 10 ^ 9 : ℕ) : ℝ) / 10 ^ 9) := by
      rcases hyc with ⟨hn, hpos⟩ | ⟨h0, h0'⟩
      · rcases Nat.eq_zero_or_pos (d / 10 ^ 9) with hz | hz
        · rw [hz]; simpa using hn
        · exact ((Near.refl (by exact_mod_cast hz)).mono A.κ1.le (by norm_num)).add hn
      · have hz : 0 < d / 10 ^ 9 := by
          by_contra hz
          have := Nat.div_add_mod' d (10 ^ 9)
          rw [h0', (by omega : d / 10 ^ 9 = 0)] at this
          omega
        rw [h0, h0', Nat.cast_zero, zero_div, add_zero]
        exact (Near.refl (κ := κ) (a := ((d / 10 ^ 9 : ℕ) : ℝ)) (by exact_mod_cast hz)).mono A.κ1.le (k := 1) (by norm_num)
    have mtrue : Mag 54 (((d / 10 ^ 9 : ℕ) : ℝ) + ((d % 10 ^ 9 : ℕ) : ℝ) / 10 ^ 9) := by
      rw [← hsplit]
      have h1 : (1:ℝ) ≤ d := by exact_mod_cast hd
      have h2 : (d:ℝ) ≤ 2 ^ 53 * 10 ^ 9 := by
        have : d ≤ 2 ^ 53 * 10 ^ 9 := by
          have := Nat.div_lt_iff_lt_mul (show 0 < 10 ^ 9 by norm_num) |>.1 h
          omega
        exact_mod_cast this
      constructor
      · rw [div_mul_eq_mul_div, le_div_iff₀ (by norm_num)]; nlinarith
      · rw [div_le_iff₀ (by norm_num)]; nlinarith
    have msum := mtrue.near hsum ((A.pow_le (by norm_num)).trans (by norm_num))
    obtain ⟨v, hv, hvn⟩ := A.rnd_near _ (msum.mono (by norm_num))
    refine ⟨v, ?_, Or.inl ⟨hvn.trans A.κ1.le hsum, mtrue.mono (by norm_num)⟩⟩
    unfold FloatEnv.rnd0
    rw [if_neg msum.pos.ne', hv]

end BigO
