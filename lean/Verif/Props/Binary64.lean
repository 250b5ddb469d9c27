import Verif.Proofs.Ieee
import Verif.Props.Verdict

/-!
# C17: the shipped `f64` arithmetic satisfies the assumptions of the theorems

`Format.round` (in `Verif.Spec.Ieee`) is IEEE-754 round to nearest, ties to even. `log2`, `powi` and `powf` stay arbitrary.
-/
namespace BigO
open F

/-- **C17** (monotone, any format). -/
theorem C17_monotone (x y : ℝ) (h : x ≤ y) :
    (binary64.round x).toE ≤ (binary64.round y).toE ∧ (binary32.round x).toE ≤ (binary32.round y).toE :=
  ⟨Format.round_mono Format.ok64 h, Format.round_mono Format.ok32 h⟩

/-- **C17** (integers): exact up to 2^53 in binary64 and up to 2^24 in binary32. -/
theorem C17_integers_exact (n : ℕ) :
    (n ≤ 2 ^ 53 → binary64.round n = fin n) ∧ (n ≤ 2 ^ 24 → binary32.round n = fin n) :=
  ⟨Format.round_nat Format.ok64, Format.round_nat Format.ok32⟩

/-- **C17** (accuracy): in the normal range the relative error is at most 2^-53. -/
theorem C17_relative_error (x : ℝ) (h1 : (2:ℝ) ^ (-1022 : ℤ) ≤ x) (h2 : x ≤ 2 ^ (1023 : ℤ)) :
    ∃ y, binary64.round x = fin y ∧ |y - x| ≤ x * 2 ^ (-53 : ℤ) := by
  have hx : 0 < x := (Format.two_zpow_pos _).trans_le h1
  have hr := Format.roundMag_rel (f := binary64) h1
  have hb : binary64.roundMag x ≤ 2 ^ (1023 : ℤ) := by
    refine (Format.roundMag_mono Format.ok64 hx.le h2).trans ?_
    have := Format.roundMag_exact (f := binary64) (k := 1) (q := 1023) (by decide) (by decide)
    rw [Nat.cast_one, one_mul] at this
    exact this.le
  refine ⟨_, Format.round_of_mag hx rfl ?_ (hb.trans_lt ?_), hr⟩
  · intro h0
    rw [h0, zero_sub, abs_neg, abs_of_pos hx] at hr
    have : (2:ℝ) ^ (-((binary64.prec : ℕ) : ℤ)) ≤ 2 ^ (-1 : ℤ) := Format.zpow_le_iff.2 (by decide)
    have h3 : (2:ℝ) ^ (-1:ℤ) = 1 / 2 := by norm_num
    rw [h3] at this
    have h4 := hr.trans (mul_le_mul_of_nonneg_left this hx.le)
    linarith
  · exact Format.zpow_lt_iff.2 (by decide)

/-- the laws, for any tolerance constant that behaves -/
theorem binary64_laws (log2 : F → F) (powi : F → ℕ → F) (powf : F → F → F) (tol : F)
    (h : ∃ t c d : ℝ, tol = fin t ∧ binary64.round (1 - t) = fin c ∧ binary64.round (1 / c) = fin d ∧
      0 < t ∧ t < 1 ∧ 0 < c ∧ c < 1 ∧ 1 < d ∧
      ((-t : ℝ) : EReal) ≤ (binary64.round (c - 1)).toE ∧ ((t : ℝ) : EReal) < (binary64.round (d - 1)).toE) :
    FloatLaws (binary64Env log2 powi powf tol) where
  rnd_num := Format.round_num
  rnd_mono _ _ h := Format.round_mono Format.ok64 h
  rnd_pos _ h := Format.round_pos h
  rnd_neg _ h := Format.round_neg h
  rnd_nat _ h := Format.round_nat Format.ok64 h
  rnd_idem _ _ h := Format.round_idem Format.ok64 h
  rnd_nano := by
    show 0 < (binary64.round (1 / 10 ^ 9)).toE
    have h1 := Format.round_mono Format.ok64 (x := (1:ℕ) * 2 ^ (-30 : ℤ)) (y := 1 / 10 ^ 9) (by norm_num)
    have h2 := (Format.round_exact Format.ok64 (k := 1) (q := -30) (by decide) (by decide) (by decide) (by decide)).1
    rw [h2] at h1
    refine lt_of_lt_of_le ?_ h1
    rw [F.toE, ← EReal.coe_zero, EReal.coe_lt_coe_iff]
    norm_num
  tol_consts := h

/-- computing a binary64 rounding -/
theorem round64_eq {x : ℝ} (e : ℤ) (m : ℕ) (h1 : (2:ℝ) ^ e ≤ x) (h2 : x < 2 ^ (e + 1)) (he : -1022 ≤ e) (he' : e + 1 ≤ 1023)
    (hm : |x / 2 ^ (e - 52) - m| < 1 / 2) (hm0 : 0 < m) (hm1 : m ≤ 2 ^ 53) : binary64.round x = fin (m * 2 ^ (e - 52)) := by
  have hx : 0 < x := (Format.two_zpow_pos _).trans_le h1
  have h := Format.roundMag_eq (f := binary64) e m h1 h2 he (by
    have : e - (((binary64.prec : ℕ) : ℤ) - 1) = e - 52 := by simp [binary64]
    rw [this]; exact hm)
  have e52 : e - (((binary64.prec : ℕ) : ℤ) - 1) = e - 52 := by simp [binary64]
  rw [e52] at h
  refine Format.round_of_mag hx h (by positivity) ?_
  have h3 : (m : ℝ) ≤ 2 ^ (53 : ℤ) := by exact_mod_cast hm1
  refine (mul_le_mul_of_nonneg_right h3 (Format.two_zpow_pos _).le).trans_lt ?_
  rw [← zpow_add₀ (by norm_num), Format.zpow_lt_iff]
  show _ < (1023:ℤ) + 1
  omega

/-- the value of the literal `0.10` -/
noncomputable def tol10 : ℝ := 3602879701896397 * 2 ^ (-55 : ℤ)

/-- the literal `0.10` is that number -/
theorem tol10_is_literal : binary64.round (1 / 10) = fin tol10 := by
  rw [round64_eq (-4) 7205759403792794 (by norm_num) (by norm_num) (by norm_num) (by norm_num) (by rw [abs_lt]; constructor <;> norm_num) (by norm_num) (by norm_num)]
  unfold tol10
  congr 1
  norm_num

/-- the literal `0.25` is exact -/
theorem tol25_is_literal : binary64.round (1 / 4) = fin (1 / 4) := by
  have := (Format.round_exact Format.ok64 (k := 1) (q := -2) (by decide) (by decide) (by decide) (by decide)).1
  have h : ((1:ℕ):ℝ) * 2 ^ (-2:ℤ) = 1 / 4 := by norm_num
  rwa [h] at this

/-- **C17** (laws, tolerance 10%): binary64 with the literal `0.10` satisfies all assumptions of the theorems about verdicts,
whatever the library functions `log2`, `powi` and `powf` return. -/
theorem C17_laws_10 (log2 : F → F) (powi : F → ℕ → F) (powf : F → F → F) :
    FloatLaws (binary64Env log2 powi powf (binary64.round (1 / 10))) := by
  apply binary64_laws
  rw [tol10_is_literal]
  have hc : binary64.round (1 - tol10) = fin (8106479329266893 * 2 ^ (-53:ℤ)) := by
    rw [round64_eq (-1) 8106479329266893 (by norm_num [tol10]) (by norm_num [tol10]) (by norm_num) (by norm_num)
      (by rw [abs_lt]; constructor <;> norm_num [tol10]) (by norm_num) (by norm_num)]
    norm_num
  have hd : binary64.round (1 / (8106479329266893 * 2 ^ (-53:ℤ))) = fin (5003999585967218 * 2 ^ (-52:ℤ)) := by
    rw [round64_eq 0 5003999585967218 (by norm_num) (by norm_num) (by norm_num) (by norm_num)
      (by rw [abs_lt]; constructor <;> norm_num) (by norm_num) (by norm_num)]
    norm_num
  have hc1 := (Format.round_exact Format.ok64 (k := 900719925474099) (q := -53) (by decide) (by decide) (by decide) (by decide)).2
  have hd1 := (Format.round_exact Format.ok64 (k := 500399958596722) (q := -52) (by decide) (by decide) (by decide) (by decide)).1
  have ec : (8106479329266893 * 2 ^ (-53:ℤ) : ℝ) - 1 = -(((900719925474099 : ℕ):ℝ) * 2 ^ (-53:ℤ)) := by norm_num
  have ed : (5003999585967218 * 2 ^ (-52:ℤ) : ℝ) - 1 = (((500399958596722 : ℕ):ℝ) * 2 ^ (-52:ℤ)) := by norm_num
  refine ⟨tol10, 8106479329266893 * 2 ^ (-53:ℤ), 5003999585967218 * 2 ^ (-52:ℤ), rfl, hc, hd, ?_, ?_, ?_, ?_, ?_, ?_, ?_⟩
  · norm_num [tol10]
  · norm_num [tol10]
  · norm_num
  · norm_num
  · norm_num
  · rw [ec, hc1, F.toE, EReal.coe_le_coe_iff]; norm_num [tol10]
  · rw [ed, hd1, F.toE, EReal.coe_lt_coe_iff]; norm_num [tol10]

/-- **C17** (laws, tolerance 25%). -/
theorem C17_laws_25 (log2 : F → F) (powi : F → ℕ → F) (powf : F → F → F) :
    FloatLaws (binary64Env log2 powi powf (binary64.round (1 / 4))) := by
  apply binary64_laws
  rw [tol25_is_literal]
  have hc : binary64.round (1 - 1 / 4) = fin (3 / 4) := by
    have := (Format.round_exact Format.ok64 (k := 3) (q := -2) (by decide) (by decide) (by decide) (by decide)).1
    have h : ((3:ℕ):ℝ) * 2 ^ (-2:ℤ) = 3 / 4 := by norm_num
    rw [h] at this
    convert this using 2
    norm_num
  have hd : binary64.round (1 / (3 / 4)) = fin (6004799503160661 * 2 ^ (-52:ℤ)) := by
    rw [round64_eq 0 6004799503160661 (by norm_num) (by norm_num) (by norm_num) (by norm_num)
      (by rw [abs_lt]; constructor <;> norm_num) (by norm_num) (by norm_num)]
    norm_num
  have hc1 := (Format.round_exact Format.ok64 (k := 1) (q := -2) (by decide) (by decide) (by decide) (by decide)).2
  have hd1 := (Format.round_exact Format.ok64 (k := 1501199875790165) (q := -52) (by decide) (by decide) (by decide) (by decide)).1
  have ec : (3 / 4 : ℝ) - 1 = -(((1 : ℕ):ℝ) * 2 ^ (-2:ℤ)) := by norm_num
  have ed : (6004799503160661 * 2 ^ (-52:ℤ) : ℝ) - 1 = (((1501199875790165 : ℕ):ℝ) * 2 ^ (-52:ℤ)) := by norm_num
  refine ⟨1 / 4, 3 / 4, 6004799503160661 * 2 ^ (-52:ℤ), rfl, hc, hd, ?_, ?_, ?_, ?_, ?_, ?_, ?_⟩
  · norm_num
  · norm_num
  · norm_num
  · norm_num
  · norm_num
  · rw [ec, hc1, F.toE, EReal.coe_le_coe_iff]; norm_num
  · rw [ed, hd1, F.toE, EReal.coe_lt_coe_iff]; norm_num

/-- **C17** (consequence): in the shipped arithmetic, with either tolerance, slower second passes never get better verdicts,
whatever the library functions return. -/
theorem C17_verdicts_monotone (log2 : F → F) (powi : F → ℕ → F) (powf : F → F → F) (tol : ℝ) (ht : tol = 1 / 10 ∨ tol = 1 / 4)
    (d1 d2 d2' : Duration) (h1 : 0 < d1) (hd1 : d1 / 10 ^ 9 ≤ 2 ^ 53) (h : d2 ≤ d2') (hd2 : d2' / 10 ^ 9 ≤ 2 ^ 53)
    (i : PassesInfo) (ic : ConstantSetPassesInfo) (is : SetResizingPassesInfo) :
    let E := binary64Env log2 powi powf (binary64.round tol)
    (analyseTime E i ⟨d1, d2⟩).asU32 ≤ (analyseTime E i ⟨d1, d2'⟩).asU32 ∧
    (analyseTimeConstantSet E ic ⟨d1, d2⟩).asU32 ≤ (analyseTimeConstantSet E ic ⟨d1, d2'⟩).asU32 ∧
    (analyseTimeSetResizing E is ⟨d1, d2⟩).asU32 ≤ (analyseTimeSetResizing E is ⟨d1, d2'⟩).asU32 := by
  rcases ht with rfl | rfl
  · exact C14_time_monotone _ (C17_laws_10 log2 powi powf) d1 d2 d2' h1 hd1 h hd2 i ic is
  · exact C14_time_monotone _ (C17_laws_25 log2 powi powf) d1 d2 d2' h1 hd1 h hd2 i ic is

/-! ## concrete cases -/

example : binary64.round 3 = fin 3 := by simpa using (C17_integers_exact 3).1 (by norm_num)
-- ties go to the even neighbour: 2^24 + 1 in binary32
theorem binary32_tie : binary32.round ((2 ^ 24 + 1 : ℕ) : ℝ) = fin (2 ^ 24) := by
  have hl : Int.log 2 ((2 ^ 24 + 1 : ℕ) : ℝ) = 24 := by
    rw [Int.log_natCast]
    have : Nat.log 2 (2 ^ 24 + 1) = 24 := by decide +kernel
    rw [this]; rfl
  have hb : binary32.lastBit ((2 ^ 24 + 1 : ℕ) : ℝ) = 1 := by
    unfold Format.lastBit; rw [hl]; decide
  have hz : ((2 ^ 24 + 1 : ℕ) : ℝ) / 2 ^ (1:ℤ) = 8388608 + 1 / 2 := by norm_num
  have hfl : ⌊(8388608 + 1 / 2 : ℝ)⌋₊ = 8388608 := by
    rw [Nat.floor_eq_iff (by norm_num)]; constructor <;> norm_num
  have hm : binary32.roundMag ((2 ^ 24 + 1 : ℕ) : ℝ) = 2 ^ 24 := by
    unfold Format.roundMag
    rw [hb, hz]
    unfold halfEven
    rw [hfl, if_neg (by norm_num), if_neg (by norm_num), if_pos (by decide)]
    norm_num
  refine Format.round_of_mag (by positivity) hm (by norm_num) ?_
  have : (2:ℝ) ^ 24 = 2 ^ (24:ℤ) := by norm_num
  rw [this, Format.zpow_lt_iff]
  decide

end BigO
