import Verif.Spec.PresentableSpec
import Verif.Props.Binary64

/-!
# Properties of self-scaling measurements (C70 to C73, C77, C78)
-/
namespace BigO
open F

section
variable (log2 : F → F) (powi : F → ℕ → F) (powf : F → F → F) (tol : F)

/-- local abbreviation: the shipped arithmetic -/
local notation "E64" => binary64Env log2 powi powf tol

/-! ## arithmetic -/

theorem f64_ofNat {n : ℕ} (h : n ≤ 2 ^ 53) : (E64).ofNat n = fin n := by
  unfold FloatEnv.ofNat FloatEnv.rnd0
  split_ifs with h0
  · rw [h0]
  · exact Format.round_nat Format.ok64 h

/-- dividing by a power of two is exact -/
theorem f64_div_pow2 {v : ℝ} (hv : IsF64 v) (j : ℕ) (hj : j ≤ 40) (hge : (2:ℝ) ^ j ≤ v) :
    (E64).div (fin v) (fin (2 ^ j)) = fin (v / 2 ^ j) := by
  have hv0 : 0 < v := lt_of_lt_of_le (by positivity) hge
  have hr : binary64.round v = fin v := by
    rcases hv.2 with h | h
    · exact absurd h hv0.ne'
    · exact h
  have hp : (2:ℝ) ^ j ≠ 0 := by positivity
  rw [div_fin_fin_pos hv0 hp]
  show binary64.round (v / 2 ^ j) = _
  -- `v` has at most 53 bits
  have hm : binary64.roundMag v = v := by
    unfold Format.round at hr
    rw [abs_of_pos hv0] at hr
    split_ifs at hr with h1 h2 h3
    · simp [F.zero] at hr; split_ifs at hr
      cases hr; exact absurd rfl hv0.ne'
    · exact absurd h3 (not_lt.2 hv0.le)
    · exact F.fin.inj hr
  have hlt : v < 2 ^ (binary64.emax + 1) := by
    by_contra hc
    unfold Format.round at hr
    rw [abs_of_pos hv0, hm, if_pos (not_lt.1 hc)] at hr
    cases hr
  obtain ⟨k, q, hk, hq, hkq⟩ := Format.roundMag_form Format.ok64 hv0.le
  rw [hm] at hkq
  have hk' : ((k : ℕ) : ℝ) < 2 ^ (53 : ℤ) := by
    have : k < 2 ^ 53 := hk
    exact_mod_cast this
  have hq' : -53 < q := by
    have h1 : (1:ℝ) ≤ v := le_trans (one_le_pow₀ (by norm_num)) hge
    have h2 : (2:ℝ) ^ (-53 + 53 : ℤ) < 2 ^ (53 + q : ℤ) := by
      rw [zpow_add₀ (by norm_num) 53 q]
      have h3 : v < 2 ^ (53:ℤ) * 2 ^ q := by
        rw [hkq]; exact mul_lt_mul_of_pos_right hk' (Format.two_zpow_pos _)
      have : (2:ℝ) ^ (-53 + 53 : ℤ) = 1 := by norm_num
      rw [this]; linarith
    rw [Format.zpow_lt_iff] at h2
    omega
  have hdiv : v / 2 ^ j = k * (2:ℝ) ^ (q - j : ℤ) := by
    rw [hkq, zpow_sub₀ (by norm_num), zpow_natCast]; ring
  have hmag : binary64.roundMag (v / 2 ^ j) = v / 2 ^ j := by
    rw [hdiv]; exact Format.roundMag_exact hk (by simp only [binary64]; push_cast; omega)
  have hpos : 0 < v / 2 ^ j := by positivity
  refine Format.round_of_mag hpos hmag hpos.ne' (lt_of_le_of_lt ?_ hlt)
  exact div_le_self hv0.le (one_le_pow₀ (by norm_num))

theorem f64_div_one {v : ℝ} (hv : IsF64 v) : (E64).div (fin v) (fin 1) = fin v := by
  rcases hv.2 with h | h
  · subst h; simp [FloatEnv.div, FloatEnv.divFin, F.zero, Xor]
  · rcases hv.1.eq_or_lt with h0 | h0
    · subst h0; simp [FloatEnv.div, FloatEnv.divFin, F.zero, Xor]
    · rw [div_fin_fin_pos h0 (by norm_num), div_one]; exact h

theorem selfScaled_zero (s f : String) : selfScaled (fin 0) s f = ⟨fin 0, fin 1, s, f⟩ := by simp [selfScaled]

theorem selfScaled_fin {x : ℝ} (hx : x ≠ 0) (s f : String) : selfScaled (fin x) s f = ⟨fin x, fin x, s, f⟩ := by simp [selfScaled, hx]

/-! ## C70 -/

/-- **C70.** Every non-negative number of bytes is shown exactly scaled, with the largest unit not larger than it, so that the
shown number is below 1024 (except for TiB) and at least 1; less than one byte is shown in bytes. -/
theorem C70_bytes (N : NumText) (v : ℝ) (hv : IsF64 v) :
    ∃ u, LargestUnit byteUnits v u ∧
      (bytesMeasurement (E64) (fin v)).display (E64) N = .ok (N.dec u.decimals (fin (v / u.factor)) ++ u.name) ∧
      (1 ≤ v → 1 ≤ v / u.factor) ∧ (v < 1 → u.name = "b") ∧ (v / u.factor < 1024 ∨ u.name = "TiB") := by
  have h40 : (E64).ofNat (2 ^ 40) = fin (2 ^ 40) := by rw [f64_ofNat]; · norm_num
                                                       · norm_num
  have h30 : (E64).ofNat (2 ^ 30) = fin (2 ^ 30) := by rw [f64_ofNat]; · norm_num
                                                       · norm_num
  have h20 : (E64).ofNat (2 ^ 20) = fin (2 ^ 20) := by rw [f64_ofNat]; · norm_num
                                                       · norm_num
  have h10 : (E64).ofNat (2 ^ 10) = fin (2 ^ 10) := by rw [f64_ofNat]; · norm_num
                                                       · norm_num
  unfold Presented.display Presented.select bytesMeasurement LargestUnit
  rw [h40, h30, h20, h10]
  simp only [selfScaled_zero, selfScaled_fin one_ne_zero, selfScaled_fin (show (2:ℝ) ^ 40 ≠ 0 by norm_num), selfScaled_fin (show (2:ℝ) ^ 30 ≠ 0 by norm_num), selfScaled_fin (show (2:ℝ) ^ 20 ≠ 0 by norm_num), selfScaled_fin (show (2:ℝ) ^ 10 ≠ 0 by norm_num),  List.find?_cons, F.fin_le_fin, byteUnits]
  by_cases c4 : (2:ℝ) ^ 40 ≤ v
  · refine ⟨⟨2 ^ 40, "TiB", 2⟩, ⟨by simp, ?_⟩, ?_, ?_, fun h => ?_, Or.inr rfl⟩
    · intro w hw _; simp at hw; rcases hw with rfl | rfl | rfl | rfl | rfl <;> norm_num
    · simp [c4, f64_div_pow2 log2 powi powf tol hv 40 le_rfl c4]
    · intro _; rw [le_div_iff₀ (by positivity)]; simpa using c4
    · have : (1:ℝ) ≤ 2 ^ 40 := by norm_num
      linarith
  by_cases c3 : (2:ℝ) ^ 30 ≤ v
  · refine ⟨⟨2 ^ 30, "GiB", 2⟩, ⟨by simp, ?_⟩, ?_, ?_, fun h => ?_, Or.inl ?_⟩
    · intro w hw hle; simp at hw; rcases hw with rfl | rfl | rfl | rfl | rfl <;> first | exact absurd hle c4 | norm_num
    · simp [c4, c3, f64_div_pow2 log2 powi powf tol hv 30 (by norm_num) c3]
    · intro _; rw [le_div_iff₀ (by positivity)]; simpa using c3
    · have : (1:ℝ) ≤ 2 ^ 30 := by norm_num
      linarith
    · rw [div_lt_iff₀ (by positivity)]; norm_num at c4 ⊢; linarith
  by_cases c2 : (2:ℝ) ^ 20 ≤ v
  · refine ⟨⟨2 ^ 20, "MiB", 2⟩, ⟨by simp, ?_⟩, ?_, ?_, fun h => ?_, Or.inl ?_⟩
    · intro w hw hle; simp at hw; rcases hw with rfl | rfl | rfl | rfl | rfl <;> first | exact absurd hle c4 | exact absurd hle c3 | norm_num
    · simp [c4, c3, c2, f64_div_pow2 log2 powi powf tol hv 20 (by norm_num) c2]
    · intro _; rw [le_div_iff₀ (by positivity)]; simpa using c2
    · have : (1:ℝ) ≤ 2 ^ 20 := by norm_num
      linarith
    · rw [div_lt_iff₀ (by positivity)]; norm_num at c3 ⊢; linarith
  by_cases c1 : (2:ℝ) ^ 10 ≤ v
  · refine ⟨⟨2 ^ 10, "KiB", 2⟩, ⟨by simp, ?_⟩, ?_, ?_, fun h => ?_, Or.inl ?_⟩
    · intro w hw hle; simp at hw
      rcases hw with rfl | rfl | rfl | rfl | rfl <;> first | exact absurd hle c4 | exact absurd hle c3 | exact absurd hle c2 | norm_num
    · simp [c4, c3, c2, c1, f64_div_pow2 log2 powi powf tol hv 10 (by norm_num) c1]
    · intro _; rw [le_div_iff₀ (by positivity)]; simpa using c1
    · have : (1:ℝ) ≤ 2 ^ 10 := by norm_num
      linarith
    · rw [div_lt_iff₀ (by positivity)]; norm_num at c2 ⊢; linarith
  · refine ⟨⟨1, "b", 0⟩, ⟨by simp, ?_⟩, ?_, ?_, fun h => ?_, Or.inl ?_⟩
    · intro w hw hle; simp at hw
      rcases hw with rfl | rfl | rfl | rfl | rfl <;>
        first | exact absurd hle c4 | exact absurd hle c3 | exact absurd hle c2 | exact absurd hle c1 | norm_num
    · by_cases c0 : (1:ℝ) ≤ v
      · simp [c4, c3, c2, c1, c0, f64_div_one log2 powi powf tol hv]
      · simp [c4, c3, c2, c1, c0, hv.1, f64_div_one log2 powi powf tol hv]
    · intro h; simpa using h
    · rfl
    · norm_num at c1 ⊢; linarith

/-! ## C71 -/

/-- the divisors for rates per minute and per hour: as close to 1/60 and 1/3600 as a binary64 can be -/
theorem f64_recip (n : ℕ) (h1 : 1 < n) (h2 : n ≤ 2 ^ 20) :
    ∃ c : ℝ, (E64).div (fin 1) (fin n) = fin c ∧ |c - 1 / n| ≤ 1 / n * 2 ^ (-53 : ℤ) ∧ 0 < c ∧ c < 1 := by
  have hn : (0:ℝ) < n := by exact_mod_cast (by omega : 0 < n)
  have hn1 : (2:ℝ) ≤ n := by exact_mod_cast h1
  have hn2 : (n:ℝ) ≤ 2 ^ 20 := by exact_mod_cast h2
  rw [div_fin_fin_pos (by norm_num) hn.ne']
  obtain ⟨c, hc, he⟩ := C17_relative_error (1 / n) (by
    rw [le_div_iff₀ hn]
    refine (mul_le_mul_of_nonneg_left hn2 (Format.two_zpow_pos _).le).trans ?_
    rw [show (2:ℝ) ^ 20 = 2 ^ (20:ℤ) by norm_num, ← zpow_add₀ (by norm_num)]
    exact zpow_le_one_of_nonpos₀ (by norm_num) (by norm_num)) (by
    refine (div_le_self (by norm_num) (by linarith)).trans ?_
    exact one_le_zpow₀ (by norm_num) (by norm_num))
  have hp : (0:ℝ) < 1 / n := by positivity
  have hle : (1:ℝ) / n ≤ 1 / 2 := one_div_le_one_div_of_le (by norm_num) hn1
  have h53 : (2:ℝ) ^ (-53:ℤ) ≤ 1 / 2 := by norm_num
  have h0 : (0:ℝ) < 2 ^ (-53:ℤ) := Format.two_zpow_pos _
  obtain ⟨this1, this2⟩ := abs_le.1 he
  refine ⟨c, hc, he, ?_, ?_⟩
  · have : 1 / (n:ℝ) * 2 ^ (-53:ℤ) ≤ 1 / n * (1 / 2) := mul_le_mul_of_nonneg_left h53 hp.le
    linarith
  · have : 1 / (n:ℝ) * 2 ^ (-53:ℤ) ≤ 1 / n * (1 / 2) := mul_le_mul_of_nonneg_left h53 hp.le
    linarith

/-- a quotient of numbers of moderate size, by a divisor that is itself rounded -/
theorem f64_div_rounded {v c f : ℝ} (hf : 0 < f) (hc : |c - f| ≤ f * 2 ^ (-53:ℤ)) (hcv : c ≤ v) (hv : v ≤ 1) (hf2 : (2:ℝ) ^ (-20:ℤ) ≤ f)
    (hc0 : 0 < c) :
    ∃ s : ℝ, (E64).div (fin v) (fin c) = fin s ∧ |s * f - v| ≤ v * 2 ^ (-51:ℤ) ∧ 1 ≤ s ∧ s * f ≤ v * (1 + 2 ^ (-51:ℤ)) := by
  have hv0 : 0 < v := hc0.trans_le hcv
  rw [div_fin_fin_pos hv0 hc0.ne']
  have hq1 : 1 ≤ v / c := by rw [le_div_iff₀ hc0]; linarith
  obtain ⟨hcf1, hcf2⟩ := abs_le.1 hc
  have hc2 : f / 2 ≤ c := by
    have h53 : f * (2:ℝ) ^ (-53:ℤ) ≤ f * (1 / 2) := mul_le_mul_of_nonneg_left (by norm_num) hf.le
    generalize f * (2:ℝ) ^ (-53:ℤ) = y at *
    linarith
  have hq2 : v / c ≤ 2 ^ (21:ℤ) := by
    rw [div_le_iff₀ hc0]
    have : (2:ℝ) ^ (-20:ℤ) / 2 ≤ c := le_trans (div_le_div_of_nonneg_right hf2 (by norm_num)) hc2
    have e : (2:ℝ) ^ (21:ℤ) * (2 ^ (-20:ℤ) / 2) = 1 := by norm_num
    have := mul_le_mul_of_nonneg_left this (Format.two_zpow_pos 21).le
    rw [e] at this
    exact hv.trans this
  obtain ⟨s, hs, he⟩ := C17_relative_error (v / c) 
    (le_trans (zpow_le_one_of_nonpos₀ (by norm_num) (by norm_num)) hq1) (hq2.trans (Format.zpow_le_iff.2 (by norm_num)))
  have hs1 : 1 ≤ s := by
    have := Format.round_mono Format.ok64 hq1
    have h1 : binary64.round ((1:ℕ):ℝ) = fin (1:ℕ) := Format.round_nat Format.ok64 Nat.one_le_two_pow
    rw [Nat.cast_one] at h1
    rw [h1, hs] at this
    have h2 : ((1:ℝ) : EReal) ≤ (s : EReal) := by simpa using this
    exact EReal.coe_le_coe_iff.1 h2
  have key : |s * f - v| ≤ v * 2 ^ (-51:ℤ) := by
    obtain ⟨he1, he2⟩ := abs_le.1 he
    have hvc : v / c * c = v := div_mul_cancel₀ v hc0.ne'
    have e1 : (2:ℝ) ^ (-51:ℤ) = 4 * 2 ^ (-53:ℤ) := by norm_num
    have e0 : (0:ℝ) < 2 ^ (-53:ℤ) := Format.two_zpow_pos _
    have e2 : (2:ℝ) ^ (-53:ℤ) ≤ 1 / 8 := by norm_num
    generalize (2:ℝ) ^ (-53:ℤ) = ε at *
    generalize v / c = q at *
    rw [e1, abs_le]
    have hq0 : 0 < q := by linarith
    have hqf : q * f * (1 - ε) ≤ v := by
      rw [← hvc]; nlinarith
    have hqf' : v ≤ q * f * (1 + ε) := by
      rw [← hvc]; nlinarith
    have hqf0 : 0 < q * f := by positivity
    constructor
    · have : q * f * (1 - ε) ≤ s * f := by nlinarith
      nlinarith
    · have : s * f ≤ q * f * (1 + ε) := by nlinarith
      nlinarith
  refine ⟨s, hs, key, hs1, ?_⟩
  obtain ⟨-, this⟩ := abs_le.1 key
  linarith

/-- **C71** (bytes): every rate of at least one byte per hour is shown with the largest unit not larger than it, and the shown
number times that unit is the rate, up to a relative error of `2^-51`; lower rates are shown as bytes per second, without
decimals. -/
theorem C71_bytes_per_second (N : NumText) (v : ℝ) (hv : IsF64 v) :
    (1 / 3600 ≤ v → ∃ u shown, LargestUnit byteRateUnits v u ∧
      (bytesPerSecondMeasurement (E64) (fin v)).display (E64) N = .ok (N.dec u.decimals (fin shown) ++ u.name) ∧
      |shown * u.factor - v| ≤ v * 2 ^ (-51 : ℤ) ∧ 1 ≤ shown ∧ (shown < 1024 ∨ u.name = "TiB/s")) ∧
    (v < 1 / 3600 * (1 - 2 ^ (-53 : ℤ)) →
      (bytesPerSecondMeasurement (E64) (fin v)).display (E64) N = .ok (N.dec 0 (fin v) ++ "b/s")) := by
  have h40 : (E64).ofNat (2 ^ 40) = fin (2 ^ 40) := by rw [f64_ofNat]; · norm_num
                                                       · norm_num
  have h30 : (E64).ofNat (2 ^ 30) = fin (2 ^ 30) := by rw [f64_ofNat]; · norm_num
                                                       · norm_num
  have h20 : (E64).ofNat (2 ^ 20) = fin (2 ^ 20) := by rw [f64_ofNat]; · norm_num
                                                       · norm_num
  have h10 : (E64).ofNat (2 ^ 10) = fin (2 ^ 10) := by rw [f64_ofNat]; · norm_num
                                                       · norm_num
  obtain ⟨cm, hm, hme, hm0, hm1⟩ := f64_recip log2 powi powf tol 60 (by norm_num) (by norm_num)
  obtain ⟨ch, hh, hhe, hh0, hh1⟩ := f64_recip log2 powi powf tol 3600 (by norm_num) (by norm_num)
  push_cast at hm hme hh hhe
  have hch : ch < cm := by
    have a := (abs_le.1 hme).1
    have b := (abs_le.1 hhe).2
    norm_num at a b; linarith
  -- a binary64 that reaches the exact threshold reaches the rounded one
  have reach : ∀ (n : ℕ) (c : ℝ), 1 < n → (E64).div (fin 1) (fin n) = fin c → 1 / (n:ℝ) ≤ v → c ≤ v := by
    intro n c hn hc hle
    have hn0 : (0:ℝ) < n := by exact_mod_cast (by omega : 0 < n)
    rw [div_fin_fin_pos (by norm_num) hn0.ne'] at hc
    have h0 : 0 < v := lt_of_lt_of_le (by positivity) hle
    have hr : binary64.round v = fin v := by
      rcases hv.2 with h | h
      · exact absurd h h0.ne'
      · exact h
    have := Format.round_mono Format.ok64 hle
    rw [hr] at this
    have hc' : binary64.round (1 / n) = fin c := hc
    rw [hc'] at this
    simpa using this
  have rm := reach 60 cm (by norm_num) (by exact_mod_cast hm)
  have rh := reach 3600 ch (by norm_num) (by exact_mod_cast hh)
  push_cast at rm rh
  unfold Presented.display Presented.select bytesPerSecondMeasurement LargestUnit
  have ncm : ¬ cm = 0 := hm0.ne'
  have nch : ¬ ch = 0 := hh0.ne'
  rw [h40, h30, h20, h10, hm, hh]
  simp only [selfScaled_fin ncm, selfScaled_fin nch, selfScaled_zero, selfScaled_fin one_ne_zero, selfScaled_fin (show (2:ℝ) ^ 40 ≠ 0 by norm_num), selfScaled_fin (show (2:ℝ) ^ 30 ≠ 0 by norm_num), selfScaled_fin (show (2:ℝ) ^ 20 ≠ 0 by norm_num), selfScaled_fin (show (2:ℝ) ^ 10 ≠ 0 by norm_num),  List.find?_cons, F.fin_le_fin, byteRateUnits]
  have exact_ok : ∀ (f : ℝ), 0 < f → |v / f * f - v| ≤ v * 2 ^ (-51:ℤ) := by
    intro f hf
    rw [div_mul_cancel₀ v hf.ne', sub_self, abs_zero]
    exact mul_nonneg hv.1 (Format.two_zpow_pos _).le
  constructor
  · intro hmin
    by_cases c4 : (2:ℝ) ^ 40 ≤ v
    · refine ⟨⟨2 ^ 40, "TiB/s", 2⟩, v / 2 ^ 40, ⟨by simp, ?_⟩, ?_, exact_ok _ (by positivity), ?_, Or.inr rfl⟩
      · intro w hw _; simp at hw; rcases hw with rfl | rfl | rfl | rfl | rfl | rfl | rfl <;> norm_num
      · simp [c4, f64_div_pow2 log2 powi powf tol hv 40 le_rfl c4]
      · rw [le_div_iff₀ (by positivity)]; simpa using c4
    by_cases c3 : (2:ℝ) ^ 30 ≤ v
    · refine ⟨⟨2 ^ 30, "GiB/s", 2⟩, v / 2 ^ 30, ⟨by simp, ?_⟩, ?_, exact_ok _ (by positivity), ?_, Or.inl ?_⟩
      · intro w hw hle; simp at hw; rcases hw with rfl | rfl | rfl | rfl | rfl | rfl | rfl <;> first | exact absurd hle c4 | norm_num
      · simp [c4, c3, f64_div_pow2 log2 powi powf tol hv 30 (by norm_num) c3]
      · rw [le_div_iff₀ (by positivity)]; simpa using c3
      · rw [div_lt_iff₀ (by positivity)]; norm_num at c4 ⊢; linarith
    by_cases c2 : (2:ℝ) ^ 20 ≤ v
    · refine ⟨⟨2 ^ 20, "MiB/s", 2⟩, v / 2 ^ 20, ⟨by simp, ?_⟩, ?_, exact_ok _ (by positivity), ?_, Or.inl ?_⟩
      · intro w hw hle; simp at hw; rcases hw with rfl | rfl | rfl | rfl | rfl | rfl | rfl <;> first | exact absurd hle c4 | exact absurd hle c3 | norm_num
      · simp [c4, c3, c2, f64_div_pow2 log2 powi powf tol hv 20 (by norm_num) c2]
      · rw [le_div_iff₀ (by positivity)]; simpa using c2
      · rw [div_lt_iff₀ (by positivity)]; norm_num at c3 ⊢; linarith
    by_cases c1 : (2:ℝ) ^ 10 ≤ v
    · refine ⟨⟨2 ^ 10, "KiB/s", 2⟩, v / 2 ^ 10, ⟨by simp, ?_⟩, ?_, exact_ok _ (by positivity), ?_, Or.inl ?_⟩
      · intro w hw hle; simp at hw
        rcases hw with rfl | rfl | rfl | rfl | rfl | rfl | rfl <;> first | exact absurd hle c4 | exact absurd hle c3 | exact absurd hle c2 | norm_num
      · simp [c4, c3, c2, c1, f64_div_pow2 log2 powi powf tol hv 10 (by norm_num) c1]
      · rw [le_div_iff₀ (by positivity)]; simpa using c1
      · rw [div_lt_iff₀ (by positivity)]; norm_num at c2 ⊢; linarith
    by_cases c0 : (1:ℝ) ≤ v
    · refine ⟨⟨1, "b/s", 2⟩, v, ⟨by simp, ?_⟩, ?_, by simpa using exact_ok 1 one_pos, c0, Or.inl ?_⟩
      · intro w hw hle; simp at hw
        rcases hw with rfl | rfl | rfl | rfl | rfl | rfl | rfl <;>
          first | exact absurd hle c4 | exact absurd hle c3 | exact absurd hle c2 | exact absurd hle c1 | norm_num
      · simp [c4, c3, c2, c1, c0, f64_div_one log2 powi powf tol hv]
      · norm_num at c1 ⊢; linarith
    by_cases b1 : cm ≤ v
    · obtain ⟨s, hs, hse, hs1, hs2⟩ := f64_div_rounded log2 powi powf tol (by norm_num) hme b1 (not_le.1 c0).le (by norm_num) hm0
      refine ⟨⟨1 / 60, "b/min", 2⟩, s, ⟨by simp, ?_⟩, ?_, hse, hs1, Or.inl ?_⟩
      · intro w hw hle; simp at hw
        rcases hw with rfl | rfl | rfl | rfl | rfl | rfl | rfl <;>
          first | exact absurd hle c4 | exact absurd hle c3 | exact absurd hle c2 | exact absurd hle c1 | exact absurd hle c0 | norm_num
      · simp [c4, c3, c2, c1, c0, b1, hs]
      · have := not_le.1 c0; norm_num at hs2; linarith
    · have b2 : ch ≤ v := rh hmin
      have b3 : ¬ (1/60:ℝ) ≤ v := fun h => b1 (rm h)
      obtain ⟨s, hs, hse, hs1, hs2⟩ := f64_div_rounded log2 powi powf tol (by norm_num) hhe b2 (not_le.1 c0).le (by norm_num) hh0
      refine ⟨⟨1 / 3600, "b/hr", 2⟩, s, ⟨by simp, ?_⟩, ?_, hse, hs1, Or.inl ?_⟩
      · intro w hw hle; simp only [List.mem_cons, List.not_mem_nil, or_false] at hw
        rcases hw with rfl | rfl | rfl | rfl | rfl | rfl | rfl <;>
          first | exact absurd hle c4 | exact absurd hle c3 | exact absurd hle c2 | exact absurd hle c1 | exact absurd hle c0 | exact absurd hle b3 | norm_num
      · simp [c4, c3, c2, c1, c0, b1, b2, hs]
      · have := not_le.1 b3; norm_num at hs2 this; linarith
  · intro hlt
    have b2 : ¬ ch ≤ v := by
      intro h
      have := (abs_le.1 hhe).1
      nlinarith
    have b1 : ¬ cm ≤ v := fun h => b2 (hch.le.trans h)
    have c0 : ¬ (1:ℝ) ≤ v := fun h => b1 (hm1.le.trans h)
    have c1 : ¬ (2:ℝ)^10 ≤ v := fun h => c0 (le_trans (by norm_num) h)
    have c2 : ¬ (2:ℝ)^20 ≤ v := fun h => c0 (le_trans (by norm_num) h)
    have c3 : ¬ (2:ℝ)^30 ≤ v := fun h => c0 (le_trans (by norm_num) h)
    have c4 : ¬ (2:ℝ)^40 ≤ v := fun h => c0 (le_trans (by norm_num) h)
    simp [c4, c3, c2, c1, c0, b1, b2, hv.1, f64_div_one log2 powi powf tol hv]

/-- **C71** (custom units): rates of at least one per hour and below 100000 per second are shown with the largest of the units
per hour, per minute and per second that is not larger than the rate, and the shown number times the unit is the rate up to a
relative error of `2^-51`; larger rates are shown per second in scientific notation, and lower ones per second without
decimals. -/
theorem C71_custom_per_second (N : NumText) (unit : String) (v : ℝ) (hv : IsF64 v) :
    (1 / 3600 ≤ v → v < 100000 → ∃ u shown, LargestUnit (rateUnits unit) v u ∧
      (Presented.mk (fin v) (customPerSecondTable (E64) unit)).display (E64) N = .ok (N.dec u.decimals (fin shown) ++ u.name) ∧
      |shown * u.factor - v| ≤ v * 2 ^ (-51 : ℤ) ∧ 1 ≤ shown) ∧
    (100000 ≤ v → (Presented.mk (fin v) (customPerSecondTable (E64) unit)).display (E64) N = .ok (N.exp3 (fin v) ++ (unit ++ "/s"))) ∧
    (v < 1 / 3600 * (1 - 2 ^ (-53 : ℤ)) →
      (Presented.mk (fin v) (customPerSecondTable (E64) unit)).display (E64) N = .ok (N.dec 0 (fin v) ++ (unit ++ "/s"))) := by
  obtain ⟨cm, hm, hme, hm0, hm1⟩ := f64_recip log2 powi powf tol 60 (by norm_num) (by norm_num)
  obtain ⟨ch, hh, hhe, hh0, hh1⟩ := f64_recip log2 powi powf tol 3600 (by norm_num) (by norm_num)
  push_cast at hm hme hh hhe
  have hch : ch < cm := by
    have a := (abs_le.1 hme).1
    have b := (abs_le.1 hhe).2
    norm_num at a b; linarith
  have reach : ∀ (n : ℕ) (c : ℝ), 1 < n → (E64).div (fin 1) (fin n) = fin c → 1 / (n:ℝ) ≤ v → c ≤ v := by
    intro n c hn hc hle
    have hn0 : (0:ℝ) < n := by exact_mod_cast (by omega : 0 < n)
    rw [div_fin_fin_pos (by norm_num) hn0.ne'] at hc
    have h0 : 0 < v := lt_of_lt_of_le (by positivity) hle
    have hr : binary64.round v = fin v := by
      rcases hv.2 with h | h
      · exact absurd h h0.ne'
      · exact h
    have := Format.round_mono Format.ok64 hle
    rw [hr] at this
    have hc' : binary64.round (1 / n) = fin c := hc
    rw [hc'] at this
    simpa using this
  have rm := reach 60 cm (by norm_num) (by exact_mod_cast hm)
  have rh := reach 3600 ch (by norm_num) (by exact_mod_cast hh)
  push_cast at rm rh
  unfold Presented.display Presented.select customPerSecondTable LargestUnit
  rw [hm, hh]
  simp only [List.find?_cons, F.fin_le_fin, rateUnits]
  refine ⟨?_, ?_, ?_⟩
  · intro hmin hmax
    have c5 : ¬ (100000:ℝ) ≤ v := not_le.2 hmax
    by_cases c0 : (1:ℝ) ≤ v
    · refine ⟨⟨1, unit ++ "/s", 2⟩, v, ⟨by simp, ?_⟩, ?_, ?_, c0⟩
      · intro w hw hle; simp at hw; rcases hw with rfl | rfl | rfl <;> norm_num
      · simp [c5, c0, f64_div_one log2 powi powf tol hv]
      · simp only [mul_one, sub_self, abs_zero]
        exact mul_nonneg hv.1 (Format.two_zpow_pos _).le
    by_cases b1 : cm ≤ v
    · obtain ⟨s, hs, hse, hs1, hs2⟩ := f64_div_rounded log2 powi powf tol (by norm_num) hme b1 (not_le.1 c0).le (by norm_num) hm0
      refine ⟨⟨1 / 60, unit ++ "/min", 2⟩, s, ⟨by simp, ?_⟩, ?_, hse, hs1⟩
      · intro w hw hle; simp at hw; rcases hw with rfl | rfl | rfl <;> first | exact absurd hle c0 | norm_num
      · simp [c5, c0, b1, hs]
    · have b2 : ch ≤ v := rh hmin
      have b3 : ¬ (1/60:ℝ) ≤ v := fun h => b1 (rm h)
      obtain ⟨s, hs, hse, hs1, hs2⟩ := f64_div_rounded log2 powi powf tol (by norm_num) hhe b2 (not_le.1 c0).le (by norm_num) hh0
      refine ⟨⟨1 / 3600, unit ++ "/hr", 2⟩, s, ⟨by simp, ?_⟩, ?_, hse, hs1⟩
      · intro w hw hle; simp only [List.mem_cons, List.not_mem_nil, or_false] at hw
        rcases hw with rfl | rfl | rfl <;> first | exact absurd hle c0 | exact absurd hle b3 | norm_num
      · simp [c5, c0, b1, b2, hs]
  · intro h
    simp [h, f64_div_one log2 powi powf tol hv]
  · intro hlt
    have b2 : ¬ ch ≤ v := by
      intro h
      have := (abs_le.1 hhe).1
      nlinarith
    have b1 : ¬ cm ≤ v := fun h => b2 (hch.le.trans h)
    have c0 : ¬ (1:ℝ) ≤ v := fun h => b1 (hm1.le.trans h)
    have c5 : ¬ (100000:ℝ) ≤ v := fun h => c0 (le_trans (by norm_num) h)
    simp [c5, c0, b1, b2, hv.1, f64_div_one log2 powi powf tol hv]

/-! ## C78: custom units are not scaled -/

/-- **C78.** A quantity of a custom unit is shown unscaled, followed by the unit: in scientific notation from 100000 on, with two
decimals from 1 on, without decimals below. -/
theorem C78_custom_unit (N : NumText) (unit : String) (v : ℝ) (hv : IsF64 v) :
    (Presented.mk (fin v) (customTable unit)).display (E64) N =
      .ok ((if 100000 ≤ v then N.exp3 (fin v) else if 1 ≤ v then N.dec 2 (fin v) else N.dec 0 (fin v)) ++ unit) := by
  unfold Presented.display Presented.select customTable
  simp only [List.find?_cons, F.fin_le_fin]
  by_cases c5 : (100000:ℝ) ≤ v
  · simp [c5, f64_div_one log2 powi powf tol hv]
  by_cases c0 : (1:ℝ) ≤ v
  · simp [c5, c0, f64_div_one log2 powi powf tol hv]
  · simp [c5, c0, hv.1, f64_div_one log2 powi powf tol hv]

/-! ## C72: the unit -/

/-- the suffix for a missing unit -/
def missingUnit : String := "<missing_unit_suffix_please_fix>"

open Classical in
theorem select_suffix {E : FloatEnv} {m : Presented} {e : ScaleEntry} (he : e ∈ m.autoScale) (hle : e.threshold ≤ m.value) :
    ∃ e ∈ m.autoScale, (m.select E).2.1 = e.suffix := by
  unfold Presented.select
  cases h : m.autoScale.find? (fun e => decide (e.threshold ≤ m.value)) with
  | none =>
    rw [List.find?_eq_none] at h
    exact absurd hle (by simpa using h e he)
  | some e => exact ⟨e, List.mem_of_find?_eq_some h, rfl⟩

open Classical in
theorem select_missing {E : FloatEnv} {m : Presented} (h : ∀ e ∈ m.autoScale, ¬ e.threshold ≤ m.value) :
    m.select E = (m.value, missingUnit, ":.2") := by
  unfold Presented.select
  have : m.autoScale.find? (fun e => decide (e.threshold ≤ m.value)) = none := by
    rw [List.find?_eq_none]; simpa using h
  rw [this]; rfl

/-- every table of units ends with an entry for 0, and no threshold is negative -/
theorem tables_from_zero (v : F) (unit : String) :
    ∀ m ∈ [bytesMeasurement (E64) v, bytesPerSecondMeasurement (E64) v, Presented.mk v (customTable unit),
        Presented.mk v (customPerSecondTable (E64) unit)],
      m.value = v ∧ (∃ e ∈ m.autoScale, e.threshold = fin 0) ∧ (∀ e ∈ m.autoScale, ∃ t : ℝ, e.threshold = fin t ∧ 0 ≤ t) := by
  have h40 : (E64).ofNat (2 ^ 40) = fin (2 ^ 40) := by rw [f64_ofNat]; · norm_num
                                                       · norm_num
  have h30 : (E64).ofNat (2 ^ 30) = fin (2 ^ 30) := by rw [f64_ofNat]; · norm_num
                                                       · norm_num
  have h20 : (E64).ofNat (2 ^ 20) = fin (2 ^ 20) := by rw [f64_ofNat]; · norm_num
                                                       · norm_num
  have h10 : (E64).ofNat (2 ^ 10) = fin (2 ^ 10) := by rw [f64_ofNat]; · norm_num
                                                       · norm_num
  obtain ⟨cm, hm, -, hm0, -⟩ := f64_recip log2 powi powf tol 60 (by norm_num) (by norm_num)
  obtain ⟨ch, hh, -, hh0, -⟩ := f64_recip log2 powi powf tol 3600 (by norm_num) (by norm_num)
  push_cast at hm hh
  intro m hmem
  simp only [List.mem_cons, List.not_mem_nil, or_false] at hmem
  rcases hmem with rfl | rfl | rfl | rfl
  · refine ⟨rfl, ⟨selfScaled (fin 0) "b" ":.0", by simp [bytesMeasurement], rfl⟩, ?_⟩
    intro e he
    unfold bytesMeasurement at he
    rw [h40, h30, h20, h10] at he
    simp only [List.mem_cons, List.not_mem_nil, or_false] at he
    rcases he with rfl | rfl | rfl | rfl | rfl | rfl <;> exact ⟨_, rfl, by norm_num⟩
  · refine ⟨rfl, ⟨selfScaled (fin 0) "b/s" ":.0", by simp [bytesPerSecondMeasurement], rfl⟩, ?_⟩
    intro e he
    unfold bytesPerSecondMeasurement at he
    rw [h40, h30, h20, h10, hm, hh] at he
    simp only [List.mem_cons, List.not_mem_nil, or_false] at he
    rcases he with rfl | rfl | rfl | rfl | rfl | rfl | rfl | rfl <;> refine ⟨_, rfl, ?_⟩ <;> first | exact hm0.le | exact hh0.le | norm_num
  · refine ⟨rfl, ⟨⟨fin 0, fin 1, unit, ":.0"⟩, by simp [customTable], rfl⟩, ?_⟩
    intro e he
    simp only [customTable, List.mem_cons, List.not_mem_nil, or_false] at he
    rcases he with rfl | rfl | rfl <;> exact ⟨_, rfl, by norm_num⟩
  · refine ⟨rfl, ⟨⟨fin 0, fin 1, unit ++ "/s", ":.0"⟩, by simp [customPerSecondTable], rfl⟩, ?_⟩
    intro e he
    simp only [customPerSecondTable, hm, hh, List.mem_cons, List.not_mem_nil, or_false] at he
    rcases he with rfl | rfl | rfl | rfl | rfl <;> refine ⟨_, rfl, ?_⟩ <;> first | exact hm0.le | exact hh0.le | norm_num

/-- **C72** (partial: the claim is for every value; it holds for those that are not negative). All self-scaling measurements
of a value that is not negative, including infinity and the negative zero, are shown with a unit of their table. -/
theorem C72_unit_shown_partial (v : F) (hv : fin 0 ≤ v) (unit : String) :
    ∀ m ∈ [bytesMeasurement (E64) v, bytesPerSecondMeasurement (E64) v, Presented.mk v (customTable unit),
        Presented.mk v (customPerSecondTable (E64) unit)],
      ∃ e ∈ m.autoScale, (m.select (E64)).2.1 = e.suffix := by
  intro m hm
  obtain ⟨h1, ⟨e, he, h2⟩, -⟩ := tables_from_zero log2 powi powf tol v unit m hm
  exact select_suffix he (by rw [h1, h2]; exact hv)

/-- **C72 is false in general**: negative values and NaN are shown with a text that asks for a fix in place of the unit. -/
theorem C72_no_unit_for_negatives (N : NumText) (v : F) (hv : ¬ fin 0 ≤ v) (unit : String) :
    ∀ m ∈ [bytesMeasurement (E64) v, bytesPerSecondMeasurement (E64) v, Presented.mk v (customTable unit),
        Presented.mk v (customPerSecondTable (E64) unit)],
      m.display (E64) N = .ok (N.dec 2 v ++ "<missing_unit_suffix_please_fix>") := by
  intro m hm
  obtain ⟨h1, -, h3⟩ := tables_from_zero log2 powi powf tol v unit m hm
  have : m.select (E64) = (m.value, missingUnit, ":.2") := by
    apply select_missing
    intro e he hle
    obtain ⟨t, ht, h0⟩ := h3 e he
    rw [ht, h1] at hle
    apply hv
    rw [F.le_def] at hle ⊢
    refine ⟨trivial, hle.2.1, le_trans ?_ hle.2.2⟩
    simpa using h0
  unfold Presented.display
  rw [this, h1]
  rfl

/-- the same for the measurement made by `Default`, whose value is 0 -/
theorem C72_no_unit_for_default (N : NumText) :
    Presented.default.display (E64) N = .ok (N.dec 2 (fin 0) ++ "<missing_unit_suffix_please_fix>") := rfl

-- a negative number and NaN
example : ¬ fin 0 ≤ fin (-1) ∧ ¬ fin 0 ≤ F.nan ∧ ¬ fin 0 ≤ F.inf true := by
  refine ⟨by simp, by simp, by simp [F.le_def]⟩

-- the values of `C72_unit_shown_partial`
example : fin 0 ≤ fin 3 ∧ fin 0 ≤ F.nzero ∧ fin 0 ≤ F.inf false := by
  refine ⟨by simp, by simp [F.le_def], by simp [F.le_def]⟩

/-! ## C77: durations -/

/-- **C77.** A duration below 2^51 ns (26 days) is shown as it was measured: the conversions to seconds and back lose nothing. -/
theorem C77_durations_exact (N : NumText) (d : Duration) (hd : d < 2 ^ 51) :
    (durationMeasurement (E64) d).display (E64) N = .ok (N.dur d) := by
  have key : ∃ z : ℝ, asSecsF64 (E64) d = fin z ∧ IsF64 z ∧ |z * 10 ^ 9 - d| < 1 / 2 := by
    rcases Nat.eq_zero_or_pos d with rfl | hd0
    · refine ⟨0, ?_, ⟨le_rfl, Or.inl rfl⟩, by simp⟩
      have h9 : ¬ (10:ℝ) ^ 9 < 0 := by norm_num
      simp [asSecsF64, FloatEnv.ofNat, FloatEnv.rnd0, FloatEnv.div, FloatEnv.divFin, FloatEnv.addNonneg, F.zero, Xor, h9]
    have hsec : d / 10 ^ 9 ≤ 2 ^ 53 := by
      have : d / 10 ^ 9 ≤ d := Nat.div_le_self _ _
      have h2 : (2:ℕ) ^ 51 ≤ 2 ^ 53 := by norm_num
      exact le_trans this (le_trans (le_of_lt hd) h2)
    have hns : d % 10 ^ 9 < 10 ^ 9 := Nat.mod_lt _ (by norm_num)
    have hns' : d % 10 ^ 9 ≤ 2 ^ 53 := le_of_lt (lt_of_lt_of_le hns (by norm_num))
    have hsplit : ((d / 10 ^ 9 : ℕ) : ℝ) * 10 ^ 9 + ((d % 10 ^ 9 : ℕ) : ℝ) = (d : ℝ) := by
      exact_mod_cast Nat.div_add_mod' d (10 ^ 9)
    have hd' : (d : ℝ) < 2 ^ 51 := by exact_mod_cast hd
    have hd1 : (1 : ℝ) ≤ d := by exact_mod_cast hd0
    unfold asSecsF64
    rw [f64_ofNat _ _ _ _ hsec, f64_ofNat _ _ _ _ hns']
    have hs0 : (0:ℝ) ≤ ((d / 10 ^ 9 : ℕ) : ℝ) := Nat.cast_nonneg _
    have hn0 : (0:ℝ) ≤ ((d % 10 ^ 9 : ℕ) : ℝ) := Nat.cast_nonneg _
    have hnlt : ((d % 10 ^ 9 : ℕ) : ℝ) < 10 ^ 9 := by exact_mod_cast hns
    have hnint : ((d % 10 ^ 9 : ℕ) : ℝ) = 0 ∨ (1:ℝ) ≤ ((d % 10 ^ 9 : ℕ) : ℝ) := by
      rcases Nat.eq_zero_or_pos (d % 10 ^ 9) with h | h
      · left; rw [h]; exact Nat.cast_zero
      · right; exact_mod_cast h
    generalize ((d / 10 ^ 9 : ℕ) : ℝ) = s at *
    generalize ((d % 10 ^ 9 : ℕ) : ℝ) = n at *
    have ε0 : (0:ℝ) < 2 ^ (-53:ℤ) := Format.two_zpow_pos _
    -- the nanoseconds
    obtain ⟨a, ha, ha0, hae⟩ : ∃ a : ℝ, (E64).div (fin n) (fin (10 ^ 9)) = fin a ∧ 0 ≤ a ∧ |a - n / 10 ^ 9| ≤ n / 10 ^ 9 * 2 ^ (-53:ℤ) := by
      rcases hnint with rfl | h1
      · exact ⟨0, by simp [FloatEnv.div, FloatEnv.divFin, F.zero, Xor], le_rfl, by simp⟩
      · rw [div_fin_fin_pos (by linarith) (by positivity)]
        obtain ⟨a, ha, hae⟩ := C17_relative_error (n / 10 ^ 9) (by
          have h2 : (2:ℝ) ^ (-1022:ℤ) ≤ 2 ^ (-30:ℤ) := Format.zpow_le_iff.2 (by norm_num)
          refine h2.trans ?_
          rw [le_div_iff₀ (by positivity)]
          norm_num; linarith) (by
          have h2 : (1:ℝ) ≤ 2 ^ (1023:ℤ) := one_le_zpow₀ (by norm_num) (by norm_num)
          refine le_trans ?_ h2
          rw [div_le_one (by positivity)]; exact hnlt.le)
        refine ⟨a, ha, ?_, hae⟩
        have h3 := (abs_le.1 hae).1
        have h4 : n / 10 ^ 9 * (2:ℝ) ^ (-53:ℤ) ≤ n / 10 ^ 9 * 1 := mul_le_mul_of_nonneg_left (by norm_num) (by positivity)
        generalize n / 10 ^ 9 * (2:ℝ) ^ (-53:ℤ) = y at *
        linarith
    rw [ha]
    -- the sum
    have hsum : 1 / 2 ≤ (s + a) * 10 ^ 9 ∧ (s + a) * 10 ^ 9 ≤ d * (1 + 2 ^ (-53:ℤ)) ∧ d * (1 - 2 ^ (-53:ℤ)) ≤ (s + a) * 10 ^ 9 := by
      obtain ⟨h3, h4⟩ := abs_le.1 hae
      have h5 : n / 10 ^ 9 * 10 ^ 9 = n := by field_simp
      have h6 : n ≤ d := by linarith
      have h7 : (2:ℝ) ^ (-53:ℤ) ≤ 1 / 2 := by norm_num
      generalize (2:ℝ) ^ (-53:ℤ) = ε at *
      generalize n / 10 ^ 9 = x at *
      subst h5
      have h8 : x * ε * 10 ^ 9 ≤ d * ε := by nlinarith
      refine ⟨by nlinarith, by nlinarith, by nlinarith⟩
    have hpos : 0 < s + a := by
      have := hsum.1
      by_contra hc
      nlinarith [not_lt.1 hc]
    obtain ⟨z, hz, hze⟩ := C17_relative_error (s + a) (by
      have h2 : (2:ℝ) ^ (-1022:ℤ) ≤ 2 ^ (-31:ℤ) := Format.zpow_le_iff.2 (by norm_num)
      refine h2.trans ?_
      have := hsum.1
      norm_num; linarith) (by
      have h2 : (2:ℝ) ^ (52:ℤ) ≤ 2 ^ (1023:ℤ) := Format.zpow_le_iff.2 (by norm_num)
      refine le_trans ?_ h2
      have := hsum.2.1
      have h3 : (d:ℝ) * (1 + 2 ^ (-53:ℤ)) ≤ 2 ^ 51 * 2 := mul_le_mul hd'.le (by norm_num) (by positivity) (by norm_num)
      have h4 : (s + a) ≤ (s + a) * 10 ^ 9 := by nlinarith
      have h5 := h4.trans (this.trans h3)
      norm_num at h5 ⊢; linarith)
    refine ⟨z, ?_, ⟨?_, Or.inr (Format.round_idem Format.ok64 hz)⟩, ?_⟩
    · show (E64).rnd0 (s + a) = _
      unfold FloatEnv.rnd0
      rw [if_neg hpos.ne']; exact hz
    · obtain ⟨h3, h4⟩ := abs_le.1 hze
      have h5 : (s + a) * (2:ℝ) ^ (-53:ℤ) ≤ (s + a) * 1 := mul_le_mul_of_nonneg_left (by norm_num) hpos.le
      generalize (s + a) * (2:ℝ) ^ (-53:ℤ) = y at *
      linarith
    · obtain ⟨h3, h4⟩ := abs_le.1 hze
      obtain ⟨h5, h6, h7⟩ := hsum
      have hdn : (d:ℝ) ≤ 2 ^ 51 - 1 := by
        have h : d + 1 ≤ 2 ^ 51 := hd
        have h' : ((d + 1 : ℕ) : ℝ) ≤ ((2 ^ 51 : ℕ) : ℝ) := Nat.cast_le.2 h
        have e : ((2 ^ 51 : ℕ) : ℝ) = 2 ^ 51 := by norm_num
        rw [e, Nat.cast_add, Nat.cast_one] at h'
        linarith
      have e4 : (2:ℝ) ^ 51 * 2 ^ (-53:ℤ) = 1 / 4 := by norm_num
      have h9 : (2:ℝ) ^ (-53:ℤ) ≤ 1 / 1000 := by norm_num
      generalize (2:ℝ) ^ (-53:ℤ) = ε at *
      have h8 : (d:ℝ) * ε ≤ 1 / 4 - ε := by
        have := mul_le_mul_of_nonneg_right hdn ε0.le
        linarith
      have h10 : (d:ℝ) * ε * ε ≤ ε / 4 := by nlinarith
      have h11 : (s + a) * ε * 10 ^ 9 ≤ d * ε + d * ε * ε := by
        have := mul_le_mul_of_nonneg_right h6 ε0.le
        linarith
      generalize (s + a) * ε = y at *
      rw [abs_lt]
      constructor <;> linarith
  obtain ⟨z, hz, hf, hzd⟩ := key
  have hsel : (durationMeasurement (E64) d).select (E64) = (fin z, "", ":D") := by
    unfold Presented.select durationMeasurement
    rw [hz]
    simp [hf.1, f64_div_one log2 powi powf tol hf]
  have hfloor : halfEven (z * 10 ^ 9) = d := by
    have := hf.1
    exact halfEven_eq hzd (by positivity)
  have hbig : z < 2 ^ 64 := by
    have h1 := (abs_lt.1 hzd).2
    have hd' : (d : ℝ) < 2 ^ 51 := by exact_mod_cast hd
    have e : (2:ℝ) ^ 51 ≤ 2 ^ 64 := by norm_num
    have h2 := hf.1
    have e2 : (10:ℝ) ^ 9 = 1000000000 := by norm_num
    rw [e2] at h1
    by_contra hc
    have h3 : (2:ℝ) ^ 64 ≤ z := not_lt.1 hc
    linarith
  unfold Presented.display
  rw [hsel]
  show (fromSecsF64 (fin z)).map N.dur = _
  have : fromSecsF64 (fin z) = .ok d := by
    show (if 0 ≤ z ∧ z < 2 ^ 64 then _ else _) = _
    rw [if_pos ⟨hf.1, hbig⟩, hfloor]
  rw [this]
  rfl

/-! ## concrete cases -/

theorem isF64_nat {n : ℕ} (h : n ≤ 2 ^ 53) : IsF64 n := ⟨Nat.cast_nonneg _, Or.inr (Format.round_nat Format.ok64 h)⟩

-- 1536 bytes are 1.5 KiB
example (N : NumText) : (bytesMeasurement (E64) (fin 1536)).display (E64) N = .ok (N.dec 2 (fin (3 / 2)) ++ "KiB") := by
  have hf : IsF64 1536 := by exact_mod_cast isF64_nat (n := 1536) (by norm_num)
  obtain ⟨u, ⟨h1, h2⟩, h3, h4, -, h5⟩ := C70_bytes log2 powi powf tol N 1536 hf
  have hu : u = ⟨2 ^ 10, "KiB", 2⟩ := by
    have h6 := h2 ⟨2 ^ 10, "KiB", 2⟩ (by simp [byteUnits]) (by norm_num)
    have h7 := h4 (by norm_num)
    simp only [byteUnits, List.mem_cons, List.not_mem_nil, or_false] at h1
    rcases h1 with rfl | rfl | rfl | rfl | rfl
    · norm_num at h6
    · rfl
    · norm_num at h7
    · norm_num at h7
    · norm_num at h7
  rw [h3, hu]
  norm_num

-- 2048 bytes per second; a rate that needs another unit; a duration
example : IsF64 2048 ∧ (1:ℝ) / 3600 ≤ 2048 ∧ (2048:ℝ) < 100000 := by
  refine ⟨by exact_mod_cast isF64_nat (n := 2048) (by norm_num), by norm_num, by norm_num⟩

example : IsF64 (1 / 4) ∧ (1:ℝ) / 3600 ≤ 1 / 4 := ⟨⟨by norm_num, Or.inr tol25_is_literal⟩, by norm_num⟩

end

/-! ## C73: the caches -/

/-- a cache holds only what the constructor of tables gives -/
def CacheOk (mk : String → List ScaleEntry) (c : ScaleCache) : Prop := ∀ p ∈ c.getD [], p.2 = mk p.1

theorem cachedTable_ok {mk : String → List ScaleEntry} {c : ScaleCache} (h : CacheOk mk c) (u : String) :
    (cachedTable mk c u).1 = mk u ∧ CacheOk mk (cachedTable mk c u).2 := by
  unfold cachedTable
  cases hl : (c.getD []).lookup u with
  | none =>
    refine ⟨rfl, ?_⟩
    intro p hp
    simp only [Option.getD_some, List.mem_cons] at hp
    rcases hp with rfl | hp
    · rfl
    · exact h p hp
  | some t =>
    refine ⟨?_, h⟩
    have : (u, t) ∈ c.getD [] := by
      rw [List.lookup_eq_some_iff] at hl
      obtain ⟨l1, l2, h1, -⟩ := hl
      rw [h1]; simp
    exact h _ this

theorem afterCalls_ok (E : FloatEnv) (l : List UnitCall) (c : ScaleCaches)
    (h : CacheOk customTable c.custom ∧ CacheOk (customPerSecondTable E) c.perSecond) :
    CacheOk customTable (afterCalls E c l).custom ∧ CacheOk (customPerSecondTable E) (afterCalls E c l).perSecond := by
  induction l generalizing c with
  | nil => exact h
  | cons x l ih =>
    cases x with
    | plain v u => exact ih _ ⟨(cachedTable_ok h.1 u).2, h.2⟩
    | perSecond v u => exact ih _ ⟨h.1, (cachedTable_ok h.2 u).2⟩

/-- **C73.** After any history of calls, a measurement of a custom unit (or of it per second) is the one that a first call
would have given: it depends on its value and unit only. -/
theorem C73_caches_transparent (E : FloatEnv) (l : List UnitCall) (v : F) (unit : String) :
    (customUnitMeasurement (afterCalls E .initial l) v unit).1 = (customUnitMeasurement .initial v unit).1 ∧
    (customUnitPerSecondMeasurement E (afterCalls E .initial l) v unit).1 = (customUnitPerSecondMeasurement E .initial v unit).1 ∧
    (customUnitMeasurement .initial v unit).1 = ⟨v, customTable unit⟩ ∧
    (customUnitPerSecondMeasurement E .initial v unit).1 = ⟨v, customPerSecondTable E unit⟩ := by
  have h0 : CacheOk customTable ScaleCaches.initial.custom ∧ CacheOk (customPerSecondTable E) ScaleCaches.initial.perSecond :=
    ⟨fun p hp => by simp [ScaleCaches.initial] at hp, fun p hp => by simp [ScaleCaches.initial] at hp⟩
  have h := afterCalls_ok E l .initial h0
  have e1 := fun c hc => (cachedTable_ok (mk := customTable) (c := c) hc unit).1
  have e2 := fun c hc => (cachedTable_ok (mk := customPerSecondTable E) (c := c) hc unit).1
  unfold customUnitMeasurement customUnitPerSecondMeasurement
  simp only [e1 _ h.1, e2 _ h.2, e1 _ h0.1, e2 _ h0.2, and_self]

-- two units used in turn
example (E : FloatEnv) : (customUnitMeasurement (afterCalls E .initial [.plain (fin 1) "req", .plain (fin 2) "msg", .perSecond (fin 1) "req"])
    (fin 3) "req").1 = ⟨fin 3, customTable "req"⟩ := by
  have h := C73_caches_transparent E [.plain (fin 1) "req", .plain (fin 2) "msg", .perSecond (fin 1) "req"] (fin 3) "req"
  rw [h.1, h.2.2.1]

end BigO
