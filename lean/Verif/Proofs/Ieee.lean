import Verif.Spec.Ieee
import Verif.Spec.FloatLaws
import Mathlib.Tactic.Linarith
import Mathlib.Tactic.FieldSimp
import Mathlib.Tactic.Positivity
import Mathlib.Tactic.Ring
import Mathlib.Algebra.Order.Field.Power
import Mathlib.Tactic.NormNum

/-!
# Proofs about IEEE-754 rounding
-/
namespace BigO
open F

/-! ### half-even -/

theorem halfEven_near {z : ℝ} (hz : 0 ≤ z) : |(halfEven z : ℝ) - z| ≤ 1 / 2 := by
  have h1 := Nat.floor_le hz
  have h2 := Nat.lt_floor_add_one z
  unfold halfEven
  rw [abs_le]
  split
  · constructor <;> linarith
  · split
    · push_cast; constructor <;> linarith
    · have : z - ⌊z⌋₊ = 1 / 2 := by linarith
      split
      · constructor <;> linarith
      · push_cast; constructor <;> linarith

theorem halfEven_eq {z : ℝ} {n : ℕ} (h : |z - n| < 1 / 2) (hz : 0 ≤ z) : halfEven z = n := by
  have h1 := abs_le.1 (halfEven_near hz)
  have h2 := abs_lt.1 h
  have h3 : (halfEven z : ℝ) < n + 1 := by linarith
  have h4 : (n : ℝ) < halfEven z + 1 := by linarith
  have h3' : halfEven z < n + 1 := by exact_mod_cast h3
  have h4' : n < halfEven z + 1 := by exact_mod_cast h4
  omega

theorem halfEven_nat (n : ℕ) : halfEven (n : ℝ) = n := halfEven_eq (by simp) (by positivity)

theorem halfEven_ge {z : ℝ} (hz : 0 ≤ z) : ⌊z⌋₊ ≤ halfEven z := by
  unfold halfEven
  split
  · exact le_rfl
  · split
    · omega
    · split <;> omega

theorem halfEven_le {z : ℝ} : halfEven z ≤ ⌊z⌋₊ + 1 := by
  unfold halfEven
  split
  · omega
  · split
    · omega
    · split <;> omega

theorem halfEven_mono {x y : ℝ} (hx : 0 ≤ x) (h : x ≤ y) : halfEven x ≤ halfEven y := by
  have hy : 0 ≤ y := hx.trans h
  have hf : ⌊x⌋₊ ≤ ⌊y⌋₊ := Nat.floor_mono h
  rcases Nat.lt_or_eq_of_le hf with h1 | h1
  · have := halfEven_ge hy
    have := @halfEven_le x
    omega
  · unfold halfEven
    rw [← h1]
    split
    · split
      · exact le_rfl
      · split
        · omega
        · split <;> omega
    · rw [if_neg (show ¬ y - (⌊x⌋₊ : ℝ) < 1 / 2 by linarith)]
      split
      · rw [if_pos (by linarith)]
      · split
        · split <;> omega
        · split <;> omega

/-! ### rounding of magnitudes -/

namespace Format

/-- the formats of the model -/
structure Ok (f : Format) : Prop where
  prec : 1 ≤ f.prec
  emin : f.emin ≤ 0
  emax : (f.prec : ℤ) < f.emax

theorem ok64 : Ok binary64 := ⟨by decide, by decide, by decide⟩
theorem ok32 : Ok binary32 := ⟨by decide, by decide, by decide⟩

variable {f : Format}

theorem two_zpow_pos (k : ℤ) : (0 : ℝ) < 2 ^ k := by positivity

theorem log_lower {x : ℝ} (hx : 0 < x) : (2 : ℝ) ^ Int.log 2 x ≤ x := by
  have := Int.zpow_log_le_self (b := 2) (by norm_num) hx
  exact_mod_cast this

theorem log_upper (x : ℝ) : x < (2 : ℝ) ^ (Int.log 2 x + 1) := by
  have := Int.lt_zpow_succ_log_self (b := 2) (by norm_num) x
  exact_mod_cast this

theorem zpow_lt_iff {a b : ℤ} : (2 : ℝ) ^ a < 2 ^ b ↔ a < b := zpow_lt_zpow_iff_right₀ (by norm_num)
theorem zpow_le_iff {a b : ℤ} : (2 : ℝ) ^ a ≤ 2 ^ b ↔ a ≤ b := zpow_le_zpow_iff_right₀ (by norm_num)

theorem roundMag_nonneg (x : ℝ) : 0 ≤ f.roundMag x := by
  unfold roundMag; positivity

theorem roundMag_zero : f.roundMag 0 = 0 := by
  unfold roundMag
  simp [halfEven]

/-- a multiple of a power of two with at most `prec` bits is its own rounding -/
theorem roundMag_exact {k : ℕ} {q : ℤ} (hk : k < 2 ^ f.prec) (hq : f.emin - (f.prec - 1) ≤ q) :
    f.roundMag (k * 2 ^ q) = k * 2 ^ q := by
  rcases Nat.eq_zero_or_pos k with rfl | hk0
  · simp [roundMag_zero]
  have hpos : (0:ℝ) < k * 2 ^ q := by positivity
  have hlog : Int.log 2 ((k : ℝ) * 2 ^ q) < f.prec + q := by
    rw [← zpow_lt_iff]
    refine lt_of_le_of_lt (log_lower hpos) ?_
    rw [zpow_add₀ (by norm_num)]
    have : (k : ℝ) < 2 ^ f.prec := by exact_mod_cast hk
    rw [zpow_natCast]
    exact mul_lt_mul_of_pos_right this (two_zpow_pos q)
  have hu : f.lastBit (k * 2 ^ q) ≤ q := by unfold lastBit; omega
  obtain ⟨d, hd⟩ := Int.le.dest hu
  unfold roundMag
  generalize f.lastBit ((k : ℝ) * 2 ^ q) = u at *
  have hz : (k : ℝ) * 2 ^ q / 2 ^ u = ((k * 2 ^ d : ℕ) : ℝ) := by
    rw [← hd, zpow_add₀ (by norm_num), zpow_natCast]
    push_cast
    field_simp
  rw [hz, halfEven_nat, ← hz]
  field_simp

/-- rounding is monotone -/
theorem roundMag_mono (hf : Ok f) {x y : ℝ} (hx : 0 ≤ x) (h : x ≤ y) : f.roundMag x ≤ f.roundMag y := by
  rcases hx.eq_or_lt with rfl | hx0
  · rw [roundMag_zero]; exact roundMag_nonneg y
  have hy0 : 0 < y := hx0.trans_le h
  have hl : Int.log 2 x ≤ Int.log 2 y := Int.log_mono_right hx0 h
  have hu : f.lastBit x ≤ f.lastBit y := by unfold lastBit; omega
  rcases hu.eq_or_lt with he | hlt
  · unfold roundMag
    rw [← he]
    apply mul_le_mul_of_nonneg_right _ (two_zpow_pos _).le
    exact_mod_cast halfEven_mono (by positivity) (div_le_div_of_nonneg_right h (two_zpow_pos _).le)
  · -- the power of two between the two binades
    have hey : Int.log 2 y > f.emin := by unfold lastBit at hlt; omega
    have hxy : max (Int.log 2 x) f.emin + 1 ≤ Int.log 2 y := by unfold lastBit at hlt; omega
    have hp := hf.prec
    have h1 : f.roundMag x ≤ 2 ^ (max (Int.log 2 x) f.emin + 1) := by
      have hb : x / 2 ^ f.lastBit x ≤ ((2 ^ f.prec : ℕ) : ℝ) := by
        rw [div_le_iff₀ (two_zpow_pos _)]
        refine (log_upper x).le.trans ?_
        push_cast
        rw [← zpow_natCast, ← zpow_add₀ (by norm_num), zpow_le_iff]
        unfold lastBit; omega
      have := halfEven_mono (by positivity) hb
      rw [halfEven_nat] at this
      unfold roundMag
      have h2 : (halfEven (x / 2 ^ f.lastBit x) : ℝ) ≤ ((2 ^ f.prec : ℕ) : ℝ) := by exact_mod_cast this
      refine (mul_le_mul_of_nonneg_right h2 (two_zpow_pos _).le).trans ?_
      push_cast
      rw [← zpow_natCast, ← zpow_add₀ (by norm_num), zpow_le_iff]
      unfold lastBit; omega
    have h2 : (2:ℝ) ^ (Int.log 2 y) ≤ f.roundMag y := by
      have hb : ((2 ^ (f.prec - 1) : ℕ) : ℝ) ≤ y / 2 ^ f.lastBit y := by
        rw [le_div_iff₀ (two_zpow_pos _)]
        refine le_trans (le_of_eq ?_) (log_lower hy0)
        push_cast
        rw [← zpow_natCast, ← zpow_add₀ (by norm_num)]
        congr 1
        unfold lastBit; omega
      have := halfEven_mono (by positivity) hb
      rw [halfEven_nat] at this
      unfold roundMag
      have h2 : ((2 ^ (f.prec - 1) : ℕ) : ℝ) ≤ (halfEven (y / 2 ^ f.lastBit y) : ℝ) := by exact_mod_cast this
      refine le_trans (le_of_eq ?_) (mul_le_mul_of_nonneg_right h2 (two_zpow_pos _).le)
      push_cast
      rw [← zpow_natCast, ← zpow_add₀ (by norm_num)]
      congr 1
      unfold lastBit; omega
    exact h1.trans ((zpow_le_iff.2 hxy).trans h2)

/-- the result of a rounding has at most `prec` bits -/
theorem roundMag_form (hf : Ok f) {x : ℝ} (hx : 0 ≤ x) :
    ∃ (k : ℕ) (q : ℤ), k < 2 ^ f.prec ∧ f.emin - (f.prec - 1) ≤ q ∧ f.roundMag x = k * 2 ^ q := by
  rcases hx.eq_or_lt with rfl | hx0
  · exact ⟨0, f.emin - (f.prec - 1), by positivity, le_rfl, by simp [roundMag_zero]⟩
  have hp := hf.prec
  have hb : x / 2 ^ f.lastBit x ≤ ((2 ^ f.prec : ℕ) : ℝ) := by
    rw [div_le_iff₀ (two_zpow_pos _)]
    refine (log_upper x).le.trans ?_
    push_cast
    rw [← zpow_natCast, ← zpow_add₀ (by norm_num), zpow_le_iff]
    unfold lastBit; omega
  have hm := halfEven_mono (by positivity) hb
  rw [halfEven_nat] at hm
  have hq : f.emin - (f.prec - 1) ≤ f.lastBit x := by unfold lastBit; omega
  rcases hm.eq_or_lt with he | hlt
  · refine ⟨1, f.lastBit x + f.prec, ?_, by omega, ?_⟩
    · exact Nat.one_lt_two_pow (by omega)
    · unfold roundMag
      rw [he]
      push_cast
      rw [zpow_add₀ (by norm_num), zpow_natCast]
      ring
  · exact ⟨_, _, hlt, hq, rfl⟩

theorem roundMag_idem (hf : Ok f) {x : ℝ} (hx : 0 ≤ x) : f.roundMag (f.roundMag x) = f.roundMag x := by
  obtain ⟨k, q, hk, hq, h⟩ := roundMag_form hf hx
  rw [h, roundMag_exact hk hq]

/-- the error is at most half a unit in the last place -/
theorem roundMag_error {x : ℝ} (hx : 0 ≤ x) : |f.roundMag x - x| ≤ 2 ^ f.lastBit x / 2 := by
  have h := halfEven_near (z := x / 2 ^ f.lastBit x) (by positivity)
  have hp := two_zpow_pos (f.lastBit x)
  have : f.roundMag x - x = (halfEven (x / 2 ^ f.lastBit x) - x / 2 ^ f.lastBit x) * 2 ^ f.lastBit x := by
    unfold roundMag; field_simp
  rw [this, abs_mul, abs_of_pos hp]
  nlinarith

/-- in the normal range the relative error is at most `2 ^ -prec` -/
theorem roundMag_rel {x : ℝ} (hx : (2:ℝ) ^ f.emin ≤ x) : |f.roundMag x - x| ≤ x * 2 ^ (-(f.prec : ℤ)) := by
  have hx0 : 0 < x := (two_zpow_pos _).trans_le hx
  refine (roundMag_error hx0.le).trans ?_
  have hl : f.emin ≤ Int.log 2 x := by
    by_contra hc
    have := log_upper x
    have h2 : (2:ℝ) ^ (Int.log 2 x + 1) ≤ 2 ^ f.emin := zpow_le_iff.2 (by omega)
    linarith
  have hlb : f.lastBit x = Int.log 2 x - (f.prec - 1) := by unfold lastBit; rw [max_eq_left hl]
  rw [hlb]
  have h1 : (2:ℝ) ^ (Int.log 2 x - ((f.prec : ℤ) - 1)) / 2 = 2 ^ (Int.log 2 x) * 2 ^ (-(f.prec:ℤ)) := by
    rw [← zpow_add₀ (by norm_num), div_eq_mul_inv, ← zpow_neg_one, ← zpow_add₀ (by norm_num)]
    congr 1
    ring
  rw [h1]
  exact mul_le_mul_of_nonneg_right (log_lower hx0) (two_zpow_pos _).le

/-- computing a rounding: the binary exponent `e` and the significand `m` are given -/
theorem roundMag_eq {x : ℝ} (e : ℤ) (m : ℕ) (h1 : (2:ℝ) ^ e ≤ x) (h2 : x < 2 ^ (e + 1)) (he : f.emin ≤ e)
    (hm : |x / 2 ^ (e - (f.prec - 1)) - m| < 1 / 2) : f.roundMag x = m * 2 ^ (e - (f.prec - 1)) := by
  have hx0 : 0 < x := (two_zpow_pos _).trans_le h1
  have hlog : Int.log 2 x = e := by
    have a := log_lower hx0
    have b := log_upper x
    have a' : (2:ℝ) ^ Int.log 2 x < 2 ^ (e + 1) := a.trans_lt h2
    have b' : (2:ℝ) ^ e < 2 ^ (Int.log 2 x + 1) := h1.trans_lt b
    rw [zpow_lt_iff] at a' b'
    omega
  have hlb : f.lastBit x = e - (f.prec - 1) := by unfold lastBit; rw [hlog, max_eq_left he]
  unfold roundMag
  rw [hlb, halfEven_eq hm (by positivity)]

/-! ### rounding of reals -/

theorem round_of_mag {x : ℝ} (hx : 0 < x) {y : ℝ} (h : f.roundMag x = y) (hy : y ≠ 0) (hlt : y < 2 ^ (f.emax + 1)) :
    f.round x = fin y := by
  unfold round
  rw [abs_of_pos hx, h, if_neg (not_le.2 hlt), if_neg hy, if_neg (not_lt.2 hx.le)]

theorem round_neg_of_mag {x : ℝ} (hx : 0 < x) {y : ℝ} (h : f.roundMag x = y) (hy : y ≠ 0) (hlt : y < 2 ^ (f.emax + 1)) :
    f.round (-x) = fin (-y) := by
  unfold round
  rw [abs_neg, abs_of_pos hx, h, if_neg (not_le.2 hlt), if_neg hy, if_pos (by linarith)]

theorem round_num (x : ℝ) : (f.round x).isNum := by
  unfold round
  split
  · trivial
  · split
    · unfold zero; split <;> trivial
    · trivial

theorem round_toE_nonneg {x : ℝ} (hx : 0 ≤ x) :
    (f.round x).toE = if 2 ^ (f.emax + 1) ≤ f.roundMag x then ⊤ else ((f.roundMag x : ℝ) : EReal) := by
  unfold round
  rw [abs_of_nonneg hx]
  have hn : ¬ x < 0 := not_lt.2 hx
  split
  · simp [hn, toE]
  · split
    · rename_i h; rw [h]; simp [zero, hn, toE]
    · simp [hn, toE]

theorem round_toE_neg {x : ℝ} (hx : x < 0) :
    (f.round x).toE = if 2 ^ (f.emax + 1) ≤ f.roundMag (-x) then ⊥ else ((-f.roundMag (-x) : ℝ) : EReal) := by
  unfold round
  rw [abs_of_neg hx]
  split
  · simp [hx, toE]
  · split
    · rename_i h; rw [h]; simp [zero, hx, toE]
    · simp [hx, toE]

theorem round_mono (hf : Ok f) {x y : ℝ} (h : x ≤ y) : (f.round x).toE ≤ (f.round y).toE := by
  rcases lt_or_ge x 0 with hx | hx
  · rw [round_toE_neg hx]
    rcases lt_or_ge y 0 with hy | hy
    · rw [round_toE_neg hy]
      have hm := roundMag_mono hf (x := -y) (y := -x) (by linarith) (by linarith)
      split
      · exact bot_le
      · rename_i h1
        rw [if_neg (fun h2 => h1 (h2.trans hm))]
        rw [EReal.coe_le_coe_iff]; linarith
    · rw [round_toE_nonneg hy]
      split
      · exact bot_le
      · split
        · exact le_top
        · rw [EReal.coe_le_coe_iff]
          have := roundMag_nonneg (f := f) (-x)
          have := roundMag_nonneg (f := f) y
          linarith
  · have hy : 0 ≤ y := hx.trans h
    rw [round_toE_nonneg hx, round_toE_nonneg hy]
    have hm := roundMag_mono hf hx h
    split
    · rename_i h1
      rw [if_pos (h1.trans hm)]
    · split
      · exact le_top
      · rw [EReal.coe_le_coe_iff]; exact hm

theorem round_pos {x : ℝ} (hx : 0 < x) : ¬ (f.round x).neg := by
  unfold round
  have hn : ¬ x < 0 := not_lt.2 hx.le
  split
  · simp [hn, F.neg]
  · split
    · simp [zero, hn, F.neg]
    · simp [hn, F.neg, roundMag_nonneg]

theorem round_neg {x : ℝ} (hx : x < 0) : (f.round x).neg := by
  unfold round
  split
  · simp [hx, F.neg]
  · split
    · simp [zero, hx, F.neg]
    · rename_i h
      have : 0 < f.roundMag |x| := lt_of_le_of_ne (roundMag_nonneg _) (Ne.symm h)
      simp [hx, F.neg, this]

theorem round_zero : f.round 0 = fin 0 := by
  unfold round
  rw [abs_zero, roundMag_zero, if_neg (not_le.2 (two_zpow_pos _))]
  simp [zero]

theorem round_nat (hf : Ok f) {n : ℕ} (hn : n ≤ 2 ^ f.prec) : f.round n = fin n := by
  rcases Nat.eq_zero_or_pos n with rfl | h0
  · simpa using round_zero
  have hp := hf.prec
  have he := hf.emin
  have hm : f.roundMag (n : ℝ) = n := by
    rcases hn.eq_or_lt with rfl | hlt
    · have := roundMag_exact (f := f) (k := 1) (q := f.prec) (Nat.one_lt_two_pow (by omega)) (by omega)
      push_cast at this ⊢
      simpa using this
    · have := roundMag_exact (f := f) (k := n) (q := 0) hlt (by omega)
      simpa using this
  refine round_of_mag (by exact_mod_cast h0) hm (by exact_mod_cast h0.ne') ?_
  have h1 : (n : ℝ) ≤ 2 ^ f.prec := by exact_mod_cast hn
  refine h1.trans_lt ?_
  rw [← zpow_natCast, zpow_lt_iff]
  have := hf.emax
  omega

theorem round_idem (hf : Ok f) {x y : ℝ} (h : f.round x = fin y) : f.round y = fin y := by
  unfold round at h
  split at h
  · cases h
  rename_i hlt
  split at h
  · unfold zero at h
    split at h
    · cases h
    · cases h; exact round_zero
  rename_i hne
  have hpos : 0 < f.roundMag |x| := lt_of_le_of_ne (roundMag_nonneg _) (Ne.symm hne)
  have hi := roundMag_idem hf (abs_nonneg x)
  rw [not_le] at hlt
  by_cases hx : x < 0
  · rw [if_pos hx] at h
    have h' := (F.fin.inj h).symm
    subst h'
    exact round_neg_of_mag hpos hi hne hlt
  · rw [if_neg hx] at h
    have h' := (F.fin.inj h).symm
    subst h'
    exact round_of_mag hpos hi hne hlt

/-- exactly representable reals are their own rounding -/
theorem round_exact (hf : Ok f) {k : ℕ} {q : ℤ} (hk : k < 2 ^ f.prec) (hk0 : 0 < k) (hq : f.emin - (f.prec - 1) ≤ q)
    (hq' : q + f.prec ≤ f.emax + 1) : f.round (k * 2 ^ q) = fin (k * 2 ^ q) ∧ f.round (-(k * 2 ^ q)) = fin (-(k * 2 ^ q)) := by
  have hpos : (0:ℝ) < k * 2 ^ q := by positivity
  have hlt : (k : ℝ) * 2 ^ q < 2 ^ (f.emax + 1) := by
    have h1 : (k : ℝ) < 2 ^ f.prec := by exact_mod_cast hk
    refine (mul_lt_mul_of_pos_right h1 (two_zpow_pos q)).trans_le ?_
    rw [← zpow_natCast, ← zpow_add₀ (by norm_num), zpow_le_iff]
    omega
  exact ⟨round_of_mag hpos (roundMag_exact hk hq) hpos.ne' hlt, round_neg_of_mag hpos (roundMag_exact hk hq) hpos.ne' hlt⟩

end Format
end BigO
