import Verif.Spec.Powers
import Verif.Props.Binary64
import Verif.Props.EndToEnd

/-!
# C17, continued: the accuracy assumed of `powi` follows from its being computed by multiplication
-/
namespace BigO
open F

/-- the relative error of one rounding -/
noncomputable abbrev ulp : ℝ := 2 ^ (-53 : ℤ)

theorem ulp_pow {c : ℕ} (h : c ≤ 8) : 1 - 1 / 2 ^ 48 ≤ (1 - ulp) ^ c ∧ (1 + ulp) ^ c ≤ 1 + 1 / 2 ^ 48 := by
  have u0 : 0 ≤ ulp := by unfold ulp; positivity
  have u1 : ulp ≤ 1 := by unfold ulp; norm_num
  constructor
  · refine le_trans ?_ (pow_le_pow_of_le_one (by linarith) (by linarith) h)
    unfold ulp; norm_num
  · refine le_trans (pow_le_pow_right₀ (by linarith) h) ?_
    unfold ulp; norm_num

theorem power_range {x : ℝ} (h1 : 1 / 2 ^ 64 ≤ x) (h2 : x ≤ 2 ^ 64) {d : ℕ} (h : d ≤ 4) : 1 / 2 ^ 256 ≤ x ^ d ∧ x ^ d ≤ 2 ^ 256 := by
  have h0 : (0 : ℝ) < 1 / 2 ^ 64 := by positivity
  constructor
  · refine le_trans ?_ (pow_le_pow_left₀ h0.le h1 d)
    refine le_trans ?_ (pow_le_pow_of_le_one h0.le (by norm_num) h)
    norm_num
  · refine le_trans (pow_le_pow_left₀ (h0.le.trans h1) h2 d) ?_
    refine le_trans (pow_le_pow_right₀ (by norm_num) h) ?_
    norm_num

/-- `E` rounds as binary64 does -/
def RoundsAs64 (E : FloatEnv) : Prop := E.rnd = binary64.round

theorem mults_near {E : FloatEnv} (hE : RoundsAs64 E) {x : ℝ} (h1 : 1 / 2 ^ 64 ≤ x) (h2 : x ≤ 2 ^ 64) : ∀ e : Mults, e.degree ≤ 4 → e.count ≤ 8 →
    ∃ y : ℝ, e.eval E (fin x) = fin y ∧ x ^ e.degree * (1 - ulp) ^ e.count ≤ y ∧ y ≤ x ^ e.degree * (1 + ulp) ^ e.count := by
  have hx : 0 < x := lt_of_lt_of_le (by positivity) h1
  have u0 : 0 ≤ ulp := by unfold ulp; positivity
  have u1 : ulp < 1 := by unfold ulp; norm_num
  intro e
  induction e with
  | one => exact fun _ _ => ⟨1, rfl, by simp [Mults.degree, Mults.count], by simp [Mults.degree, Mults.count]⟩
  | base => exact fun _ _ => ⟨x, rfl, by simp [Mults.degree, Mults.count], by simp [Mults.degree, Mults.count]⟩
  | mul a b iha ihb =>
    intro hd hc
    simp only [Mults.degree, Mults.count] at hd hc
    obtain ⟨y, ey, ly, uy⟩ := iha (by omega) (by omega)
    obtain ⟨z, ez, lz, uz⟩ := ihb (by omega) (by omega)
    have pa : 0 < x ^ a.degree := pow_pos hx _
    have pb : 0 < x ^ b.degree := pow_pos hx _
    have qa : 0 < (1 - ulp) ^ a.count := pow_pos (by linarith) _
    have qb : 0 < (1 - ulp) ^ b.count := pow_pos (by linarith) _
    have hy : 0 < y := lt_of_lt_of_le (mul_pos pa qa) ly
    have hz : 0 < z := lt_of_lt_of_le (mul_pos pb qb) lz
    have lo : x ^ (a.degree + b.degree) * (1 - ulp) ^ (a.count + b.count) ≤ y * z := by
      calc x ^ (a.degree + b.degree) * (1 - ulp) ^ (a.count + b.count)
          = (x ^ a.degree * (1 - ulp) ^ a.count) * (x ^ b.degree * (1 - ulp) ^ b.count) := by rw [pow_add, pow_add]; ring
        _ ≤ y * z := mul_le_mul ly lz (mul_pos pb qb).le hy.le
    have hi : y * z ≤ x ^ (a.degree + b.degree) * (1 + ulp) ^ (a.count + b.count) := by
      calc y * z ≤ (x ^ a.degree * (1 + ulp) ^ a.count) * (x ^ b.degree * (1 + ulp) ^ b.count) :=
            mul_le_mul uy uz hz.le (mul_nonneg pa.le (pow_nonneg (by linarith) _))
        _ = _ := by rw [pow_add, pow_add]; ring
    obtain ⟨r1, r2⟩ := power_range h1 h2 hd
    obtain ⟨c1, c2⟩ := ulp_pow (c := a.count + b.count) (by omega)
    have n1 : (2 : ℝ) ^ (-1022 : ℤ) ≤ y * z := by
      refine le_trans ?_ lo
      refine le_trans ?_ (mul_le_mul r1 c1 (by norm_num) (by positivity))
      have : (2 : ℝ) ^ (-1022 : ℤ) ≤ 2 ^ (-256 + -1 : ℤ) := zpow_le_zpow_right₀ (by norm_num) (by norm_num)
      refine this.trans ?_
      rw [zpow_add₀ two_ne_zero, zpow_neg, one_div]
      exact mul_le_mul_of_nonneg_left (by norm_num) (inv_nonneg.2 (by positivity))
    have n2 : y * z ≤ 2 ^ (1023 : ℤ) := by
      refine hi.trans ?_
      refine (mul_le_mul r2 c2 (pow_nonneg (by linarith) _) (by positivity)).trans ?_
      have : (2 : ℝ) ^ (256 + 1 : ℤ) ≤ 2 ^ (1023 : ℤ) := zpow_le_zpow_right₀ (by norm_num) (by norm_num)
      refine le_trans ?_ this
      rw [zpow_add₀ two_ne_zero]
      exact mul_le_mul_of_nonneg_left (by norm_num) (by positivity)
    obtain ⟨w, ew, hw⟩ := C17_relative_error (y * z) n1 n2
    have hw' := abs_le.1 hw
    have hu : y * z * 2 ^ (-53 : ℤ) = y * z * ulp := rfl
    rw [hu] at hw'
    refine ⟨w, ?_, ?_, ?_⟩
    · show E.mul (a.eval E (fin x)) (b.eval E (fin x)) = fin w
      rw [ey, ez]
      show E.mulFin (fin y) (fin z) = fin w
      unfold FloatEnv.mulFin
      refine (if_neg (mul_pos hy hz).ne').trans ?_
      rw [hE]
      exact ew
    · simp only [Mults.degree, Mults.count]
      calc x ^ (a.degree + b.degree) * (1 - ulp) ^ (a.count + b.count + 1)
          = (x ^ (a.degree + b.degree) * (1 - ulp) ^ (a.count + b.count)) * (1 - ulp) := by rw [pow_succ]; ring
        _ ≤ y * z * (1 - ulp) := mul_le_mul_of_nonneg_right lo (by linarith)
        _ ≤ w := by linarith [hw'.1]
    · simp only [Mults.degree, Mults.count]
      calc w ≤ y * z * (1 + ulp) := by linarith [hw'.2]
        _ ≤ (x ^ (a.degree + b.degree) * (1 + ulp) ^ (a.count + b.count)) * (1 + ulp) := mul_le_mul_of_nonneg_right hi (by linarith)
        _ = _ := by rw [pow_succ]; ring

/-- **C17** (powers): however the second, third and fourth powers are computed by multiplication (at most eight, each rounded), the result is as
accurate as the theorems about the shipped arithmetic assume. -/
theorem C17_powers_by_multiplication (E : FloatEnv) (hE : RoundsAs64 E) (x : ℝ) (h1 : 1 / 2 ^ 64 ≤ x) (h2 : x ≤ 2 ^ 64) (e : Mults)
    (hd : e.degree ≤ 4) (hc : e.count ≤ 8) :
    ∃ y : ℝ, e.eval E (fin x) = fin y ∧ |y - x ^ e.degree| ≤ x ^ e.degree / 2 ^ 48 := by
  have hx : 0 < x := lt_of_lt_of_le (by positivity) h1
  obtain ⟨y, ey, lo, hi⟩ := mults_near hE h1 h2 e hd hc
  obtain ⟨c1, c2⟩ := ulp_pow hc
  have hp := pow_pos hx e.degree
  refine ⟨y, ey, abs_le.2 ⟨?_, ?_⟩⟩
  · have := (mul_le_mul_of_nonneg_left c1 hp.le).trans lo
    have e1 : x ^ e.degree * (1 - 1 / 2 ^ 48) = x ^ e.degree - x ^ e.degree / 2 ^ 48 := by rw [mul_sub, mul_one, mul_one_div]
    rw [e1] at this
    linarith only [this]
  · have := hi.trans (mul_le_mul_of_nonneg_left c2 hp.le)
    have e1 : x ^ e.degree * (1 + 1 / 2 ^ 48) = x ^ e.degree + x ^ e.degree / 2 ^ 48 := by rw [mul_add, mul_one, mul_one_div]
    rw [e1] at this
    linarith only [this]

/-- how `__powidf2` multiplies -/
theorem powidf2_small (E : FloatEnv) (x : F) :
    powidf2 E x 2 = (Mults.mul .one (.mul .base .base)).eval E x ∧
    powidf2 E x 3 = (Mults.mul (.mul .one .base) (.mul .base .base)).eval E x ∧
    powidf2 E x 4 = (Mults.mul .one (.mul (.mul .base .base) (.mul .base .base))).eval E x := by
  refine ⟨?_, ?_, ?_⟩ <;> simp [powidf2, powidf2Loop, Mults.eval]

/-- **C17** (powers, as compiled): so what the theorems about the shipped arithmetic assume of the library (`AccurateLibrary`) is only assumed of
`log2`: that it is accurate for integers up to 2^34. -/
theorem C17_powi_accurate (log2 : F → F) (powf : F → F → F) (tol : ℝ)
    (hlog : ∀ n : ℕ, 2 ≤ n → n ≤ 2 ^ 34 → ∃ l : ℝ, log2 (fin n) = fin l ∧ |l - Real.logb 2 n| ≤ Real.logb 2 n / 2 ^ 48) (powi₀ : F → ℕ → F) :
    AccurateLibrary log2 (powidf2 (shippedEnv log2 powi₀ powf tol)) := by
  refine ⟨hlog, fun x k h1 h2 hk hk' => ?_⟩
  obtain ⟨e2, e3, e4⟩ := powidf2_small (shippedEnv log2 powi₀ powf tol) (fin x)
  have key := C17_powers_by_multiplication (shippedEnv log2 powi₀ powf tol) rfl x h1 h2
  obtain rfl | rfl | rfl : k = 2 ∨ k = 3 ∨ k = 4 := by omega
  · rw [e2]; exact key _ (by decide) (by decide)
  · rw [e3]; exact key _ (by decide) (by decide)
  · rw [e4]; exact key _ (by decide) (by decide)

/-- the fourth power as LLVM writes it out, `(x * x) * (x * x)`, of 1.5 -/
example (E : FloatEnv) (hE : RoundsAs64 E) : ∃ y : ℝ, E.mul (E.mul (fin (3 / 2)) (fin (3 / 2))) (E.mul (fin (3 / 2)) (fin (3 / 2))) = fin y ∧
    |y - (3 / 2) ^ 4| ≤ (3 / 2) ^ 4 / 2 ^ 48 :=
  C17_powers_by_multiplication E hE (3 / 2) (by norm_num) (by norm_num) (.mul (.mul .base .base) (.mul .base .base)) (by decide) (by decide)

/-- `__powidf2` with an ideal `log2` meets the assumptions -/
example : AccurateLibrary idealLog2 (powidf2 (shippedEnv idealLog2 idealPowi (fun x _ => x) (1 / 10))) :=
  C17_powi_accurate idealLog2 _ _ ideal_library.log2_near _

end BigO
