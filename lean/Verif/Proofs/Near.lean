import Mathlib.Data.Real.Basic
import Mathlib.Tactic.Linarith
import Mathlib.Tactic.Positivity
import Mathlib.Tactic.FieldSimp
import Mathlib.Tactic.Ring
import Mathlib.Tactic.GCongr
import Mathlib.Algebra.Order.Field.Basic

/-! # Relative closeness of positive reals, and crude magnitudes -/
namespace BigO

/-- `a` and `b` are positive and differ by at most the factor `κ ^ k` -/
def Near (κ : ℝ) (k : ℕ) (a b : ℝ) : Prop := 0 < a ∧ 0 < b ∧ a ≤ b * κ ^ k ∧ b ≤ a * κ ^ k

namespace Near
variable {κ : ℝ} {j k : ℕ} {a b c d : ℝ}

theorem refl (h : 0 < a) : Near κ 0 a a := ⟨h, h, by simp, by simp⟩
theorem symm (h : Near κ k a b) : Near κ k b a := ⟨h.2.1, h.1, h.2.2.2, h.2.2.1⟩

theorem mono (hκ : 1 ≤ κ) (h : Near κ j a b) (hk : j ≤ k) : Near κ k a b := by
  obtain ⟨ha, hb, h1, h2⟩ := h
  have : κ ^ j ≤ κ ^ k := pow_le_pow_right₀ hκ hk
  exact ⟨ha, hb, h1.trans (by gcongr), h2.trans (by gcongr)⟩

theorem trans (hκ : 1 ≤ κ) (h : Near κ j a b) (h' : Near κ k b c) : Near κ (j + k) a c := by
  obtain ⟨ha, hb, h1, h2⟩ := h
  obtain ⟨_, hc, h3, h4⟩ := h'
  have hp : 0 < κ := by linarith
  refine ⟨ha, hc, h1.trans ?_, h4.trans ?_⟩
  · rw [pow_add, mul_comm (κ ^ j), ← mul_assoc]; gcongr
  · rw [pow_add, ← mul_assoc]; gcongr

theorem mul (hκ : 1 ≤ κ) (h : Near κ j a b) (h' : Near κ k c d) : Near κ (j + k) (a * c) (b * d) := by
  obtain ⟨ha, hb, h1, h2⟩ := h
  obtain ⟨hc, hd, h3, h4⟩ := h'
  have hp : 0 < κ := by linarith
  refine ⟨by positivity, by positivity, ?_, ?_⟩
  · calc a * c ≤ (b * κ ^ j) * (d * κ ^ k) := by gcongr
      _ = _ := by rw [pow_add]; ring
  · calc b * d ≤ (a * κ ^ j) * (c * κ ^ k) := by gcongr
      _ = _ := by rw [pow_add]; ring

theorem inv (h : Near κ k a b) : Near κ k a⁻¹ b⁻¹ := by
  obtain ⟨ha, hb, h1, h2⟩ := h
  refine ⟨inv_pos.2 ha, inv_pos.2 hb, ?_, ?_⟩
  · rw [inv_mul_eq_div, le_div_iff₀ hb, inv_mul_le_iff₀ ha]; exact h2
  · rw [inv_mul_eq_div, le_div_iff₀ ha, inv_mul_le_iff₀ hb]; exact h1

theorem div (hκ : 1 ≤ κ) (h : Near κ j a b) (h' : Near κ k c d) : Near κ (j + k) (a / c) (b / d) := by
  rw [div_eq_mul_inv, div_eq_mul_inv]; exact h.mul hκ h'.inv

theorem pow (hκ : 1 ≤ κ) (h : Near κ k a b) : ∀ m : ℕ, Near κ (m * k) (a ^ m) (b ^ m)
  | 0 => by simpa using refl (κ := κ) one_pos
  | m + 1 => by
    rw [pow_succ, pow_succ, Nat.succ_mul]; exact (pow hκ h m).mul hκ h

theorem add (h : Near κ k a b) (h' : Near κ k c d) : Near κ k (a + c) (b + d) := by
  obtain ⟨ha, hb, h1, h2⟩ := h
  obtain ⟨hc, hd, h3, h4⟩ := h'
  exact ⟨by positivity, by positivity, by rw [add_mul]; linarith, by rw [add_mul]; linarith⟩

/-- from a relative error -/
theorem of_rel {ε : ℝ} (hb : 0 < b) (h0 : 0 ≤ ε) (h1 : ε ≤ 1 / 2) (hκ : 1 + 2 * ε ≤ κ) (h : |a - b| ≤ b * ε) : Near κ 1 a b := by
  rw [abs_le] at h
  have ha : b * (1 - ε) ≤ a := by linarith
  have hapos : 0 < a := lt_of_lt_of_le (by apply mul_pos hb; linarith) ha
  refine ⟨hapos, hb, ?_, ?_⟩
  · rw [pow_one]
    have : b * (1 + 2 * ε) ≤ b * κ := by gcongr
    nlinarith
  · rw [pow_one]
    calc b ≤ b * ((1 - ε) * (1 + 2 * ε)) := le_mul_of_one_le_right hb.le (by nlinarith)
      _ = b * (1 - ε) * (1 + 2 * ε) := by ring
      _ ≤ a * κ := by gcongr

theorem one_add (hκ : 1 ≤ κ) (h : Near κ k a b) : Near κ k (1 + a) (1 + b) :=
  ((refl one_pos).mono hκ (Nat.zero_le k)).add h

/-- `1 - a` for `a ≤ 1/2` -/
theorem one_sub (hκ : 1 ≤ κ) (hκ' : κ ≤ 5 / 4) (h : Near κ 1 a b) (ha : a ≤ 1 / 2) (hb : b ≤ 1 / 2) : Near κ 2 (1 - a) (1 - b) := by
  have key : ∀ {a b : ℝ}, 0 < a → a ≤ 1 / 2 → b ≤ a * κ → 1 - a ≤ (1 - b) * κ ^ 2 := by
    intro a b h0 h1 h2
    have h3 : (1 - a * κ) * κ ^ 2 ≤ (1 - b) * κ ^ 2 := by gcongr
    refine le_trans ?_ h3
    have e : κ = 1 + (κ - 1) := by ring
    set ε := κ - 1
    have h0 : 0 ≤ ε := by linarith
    have h1' : ε ≤ 1 / 4 := by linarith
    rw [e]
    have : 0 ≤ ε * (2 - 3 * a) + ε ^ 2 * (1 - 3 * a) - a * ε ^ 3 := by
      have a1 : 1 / 2 ≤ 2 - 3 * a := by linarith
      have a2 : -(1/2) ≤ 1 - 3 * a := by linarith
      have t1 : ε / 2 ≤ ε * (2 - 3 * a) := by nlinarith
      have t2 : -(ε ^ 2 / 2) ≤ ε ^ 2 * (1 - 3 * a) := by nlinarith [sq_nonneg ε]
      have t3 : a * ε ^ 3 ≤ ε ^ 3 / 2 := by nlinarith [pow_nonneg h0 3]
      have t4 : ε ^ 2 ≤ ε / 4 := by nlinarith
      have t5 : ε ^ 3 ≤ ε / 4 := by nlinarith [pow_nonneg h0 2]
      linarith
    nlinarith
  obtain ⟨h1, h2, h3, h4⟩ := h
  rw [pow_one] at h3 h4
  exact ⟨by linarith, by linarith, key h1 ha h4, key h2 hb h3⟩

end Near

/-- between `2^-a` and `2^a` -/
def Mag (a : ℕ) (x : ℝ) : Prop := 1 ≤ x * 2 ^ a ∧ x ≤ 2 ^ a

namespace Mag
variable {a b : ℕ} {x y : ℝ}

theorem pos (h : Mag a x) : 0 < x := by
  have : (0:ℝ) < 2 ^ a := by positivity
  by_contra hx
  push Not at hx
  have := mul_nonpos_of_nonpos_of_nonneg hx this.le
  linarith [h.1]

theorem mono (h : Mag a x) (hab : a ≤ b) : Mag b x := by
  have hx := h.pos
  have : (2:ℝ) ^ a ≤ 2 ^ b := pow_le_pow_right₀ (by norm_num) hab
  exact ⟨h.1.trans (by gcongr), h.2.trans this⟩

theorem mul (h : Mag a x) (h' : Mag b y) : Mag (a + b) (x * y) := by
  have hx := h.pos
  have hy := h'.pos
  constructor
  · calc (1:ℝ) ≤ (x * 2 ^ a) * (y * 2 ^ b) := one_le_mul_of_one_le_of_one_le h.1 h'.1
      _ = _ := by rw [pow_add]; ring
  · rw [pow_add]; exact mul_le_mul h.2 h'.2 hy.le (by positivity)

theorem inv (h : Mag a x) : Mag a x⁻¹ := by
  have hx := h.pos
  constructor
  · rw [inv_mul_eq_div, le_div_iff₀ hx, one_mul]; exact h.2
  · rw [inv_le_iff_one_le_mul₀' hx]; exact h.1

theorem div (h : Mag a x) (h' : Mag b y) : Mag (a + b) (x / y) := by
  rw [div_eq_mul_inv]; exact h.mul h'.inv

theorem pow (h : Mag a x) : ∀ m : ℕ, Mag (m * a) (x ^ m)
  | 0 => by simp [Mag]
  | m + 1 => by rw [pow_succ, Nat.succ_mul]; exact (pow h m).mul h

theorem near {κ : ℝ} {k : ℕ} (h : Mag a x) (hn : Near κ k y x) (hκ : κ ^ k ≤ 2) : Mag (a + 1) y := by
  obtain ⟨hy, hx, h1, h2⟩ := hn
  constructor
  · calc (1:ℝ) ≤ x * 2 ^ a := h.1
      _ ≤ (y * κ ^ k) * 2 ^ a := by gcongr
      _ ≤ (y * 2) * 2 ^ a := by gcongr
      _ = _ := by rw [pow_succ]; ring
  · calc y ≤ x * κ ^ k := h1
      _ ≤ 2 ^ a * 2 := mul_le_mul h.2 hκ (by
          by_contra hh; push Not at hh
          have := mul_neg_of_pos_of_neg hx hh
          linarith) (by positivity)
      _ = _ := by rw [pow_succ]

theorem of_le (h1 : 1 ≤ x) (h2 : x ≤ 2 ^ a) : Mag a x :=
  ⟨h1.trans (le_mul_of_one_le_right (by linarith) (one_le_pow₀ (by norm_num))), h2⟩

end Mag
end BigO
