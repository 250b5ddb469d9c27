import Verif.Spec.ReadBack
import Verif.Model.StdFmt
import Mathlib.Tactic.Common
import Mathlib.Tactic.Linarith
import Mathlib.Tactic.Ring
import Mathlib.Tactic.FieldSimp
import Mathlib.Tactic.Positivity
import Mathlib.Tactic.NormNum

/-! # Reading back what the standard library formats -/
namespace BigO
open F

/-- does not start with a digit -/
def NotDigitHead (l : List Char) : Prop := ∀ c, l.head? = some c → c.isDigit = false

theorem takeWhile_digits {a r : List Char} (ha : ∀ c ∈ a, c.isDigit = true) (hr : NotDigitHead r) :
    (a ++ r).takeWhile Char.isDigit = a ∧ (a ++ r).dropWhile Char.isDigit = r := by
  constructor
  · rw [List.takeWhile_append_of_pos ha]
    cases r with
    | nil => simp
    | cons c r => simp [hr c rfl]
  · rw [List.dropWhile_append_of_pos ha]
    cases r with
    | nil => rfl
    | cons c r => simp [hr c rfl]

theorem read_whole {a r : List Char} (ha : ∀ c ∈ a, c.isDigit = true) (hr : NotDigitHead r) (hd : r.head? ≠ some '.') :
    readNumber (a ++ r) = ((Nat.ofDigitChars 10 a 0 : ℝ), r) := by
  obtain ⟨h1, h2⟩ := takeWhile_digits ha hr
  unfold readNumber
  simp only [h1, h2]
  split
  · simp at hd
  · rfl

theorem read_point {a b r : List Char} (ha : ∀ c ∈ a, c.isDigit = true) (hb : ∀ c ∈ b, c.isDigit = true) (hr : NotDigitHead r) :
    readNumber (a ++ '.' :: (b ++ r)) = ((Nat.ofDigitChars 10 a 0 : ℝ) + (Nat.ofDigitChars 10 b 0 : ℝ) / 10 ^ b.length, r) := by
  obtain ⟨h1, h2⟩ := takeWhile_digits ha (r := '.' :: (b ++ r)) (by intro c h; simp at h; subst h; decide)
  obtain ⟨h3, h4⟩ := takeWhile_digits hb hr
  unfold readNumber
  simp only [h1, h2, h3, h4]

theorem toDigits_digits (n : Nat) : ∀ c ∈ Nat.toDigits 10 n, c.isDigit = true :=
  fun _ h => Nat.isDigit_of_mem_toDigits (by omega) (by omega) h

theorem padZeros_digits (k m : Nat) : ∀ c ∈ padZeros k m, c.isDigit = true := by
  intro c h
  unfold padZeros at h
  rcases List.mem_append.1 h with h | h
  · rw [List.eq_of_mem_replicate h]; decide
  · exact toDigits_digits _ c h

theorem padZeros_length {k m : Nat} (hk : 0 < k) (hm : m < 10 ^ k) : (padZeros k m).length = k := by
  have := (Nat.length_toDigits_le_iff (b := 10) (n := m) (by omega) hk).2 hm
  simp only [padZeros, List.length_append, List.length_replicate]
  omega

theorem padZeros_value (k m : Nat) : Nat.ofDigitChars 10 (padZeros k m) 0 = m := by
  unfold padZeros
  rw [Nat.ofDigitChars_append, Nat.ofDigitChars_replicate_zero, Nat.mul_zero, Nat.ofDigitChars_ten_toDigits]

theorem read_fixed (k m : Nat) {r : List Char} (hr : NotDigitHead r) (hd : r.head? ≠ some '.') :
    readNumber (fixedText k m ++ r) = ((m : ℝ) / 10 ^ k, r) := by
  unfold fixedText
  by_cases hk : k = 0
  · subst hk
    simp only [if_true, List.append_nil, pow_zero, Nat.div_one]
    rw [read_whole (toDigits_digits m) hr hd, Nat.ofDigitChars_ten_toDigits]; simp
  · rw [if_neg hk, List.append_assoc, List.cons_append, read_point (toDigits_digits _) (padZeros_digits _ _) hr]
    have hlt : m % 10 ^ k < 10 ^ k := Nat.mod_lt _ (by positivity)
    rw [padZeros_length (by omega) hlt, padZeros_value, Nat.ofDigitChars_ten_toDigits]
    congr 1
    have h : (m : ℝ) = 10 ^ k * ((m / 10 ^ k : ℕ) : ℝ) + ((m % 10 ^ k : ℕ) : ℝ) := by
      exact_mod_cast (Nat.div_add_mod m (10 ^ k)).symm
    have hp : (0:ℝ) < 10 ^ k := by positivity
    rw [eq_div_iff hp.ne', add_mul, div_mul_cancel₀ _ hp.ne']
    linarith

theorem fracDigits_spec : ∀ (k frac : Nat), frac < 10 ^ k →
    (∀ c ∈ fracDigits k frac, c.isDigit = true) ∧ (fracDigits k frac).length ≤ k ∧
      Nat.ofDigitChars 10 (fracDigits k frac) 0 * 10 ^ (k - (fracDigits k frac).length) = frac := by
  intro k
  induction k with
  | zero => intro frac h; have : frac = 0 := by simpa using h
            subst this; simp [fracDigits]
  | succ k ih =>
    intro frac h
    unfold fracDigits
    by_cases h0 : frac = 0
    · simp [h0]
    rw [if_neg h0]
    have hp : 0 < 10 ^ k := by positivity
    have hd : frac / 10 ^ k < 10 := by
      rw [Nat.div_lt_iff_lt_mul hp]; rw [Nat.pow_succ] at h; omega
    obtain ⟨h1, h2, h3⟩ := ih (frac % 10 ^ k) (Nat.mod_lt _ hp)
    refine ⟨?_, ?_, ?_⟩
    · intro c hc
      rcases List.mem_cons.1 hc with rfl | hc
      · rw [Nat.isDigit_digitChar]; simp [hd]
      · exact h1 c hc
    · simp only [List.length_cons]; omega
    · rw [Nat.ofDigitChars_cons_digitChar_of_lt_ten hd, Nat.ofDigitChars_eq_ofDigitChars_zero, List.length_cons,
        show k + 1 - ((fracDigits k (frac % 10 ^ k)).length + 1) = k - (fracDigits k (frac % 10 ^ k)).length by omega, Nat.add_mul, h3]
      rw [show (10 ^ (fracDigits k (frac % 10 ^ k)).length * (10 * 0 + frac / 10 ^ k)) * 10 ^ (k - (fracDigits k (frac % 10 ^ k)).length) =
        10 ^ ((fracDigits k (frac % 10 ^ k)).length + (k - (fracDigits k (frac % 10 ^ k)).length)) * (frac / 10 ^ k) by
          rw [Nat.pow_add]; ring]
      rw [show (fracDigits k (frac % 10 ^ k)).length + (k - (fracDigits k (frac % 10 ^ k)).length) = k by omega]
      exact Nat.div_add_mod _ _

theorem read_decimal {whole frac k : Nat} (h : frac < 10 ^ k) {u : List Char} (hr : NotDigitHead u) (hd : u.head? ≠ some '.') :
    readNumber (decimalText whole frac k u) = ((whole : ℝ) + (frac : ℝ) / 10 ^ k, u) := by
  unfold decimalText
  by_cases h0 : frac = 0
  · rw [if_pos h0, List.append_nil, read_whole (toDigits_digits _) hr hd, Nat.ofDigitChars_ten_toDigits, h0]; simp
  · obtain ⟨h1, h2, h3⟩ := fracDigits_spec k frac h
    rw [if_neg h0, List.append_assoc, List.cons_append, read_point (toDigits_digits _) h1 hr, Nat.ofDigitChars_ten_toDigits]
    congr 2
    generalize (fracDigits k frac) = l at *
    have h4 : ((Nat.ofDigitChars 10 l 0 : ℕ) : ℝ) * 10 ^ (k - l.length) = frac := by exact_mod_cast h3
    rw [← h4, div_eq_div_iff (by positivity) (by positivity), mul_assoc, ← pow_add, Nat.sub_add_cancel h2]

/-! ## rounding -/

theorem roundTie_near (up : TieRule) {x : ℝ} (hx : 0 ≤ x) : |(roundTie up x : ℝ) - x| ≤ 1 / 2 := by
  have h1 := Nat.floor_le hx
  have h2 := Nat.lt_floor_add_one x
  unfold roundTie
  rw [abs_le]
  split_ifs <;> push_cast <;> constructor <;> linarith

theorem roundTie_best (up : TieRule) {x : ℝ} (hx : 0 ≤ x) (j : ℤ) : |(roundTie up x : ℝ) - x| ≤ |(j : ℝ) - x| := by
  have h1 := Nat.floor_le hx
  have h2 := Nat.lt_floor_add_one x
  rcases le_or_gt j ⌊x⌋₊ with hj | hj
  · have hj' : (j : ℝ) ≤ (⌊x⌋₊ : ℝ) := by exact_mod_cast hj
    rw [abs_of_nonpos (by linarith : (j : ℝ) - x ≤ 0)]
    unfold roundTie
    rw [abs_le]
    split_ifs <;> push_cast <;> constructor <;> linarith
  · have hj' : (⌊x⌋₊ : ℝ) + 1 ≤ j := by exact_mod_cast hj
    rw [abs_of_nonneg (by linarith : (0:ℝ) ≤ (j : ℝ) - x)]
    unfold roundTie
    rw [abs_le]
    split_ifs <;> push_cast <;> constructor <;> linarith

end BigO
