import Verif.Proofs.ReadBack
import Verif.Spec.MeasureRead
import Verif.Model.StdFmt

/-!
# Reading back the texts of measurements
-/
namespace BigO
open F

theorem roundTie_mono (up : TieRule) {x y : ℝ} (hx : 0 ≤ x) (h : x ≤ y) : roundTie up x ≤ roundTie up y := by
  have h1 := Nat.floor_le hx
  have h2 := Nat.lt_floor_add_one x
  have h3 := Nat.floor_le (hx.trans h)
  have h4 := Nat.lt_floor_add_one y
  rcases (Nat.floor_le_floor h).eq_or_lt with e | e
  · unfold roundTie
    rw [← e] at h3 h4 ⊢
    split_ifs <;> first | omega | (exfalso; linarith) | (exfalso; rename_i a1 a2 a3 a4 a5; exact a2 (by linarith [not_lt.1 a1]))
  · have a : roundTie up x ≤ ⌊x⌋₊ + 1 := by unfold roundTie; split_ifs <;> omega
    have b : ⌊y⌋₊ ≤ roundTie up y := by unfold roundTie; split_ifs <;> omega
    omega

theorem roundTie_nat (up : TieRule) (n : ℕ) : roundTie up (n : ℝ) = n := by
  unfold roundTie
  simp

theorem roundTie_le_nat (up : TieRule) {x : ℝ} (hx : 0 ≤ x) {n : ℕ} (h : x ≤ n) : (roundTie up x : ℝ) ≤ n := by
  have := roundTie_mono up hx h
  rw [roundTie_nat] at this
  exact_mod_cast this

theorem nat_le_roundTie (up : TieRule) {x : ℝ} {n : ℕ} (h : (n : ℝ) ≤ x) : (n : ℝ) ≤ roundTie up x := by
  have := roundTie_mono up (Nat.cast_nonneg n) h
  rw [roundTie_nat] at this
  exact_mod_cast this

/-- rounding to less than one half below a whole number cannot pass it -/
theorem roundTie_le_of_lt (up : TieRule) {x : ℝ} (hx : 0 ≤ x) {n : ℕ} (h : x < n + 1 / 2) : (roundTie up x : ℝ) ≤ n := by
  have h1 := roundTie_near up hx
  have h2 := (abs_le.1 h1).2
  have h3 : (roundTie up x : ℝ) < (n + 1 : ℕ) := by push_cast; linarith
  have h4 : roundTie up x < n + 1 := by exact_mod_cast h3
  exact_mod_cast Nat.lt_succ_iff.1 h4

/-- the value of a number shown with `k` decimals -/
noncomputable def shownDec (up : TieRule) (k : ℕ) (x : ℝ) : ℝ := (roundTie up (x * 10 ^ k) : ℝ) / 10 ^ k

theorem shownDec_near (up : TieRule) (k : ℕ) {x : ℝ} (hx : 0 ≤ x) : |shownDec up k x - x| ≤ 1 / (2 * 10 ^ k) := by
  have hp : (0:ℝ) < 10 ^ k := by positivity
  have h := roundTie_near up (x := x * 10 ^ k) (by positivity)
  unfold shownDec
  rw [show (roundTie up (x * 10 ^ k) : ℝ) / 10 ^ k - x = ((roundTie up (x * 10 ^ k) : ℝ) - x * 10 ^ k) / 10 ^ k by field_simp,
    abs_div, abs_of_pos hp, div_le_iff₀ hp]
  refine h.trans (le_of_eq ?_)
  field_simp

theorem shownDec_mono (up : TieRule) (k : ℕ) {x y : ℝ} (hx : 0 ≤ x) (h : x ≤ y) : shownDec up k x ≤ shownDec up k y := by
  have hp : (0:ℝ) < 10 ^ k := by positivity
  unfold shownDec
  rw [div_le_div_iff_of_pos_right hp]
  exact_mod_cast roundTie_mono up (by positivity) (mul_le_mul_of_nonneg_right h hp.le)

theorem shownDec_le (up : TieRule) (k : ℕ) {x : ℝ} (hx : 0 ≤ x) {n : ℕ} (h : x ≤ n) : shownDec up k x ≤ n := by
  have hp : (0:ℝ) < 10 ^ k := by positivity
  unfold shownDec
  rw [div_le_iff₀ hp]
  have := roundTie_le_nat up (x := x * 10 ^ k) (by positivity) (n := n * 10 ^ k) (by push_cast; exact mul_le_mul_of_nonneg_right h hp.le)
  push_cast at this; exact this

theorem le_shownDec (up : TieRule) (k : ℕ) {x : ℝ} {n : ℕ} (h : (n:ℝ) ≤ x) : (n:ℝ) ≤ shownDec up k x := by
  have hp : (0:ℝ) < 10 ^ k := by positivity
  unfold shownDec
  rw [le_div_iff₀ hp]
  have := nat_le_roundTie up (x := x * 10 ^ k) (n := n * 10 ^ k) (by push_cast; exact mul_le_mul_of_nonneg_right h hp.le)
  push_cast at this; exact this

theorem stdNum_nonneg (up : TieRule) (k : ℕ) {x : ℝ} (hx : 0 ≤ x) :
    (stdNum up k (fin x)).toList = fixedText k (roundTie up (x * 10 ^ k)) := by
  unfold stdNum
  simp only [if_pos hx, abs_of_nonneg hx, String.toList_ofList, List.nil_append]

/-- a number with decimals, and a unit of a table -/
theorem read_quantity_std (up : TieRule) (k : ℕ) {x : ℝ} (hx : 0 ≤ x) {units : List (List Char × ℝ)} {u : String} {f : ℝ}
    (hr : NotDigitHead u.toList) (hd : u.toList.head? ≠ some '.') (hl : units.lookup u.toList = some f) :
    readQuantity units (stdNum up k (fin x) ++ u).toList = some (shownDec up k x * f) := by
  unfold readQuantity
  rw [String.toList_append, stdNum_nonneg up k hx, read_fixed k _ hr hd, hl]
  rfl

theorem readScientific_std (up : TieRule) (k : ℕ) {x : ℝ} (hx : 0 ≤ x) :
    readScientific (stdNum up k (fin x)).toList = some (shownDec up k x) := by
  have h := read_fixed k (roundTie up (x * 10 ^ k)) (r := []) (by intro c h; simp at h) (by simp)
  rw [List.append_nil] at h
  unfold readScientific
  rw [stdNum_nonneg up k hx, h]
  rfl

/-- the value of a number shown with four significant digits -/
noncomputable def shownSci (up : TieRule) (x : ℝ) : ℝ := (roundTie up (x * 10 ^ (3 - Int.log 10 x)) : ℝ) * 10 ^ (Int.log 10 x - 3)

theorem ten_zpow_pos (e : ℤ) : (0:ℝ) < 10 ^ e := zpow_pos (by norm_num) e

theorem log10_le {x : ℝ} (hx : 0 < x) : (10:ℝ) ^ Int.log 10 x ≤ x := by
  have := Int.zpow_log_le_self (b := 10) (R := ℝ) (by norm_num) hx
  exact_mod_cast this

theorem lt_log10 (x : ℝ) : x < (10:ℝ) ^ (Int.log 10 x + 1) := by
  have := Int.lt_zpow_succ_log_self (b := 10) (R := ℝ) (by norm_num) x
  exact_mod_cast this

theorem mantissa_bounds {x : ℝ} (hx : 0 < x) : (1000:ℝ) ≤ x * 10 ^ (3 - Int.log 10 x) ∧ x * (10:ℝ) ^ (3 - Int.log 10 x) < 10000 := by
  have hp : (0:ℝ) < 10 ^ (3 - Int.log 10 x) := ten_zpow_pos _
  constructor
  · have h := mul_le_mul_of_nonneg_right (log10_le hx) hp.le
    rw [← zpow_add₀ (by norm_num), show Int.log 10 x + (3 - Int.log 10 x) = 3 by ring] at h
    norm_num at h ⊢; exact h
  · have h := mul_lt_mul_of_pos_right (lt_log10 x) hp
    rw [← zpow_add₀ (by norm_num), show Int.log 10 x + 1 + (3 - Int.log 10 x) = 4 by ring] at h
    norm_num at h ⊢; exact h

theorem shownSci_near (up : TieRule) {x : ℝ} (hx : 0 < x) : |shownSci up x - x| ≤ x / 2000 := by
  have hp : (0:ℝ) < 10 ^ (Int.log 10 x - 3) := ten_zpow_pos _
  have h := roundTie_near up (x := x * 10 ^ (3 - Int.log 10 x)) (mul_pos hx (ten_zpow_pos _)).le
  have he : x * (10:ℝ) ^ (3 - Int.log 10 x) * 10 ^ (Int.log 10 x - 3) = x := by
    rw [mul_assoc, ← zpow_add₀ (by norm_num), show (3 - Int.log 10 x) + (Int.log 10 x - 3) = 0 by ring, zpow_zero, mul_one]
  have h2 : (10:ℝ) ^ (Int.log 10 x - 3) ≤ x / 1000 := by
    have := log10_le hx
    rw [zpow_sub₀ (by norm_num)]
    norm_num at this ⊢; linarith
  unfold shownSci
  rw [show (roundTie up (x * 10 ^ (3 - Int.log 10 x)) : ℝ) * 10 ^ (Int.log 10 x - 3) - x
    = ((roundTie up (x * 10 ^ (3 - Int.log 10 x)) : ℝ) - x * 10 ^ (3 - Int.log 10 x)) * 10 ^ (Int.log 10 x - 3) by rw [sub_mul, he],
    abs_mul, abs_of_pos hp]
  have := mul_le_mul h h2 hp.le (by norm_num)
  linarith

theorem shownSci_lower (up : TieRule) {x : ℝ} (hx : 0 < x) : (10:ℝ) ^ Int.log 10 x ≤ shownSci up x := by
  have h := nat_le_roundTie up (n := 1000) (by have := (mantissa_bounds hx).1; exact_mod_cast this)
  have hp : (0:ℝ) < 10 ^ (Int.log 10 x - 3) := ten_zpow_pos _
  have h2 := mul_le_mul_of_nonneg_right h hp.le
  have e : (10:ℝ) ^ Int.log 10 x = ((1000:ℕ):ℝ) * 10 ^ (Int.log 10 x - 3) := by
    rw [show ((1000:ℕ):ℝ) = 10 ^ (3:ℤ) by norm_num, ← zpow_add₀ (by norm_num)]; congr 1; ring
  rw [e]; exact h2

theorem shownSci_upper (up : TieRule) {x : ℝ} (hx : 0 < x) : shownSci up x ≤ (10:ℝ) ^ (Int.log 10 x + 1) := by
  have h := roundTie_le_nat up (n := 10000) (x := x * 10 ^ (3 - Int.log 10 x)) (mul_pos hx (ten_zpow_pos _)).le (by have := (mantissa_bounds hx).2.le; exact_mod_cast this)
  have hp : (0:ℝ) < 10 ^ (Int.log 10 x - 3) := ten_zpow_pos _
  have h2 := mul_le_mul_of_nonneg_right h hp.le
  have e : (10:ℝ) ^ (Int.log 10 x + 1) = ((10000:ℕ):ℝ) * 10 ^ (Int.log 10 x - 3) := by
    rw [show ((10000:ℕ):ℝ) = 10 ^ (4:ℤ) by norm_num, ← zpow_add₀ (by norm_num)]; congr 1; ring
  rw [e]; exact h2

theorem shownSci_mono (up : TieRule) {x y : ℝ} (hx : 0 < x) (h : x ≤ y) : shownSci up x ≤ shownSci up y := by
  have hl : Int.log 10 x ≤ Int.log 10 y := Int.log_mono_right hx h
  rcases hl.eq_or_lt with e | e
  · unfold shownSci
    rw [← e]
    have hp : (0:ℝ) < 10 ^ (Int.log 10 x - 3) := ten_zpow_pos _
    refine mul_le_mul_of_nonneg_right ?_ hp.le
    exact_mod_cast roundTie_mono up (mul_pos hx (ten_zpow_pos _)).le (mul_le_mul_of_nonneg_right h (ten_zpow_pos _).le)
  · exact (shownSci_upper up hx).trans ((zpow_le_zpow_right₀ (by norm_num) (by omega)).trans (shownSci_lower up (hx.trans_le h)))

theorem fourDigits_value (up : TieRule) (x : ℝ) :
    ((fourDigits up x).1 : ℝ) / 10 ^ 3 * 10 ^ (fourDigits up x).2 = shownSci up x ∧
      (Int.log 10 x ≤ (fourDigits up x).2) := by
  unfold fourDigits shownSci
  split_ifs with h
  · constructor
    · rw [h]
      push_cast
      rw [show (10:ℝ) ^ (Int.log 10 x + 1) = 10 ^ (Int.log 10 x - 3) * 10 ^ (4:ℤ) by rw [← zpow_add₀ (by norm_num)]; congr 1; ring]
      norm_num
      ring
    · simp
  · constructor
    · simp only
      rw [show (10:ℝ) ^ (Int.log 10 x) = 10 ^ (Int.log 10 x - 3) * 10 ^ (3:ℤ) by rw [← zpow_add₀ (by norm_num)]; congr 1; ring]
      norm_num
      ring
    · exact le_rfl

theorem readScientific_exp3 (up : TieRule) {x : ℝ} (hx : 1 ≤ x) : readScientific (stdExp3 up (fin x)).toList = some (shownSci up x) := by
  have hx0 : 0 < x := by linarith
  obtain ⟨hv, hl⟩ := fourDigits_value up x
  have hl0 : 0 ≤ Int.log 10 x := by
    have := lt_log10 x
    by_contra hc
    have h2 : (10:ℝ) ^ (Int.log 10 x + 1) ≤ 10 ^ (0:ℤ) := zpow_le_zpow_right₀ (by norm_num) (by omega)
    rw [zpow_zero] at h2; linarith
  unfold stdExp3
  simp only [if_neg hx0.ne', if_pos hx0.le, abs_of_pos hx0, String.toList_ofList, List.nil_append]
  generalize (fourDigits up x).1 = m at *
  generalize (fourDigits up x).2 = e at *
  obtain ⟨n, rfl⟩ := Int.eq_ofNat_of_zero_le (hl0.trans hl)
  have ht : exponentText (n : ℤ) = 'e' :: Nat.toDigits 10 n := by
    unfold exponentText
    rw [if_neg (by omega)]; simp
  unfold readScientific
  rw [ht, read_fixed 3 m (r := 'e' :: Nat.toDigits 10 n) (by intro c h; simp at h; subst h; decide) (by simp)]
  have h1 : Nat.toDigits 10 n ≠ [] := Nat.toDigits_ne_nil
  have h2 : (Nat.toDigits 10 n).all Char.isDigit = true := List.all_eq_true.2 (toDigits_digits n)
  simp only [ne_eq, h1, not_false_eq_true, h2, and_self, if_true, Nat.ofDigitChars_ten_toDigits, Option.some.injEq]
  rw [← hv]
  simp

theorem ReadsAs.unique {unit s : String} {y z : ℝ} (h1 : ReadsAs unit y s) (h2 : ReadsAs unit z s) : y = z := by
  obtain ⟨n, rfl, hn⟩ := h1
  obtain ⟨m, hm, hm2⟩ := h2
  have := congrArg String.toList hm
  rw [String.toList_append, String.toList_append] at this
  rw [List.append_cancel_right this, hm2] at hn
  exact (Option.some.inj hn).symm

/-- the endings of the units of rates are different -/
theorem ReadsAs.last {unit e s : String} {y : ℝ} {c : Char} (h : ReadsAs (unit ++ e) y s) (he : e.toList.getLast? = some c) : s.toList.getLast? = some c := by
  obtain ⟨n, rfl, -⟩ := h
  rw [String.toList_append, String.toList_append, List.getLast?_append, List.getLast?_append, he]
  rfl

theorem ReadsAsRate.unique {unit s : String} {y z : ℝ} (h1 : ReadsAsRate unit y s) (h2 : ReadsAsRate unit z s) : y = z := by
  have d1 : "/s".toList.getLast? = some 's' := by decide
  have d2 : "/min".toList.getLast? = some 'n' := by decide
  have d3 : "/hr".toList.getLast? = some 'r' := by decide
  rcases h1 with h1 | h1 | h1 <;> rcases h2 with h2 | h2 | h2
  · exact h1.unique h2
  · have := (h1.last d1).symm.trans (h2.last d2); simp at this
  · have := (h1.last d1).symm.trans (h2.last d3); simp at this
  · have := (h1.last d2).symm.trans (h2.last d1); simp at this
  · have := h1.unique h2; linarith
  · have := (h1.last d2).symm.trans (h2.last d3); simp at this
  · have := (h1.last d3).symm.trans (h2.last d1); simp at this
  · have := (h1.last d3).symm.trans (h2.last d2); simp at this
  · have := h1.unique h2; linarith

/-! ## scales -/

/-- the first rung that `v` reaches -/
noncomputable def pickRung : List (ℝ × (ℝ → ℝ)) → ℝ → ℝ
  | [], _ => 0
  | (c, g) :: l, v => open Classical in if c ≤ v then g v else pickRung l v

/-- rungs below `top` with values up to `B`, each of them increasing and not below the one before -/
def Ladder : (top B : ℝ) → List (ℝ × (ℝ → ℝ)) → Prop
  | _, B, [] => 0 ≤ B
  | top, B, (c, g) :: l => ∃ b, b ≤ B ∧ (∀ v, c ≤ v → v < top → b ≤ g v ∧ g v ≤ B) ∧ (∀ v w, c ≤ v → v ≤ w → w < top → g v ≤ g w) ∧ Ladder c b l

theorem Ladder.le : ∀ {l : List (ℝ × (ℝ → ℝ))} {top B : ℝ}, Ladder top B l → ∀ v, v < top → pickRung l v ≤ B
  | [], _, _, h, _, _ => h
  | (c, g) :: l, top, B, ⟨b, hb, h1, _, h3⟩, v, hv => by
    unfold pickRung
    split_ifs with hc
    · exact (h1 v hc hv).2
    · exact (Ladder.le h3 v (not_le.1 hc)).trans hb

theorem Ladder.mono : ∀ {l : List (ℝ × (ℝ → ℝ))} {top B : ℝ}, Ladder top B l → ∀ v w, v ≤ w → w < top → pickRung l v ≤ pickRung l w
  | [], _, _, _, _, _, _, _ => le_rfl
  | (c, g) :: l, top, B, ⟨b, hb, h1, h2, h3⟩, v, w, hvw, hw => by
    unfold pickRung
    by_cases hv : c ≤ v
    · rw [if_pos hv, if_pos (hv.trans hvw)]; exact h2 v w hv hvw hw
    · rw [if_neg hv]
      by_cases hcw : c ≤ w
      · rw [if_pos hcw]; exact (h3.le v (not_le.1 hv)).trans (h1 w hcw hw).1
      · rw [if_neg hcw]; exact h3.mono v w hvw (not_le.1 hcw)

/-- a ladder without top -/
theorem Ladder.mono_top {l : List (ℝ × (ℝ → ℝ))} {c b : ℝ} {g : ℝ → ℝ} (hb : ∀ v, c ≤ v → b ≤ g v) (hg : ∀ v w, c ≤ v → v ≤ w → g v ≤ g w)
    (hl : Ladder c b l) {v w : ℝ} (hvw : v ≤ w) : pickRung ((c, g) :: l) v ≤ pickRung ((c, g) :: l) w := by
  unfold pickRung
  by_cases hv : c ≤ v
  · rw [if_pos hv, if_pos (hv.trans hvw)]; exact hg v w hv hvw
  · rw [if_neg hv]
    by_cases hcw : c ≤ w
    · rw [if_pos hcw]; exact (hl.le v (not_le.1 hv)).trans (hb w hcw)
    · rw [if_neg hcw]; exact hl.mono v w hvw (not_le.1 hcw)

/-- a rung that divides by `f` and shows some decimals -/
theorem rung_scaled (up : TieRule) (k : ℕ) {f top : ℝ} (hf : 0 < f) (n : ℕ) (hn : top = n * f) :
    (∀ v, f ≤ v → v < top → f ≤ shownDec up k (v / f) * f ∧ shownDec up k (v / f) * f ≤ top) ∧
    (∀ v w, f ≤ v → v ≤ w → shownDec up k (v / f) * f ≤ shownDec up k (w / f) * f) := by
  refine ⟨fun v h1 h2 => ⟨?_, ?_⟩, fun v w h1 h2 => ?_⟩
  · have := le_shownDec up k (x := v / f) (n := 1) (by rw [le_div_iff₀ hf]; simpa using h1)
    push_cast at this
    nlinarith
  · have := shownDec_le up k (x := v / f) (by have := hf.le.trans h1; positivity) (n := n) (by rw [div_le_iff₀ hf]; linarith)
    rw [hn]; exact mul_le_mul_of_nonneg_right this hf.le
  · exact mul_le_mul_of_nonneg_right (shownDec_mono up k (by have := hf.le.trans h1; positivity) ((div_le_div_iff_of_pos_right hf).2 h2)) hf.le

end BigO
