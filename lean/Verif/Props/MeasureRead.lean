import Verif.Proofs.MeasureRead
import Verif.Props.Presentable
import Verif.Props.ReadBack

/-!
# C19: a measurement can be read back, and compared, from its text
-/
namespace BigO
open F

section
variable (log2 : F → F) (powi : F → ℕ → F) (powf : F → F → F) (tol : F)

/-- local abbreviation: the shipped arithmetic -/
local notation "E64" => binary64Env log2 powi powf tol

/-! ## bytes -/

/-- what is read from the text of a number of bytes -/
noncomputable def byteRungs (up : TieRule) : List (ℝ × (ℝ → ℝ)) :=
  [(2 ^ 40, fun v => shownDec up 2 (v / 2 ^ 40) * 2 ^ 40), (2 ^ 30, fun v => shownDec up 2 (v / 2 ^ 30) * 2 ^ 30),
   (2 ^ 20, fun v => shownDec up 2 (v / 2 ^ 20) * 2 ^ 20), (2 ^ 10, fun v => shownDec up 2 (v / 2 ^ 10) * 2 ^ 10),
   (0, fun v => shownDec up 0 v)]

theorem bytes_read (up : TieRule) {v : ℝ} (hv : IsF64 v) :
    ∃ s, (bytesMeasurement (E64) (fin v)).display (E64) (stdNumText up) = .ok s ∧ readByteCount s = some (pickRung (byteRungs up) v) := by
  obtain ⟨u, ⟨hu, hmax⟩, hs, h1, h0, -⟩ := C70_bytes log2 powi powf tol (stdNumText up) v hv
  refine ⟨_, hs, ?_⟩
  show readQuantity _ (stdNum up u.decimals (fin (v / u.factor)) ++ u.name).toList = _
  have hmax' : ∀ w ∈ byteUnits, ¬ w.factor ≤ u.factor → ¬ w.factor ≤ v := fun w hw h h' => h (hmax w hw h')
  simp only [byteUnits, List.mem_cons, List.not_mem_nil, or_false, forall_eq_or_imp, forall_eq] at hu hmax'
  have e10 : (1:ℝ) ≤ 2 ^ 10 := by norm_num
  have e20 : (2:ℝ) ^ 10 ≤ 2 ^ 20 := by norm_num
  have e30 : (2:ℝ) ^ 20 ≤ 2 ^ 30 := by norm_num
  have e40 : (2:ℝ) ^ 30 ≤ 2 ^ 40 := by norm_num
  have low : ∀ f : ℝ, 0 < f → u.factor = f → u.name ≠ "b" → f ≤ v := by
    intro f hf he hn
    have h2 := h1 (not_lt.1 (fun h => hn (h0 h)))
    rwa [he, one_le_div hf] at h2
  have pos : 0 ≤ v / u.factor := div_nonneg hv.1 (by rcases hu with rfl | rfl | rfl | rfl | rfl <;> norm_num)
  have key : ∀ f, u.name.toList.head? ≠ none → [("b".toList, (1:ℝ)), ("KiB".toList, 2 ^ 10), ("MiB".toList, 2 ^ 20), ("GiB".toList, 2 ^ 30), ("TiB".toList, 2 ^ 40)].lookup u.name.toList = some f →
      NotDigitHead u.name.toList → u.name.toList.head? ≠ some '.' →
      readQuantity [("b".toList, 1), ("KiB".toList, 2 ^ 10), ("MiB".toList, 2 ^ 20), ("GiB".toList, 2 ^ 30), ("TiB".toList, 2 ^ 40)] (stdNum up u.decimals (fin (v / u.factor)) ++ u.name).toList
        = some (shownDec up u.decimals (v / u.factor) * f) := fun f _ hl hr hd => read_quantity_std up u.decimals pos hr hd hl
  rcases hu with rfl | rfl | rfl | rfl | rfl
  · rw [key 1 (by decide) (by simp [List.lookup]) (by intro c h; simp at h; subst h; decide) (by decide)]
    have c1 : ¬ (2:ℝ) ^ 10 ≤ v := hmax'.2.1 (by norm_num)
    have c2 : ¬ (2:ℝ) ^ 20 ≤ v := fun h => c1 (e20.trans h)
    have c3 : ¬ (2:ℝ) ^ 30 ≤ v := fun h => c2 (e30.trans h)
    have c4 : ¬ (2:ℝ) ^ 40 ≤ v := fun h => c3 (e40.trans h)
    simp only [pickRung, byteRungs, if_neg c1, if_neg c2, if_neg c3, if_neg c4, if_pos hv.1, div_one, mul_one]
  · rw [key (2 ^ 10) (by decide) (by simp [List.lookup]) (by intro c h; simp at h; subst h; decide) (by decide)]
    have c1 : (2:ℝ) ^ 10 ≤ v := low _ (by norm_num) rfl (by decide)
    have c2 : ¬ (2:ℝ) ^ 20 ≤ v := hmax'.2.2.1 (by norm_num)
    have c3 : ¬ (2:ℝ) ^ 30 ≤ v := fun h => c2 (e30.trans h)
    have c4 : ¬ (2:ℝ) ^ 40 ≤ v := fun h => c3 (e40.trans h)
    simp only [pickRung, byteRungs, if_pos c1, if_neg c2, if_neg c3, if_neg c4]
  · rw [key (2 ^ 20) (by decide) (by simp [List.lookup]) (by intro c h; simp at h; subst h; decide) (by decide)]
    have c2 : (2:ℝ) ^ 20 ≤ v := low _ (by norm_num) rfl (by decide)
    have c3 : ¬ (2:ℝ) ^ 30 ≤ v := hmax'.2.2.2.1 (by norm_num)
    have c4 : ¬ (2:ℝ) ^ 40 ≤ v := fun h => c3 (e40.trans h)
    simp only [pickRung, byteRungs, if_pos c2, if_neg c3, if_neg c4]
  · rw [key (2 ^ 30) (by decide) (by simp [List.lookup]) (by intro c h; simp at h; subst h; decide) (by decide)]
    have c3 : (2:ℝ) ^ 30 ≤ v := low _ (by norm_num) rfl (by decide)
    have c4 : ¬ (2:ℝ) ^ 40 ≤ v := hmax'.2.2.2.2 (by norm_num)
    simp only [pickRung, byteRungs, if_pos c3, if_neg c4]
  · rw [key (2 ^ 40) (by decide) (by simp [List.lookup]) (by intro c h; simp at h; subst h; decide) (by decide)]
    have c4 : (2:ℝ) ^ 40 ≤ v := low _ (by norm_num) rfl (by decide)
    simp only [pickRung, byteRungs, if_pos c4]

theorem scaled_error (up : TieRule) {v f : ℝ} (hf : 0 < f) (h : f ≤ v) : |shownDec up 2 (v / f) * f - v| ≤ v / 200 := by
  have h0 : 0 ≤ v / f := by have := hf.le.trans h; positivity
  have h1 := shownDec_near up 2 h0
  rw [show shownDec up 2 (v / f) * f - v = (shownDec up 2 (v / f) - v / f) * f by field_simp, abs_mul, abs_of_pos hf]
  have h2 := mul_le_mul_of_nonneg_right h1 hf.le
  norm_num at h2
  linarith

/-- **C19** (bytes): the text of any number of bytes reads as that number, to half a byte below 1 KiB and to one part in 200 above. -/
theorem C19_bytes (up : TieRule) (v : ℝ) (hv : IsF64 v) :
    ∃ s y, (bytesMeasurement (E64) (fin v)).display (E64) (stdNumText up) = .ok s ∧ readByteCount s = some y ∧
      |y - v| ≤ if v < 1024 then 1 / 2 else v / 200 := by
  obtain ⟨s, h1, h2⟩ := bytes_read log2 powi powf tol up hv
  refine ⟨s, _, h1, h2, ?_⟩
  have e10 : (2:ℝ) ^ 10 = 1024 := by norm_num
  have e20 : (1024:ℝ) ≤ 2 ^ 20 := by norm_num
  have e30 : (1024:ℝ) ≤ 2 ^ 30 := by norm_num
  have e40 : (1024:ℝ) ≤ 2 ^ 40 := by norm_num
  unfold byteRungs pickRung
  by_cases c4 : (2:ℝ) ^ 40 ≤ v
  · rw [if_pos c4, if_neg (not_lt.2 (e40.trans c4))]; exact scaled_error up (by norm_num) c4
  rw [if_neg c4]; unfold pickRung
  by_cases c3 : (2:ℝ) ^ 30 ≤ v
  · rw [if_pos c3, if_neg (not_lt.2 (e30.trans c3))]; exact scaled_error up (by norm_num) c3
  rw [if_neg c3]; unfold pickRung
  by_cases c2 : (2:ℝ) ^ 20 ≤ v
  · rw [if_pos c2, if_neg (not_lt.2 (e20.trans c2))]; exact scaled_error up (by norm_num) c2
  rw [if_neg c2]; unfold pickRung
  by_cases c1 : (2:ℝ) ^ 10 ≤ v
  · rw [if_pos c1, if_neg (not_lt.2 (e10 ▸ c1))]; exact scaled_error up (by norm_num) c1
  rw [if_neg c1]; unfold pickRung
  rw [if_pos hv.1, if_pos (by rw [← e10]; exact not_le.1 c1)]
  have := shownDec_near up 0 hv.1
  simpa using this

theorem byteRungs_mono (up : TieRule) {v w : ℝ} (hvw : v ≤ w) : pickRung (byteRungs up) v ≤ pickRung (byteRungs up) w := by
  unfold byteRungs
  obtain ⟨-, m4⟩ := rung_scaled up 2 (f := 2 ^ 40) (top := 2 ^ 50) (by norm_num) 1024 (by norm_num)
  obtain ⟨b3, m3⟩ := rung_scaled up 2 (f := 2 ^ 30) (top := 2 ^ 40) (by norm_num) 1024 (by norm_num)
  obtain ⟨b2, m2⟩ := rung_scaled up 2 (f := 2 ^ 20) (top := 2 ^ 30) (by norm_num) 1024 (by norm_num)
  obtain ⟨b1, m1⟩ := rung_scaled up 2 (f := 2 ^ 10) (top := 2 ^ 20) (by norm_num) 1024 (by norm_num)
  refine Ladder.mono_top (b := 2 ^ 40) ?_ m4 ?_ hvw
  · intro v hv
    have := le_shownDec up 2 (x := v / 2 ^ 40) (n := 1) (by rw [le_div_iff₀ (by positivity)]; simpa using hv)
    push_cast at this
    have hp : (0:ℝ) < 2 ^ 40 := by positivity
    nlinarith
  refine ⟨2 ^ 30, by norm_num, b3, fun v w h1 h2 _ => m3 v w h1 h2, 2 ^ 20, by norm_num, b2, fun v w h1 h2 _ => m2 v w h1 h2,
    2 ^ 10, by norm_num, b1, fun v w h1 h2 _ => m1 v w h1 h2, 0, by norm_num, ?_, fun v w h1 h2 _ => shownDec_mono up 0 h1 h2, le_rfl⟩
  intro v h1 h2
  refine ⟨by exact_mod_cast le_shownDec up 0 (n := 0) (by exact_mod_cast h1), ?_⟩
  have := shownDec_le up 0 h1 (n := 1024) (by norm_num at h2 ⊢; exact h2.le)
  norm_num at this ⊢; exact this

/-- **C19** (order of bytes): the texts of two numbers of bytes compare like the numbers: a smaller one never reads as a larger one. -/
theorem C19_bytes_ordered (up : TieRule) (v w : ℝ) (hv : IsF64 v) (hw : IsF64 w) (hvw : v ≤ w) :
    ∃ s t y z, (bytesMeasurement (E64) (fin v)).display (E64) (stdNumText up) = .ok s ∧
      (bytesMeasurement (E64) (fin w)).display (E64) (stdNumText up) = .ok t ∧ readByteCount s = some y ∧ readByteCount t = some z ∧ y ≤ z := by
  obtain ⟨s, h1, h2⟩ := bytes_read log2 powi powf tol up hv
  obtain ⟨t, h3, h4⟩ := bytes_read log2 powi powf tol up hw
  exact ⟨s, t, _, _, h1, h3, h2, h4, byteRungs_mono up hvw⟩

/-! ## custom units -/

/-- what is read from the text of a custom quantity -/
noncomputable def customRungs (up : TieRule) : List (ℝ × (ℝ → ℝ)) :=
  [(100000, fun v => shownSci up v), (1, fun v => shownDec up 2 v), (0, fun v => shownDec up 0 v)]

theorem custom_read (up : TieRule) (l : List UnitCall) (unit : String) {v : ℝ} (hv : IsF64 v) :
    ∃ s, (customUnitMeasurement (afterCalls (E64) .initial l) (fin v) unit).1.display (E64) (stdNumText up) = .ok s ∧
      ReadsAs unit (pickRung (customRungs up) v) s := by
  obtain ⟨h1, -, h2, -⟩ := C73_caches_transparent (E64) l (fin v) unit
  rw [h1, h2, C78_custom_unit log2 powi powf tol (stdNumText up) unit v hv]
  refine ⟨_, rfl, _, rfl, ?_⟩
  simp only [pickRung, customRungs, stdNumText]
  split_ifs with c5 c1 c0
  · exact readScientific_exp3 up (by linarith)
  · exact readScientific_std up 2 hv.1
  · exact readScientific_std up 0 hv.1
  · exact absurd hv.1 c0

theorem sci_lower (up : TieRule) {v : ℝ} (h : 100000 ≤ v) : (100000:ℝ) ≤ shownSci up v := by
  have hv : 0 < v := by linarith
  have h1 := lt_log10 v
  have hl : 5 ≤ Int.log 10 v := by
    by_contra hc
    have h2 : (10:ℝ) ^ (Int.log 10 v + 1) ≤ 10 ^ (5:ℤ) := zpow_le_zpow_right₀ (by norm_num) (by omega)
    norm_num at h2; linarith
  have h2 : (10:ℝ) ^ (5:ℤ) ≤ 10 ^ Int.log 10 v := zpow_le_zpow_right₀ (by norm_num) hl
  have h3 := shownSci_lower up hv
  norm_num at h2; linarith

theorem customRungs_mono (up : TieRule) {v w : ℝ} (hvw : v ≤ w) : pickRung (customRungs up) v ≤ pickRung (customRungs up) w := by
  unfold customRungs
  refine Ladder.mono_top (b := 100000) (fun v hv => sci_lower up hv) (fun v w h1 h2 => shownSci_mono up (by linarith) h2) ?_ hvw
  refine ⟨1, by norm_num, ?_, fun v w h1 h2 _ => shownDec_mono up 2 (by linarith) h2, 0, by norm_num, ?_, fun v w h1 h2 _ => shownDec_mono up 0 h1 h2, le_rfl⟩
  · intro v h1 h2
    refine ⟨by exact_mod_cast le_shownDec up 2 (n := 1) (by exact_mod_cast h1), ?_⟩
    exact_mod_cast shownDec_le up 2 (n := 100000) (by linarith) (by exact_mod_cast h2.le)
  · intro v h1 h2
    refine ⟨by exact_mod_cast le_shownDec up 0 (n := 0) (by exact_mod_cast h1), ?_⟩
    exact_mod_cast shownDec_le up 0 (n := 1) h1 (by exact_mod_cast h2.le)

/-- **C19** (custom units): after any history of calls, the text of a quantity is a number and the unit, and the number is the quantity up to half
of its last digit. -/
theorem C19_custom (up : TieRule) (l : List UnitCall) (unit : String) (v : ℝ) (hv : IsF64 v) :
    ∃ s y, (customUnitMeasurement (afterCalls (E64) .initial l) (fin v) unit).1.display (E64) (stdNumText up) = .ok s ∧
      ReadsAs unit y s ∧ |y - v| ≤ shownError v := by
  obtain ⟨s, h1, h2⟩ := custom_read log2 powi powf tol up l unit hv
  refine ⟨s, _, h1, h2, ?_⟩
  simp only [pickRung, customRungs, shownError]
  split_ifs with c5 c1 c0
  · exact shownSci_near up (by linarith)
  · have := shownDec_near up 2 hv.1; norm_num at this ⊢; exact this
  · have := shownDec_near up 0 hv.1; norm_num at this ⊢; exact this
  · exact absurd hv.1 c0

/-- **C19** (order of custom quantities): whatever numbers are read from the texts of two quantities, they compare like the quantities. -/
theorem C19_custom_ordered (up : TieRule) (l m : List UnitCall) (unit : String) (v w : ℝ) (hv : IsF64 v) (hw : IsF64 w) (hvw : v ≤ w) {s t : String}
    {y z : ℝ} (hs : (customUnitMeasurement (afterCalls (E64) .initial l) (fin v) unit).1.display (E64) (stdNumText up) = .ok s)
    (ht : (customUnitMeasurement (afterCalls (E64) .initial m) (fin w) unit).1.display (E64) (stdNumText up) = .ok t)
    (hy : ReadsAs unit y s) (hz : ReadsAs unit z t) : y ≤ z := by
  obtain ⟨s', h1, h2⟩ := custom_read log2 powi powf tol up l unit hv
  obtain ⟨t', h3, h4⟩ := custom_read log2 powi powf tol up m unit hw
  rw [hs] at h1; cases h1
  rw [ht] at h3; cases h3
  rw [hy.unique h2, hz.unique h4]
  exact customRungs_mono up hvw

/-! ## rates -/

/-- the number of an `F` -/
def numberOf : F → ℝ
  | fin x => x
  | _ => 0

/-- the divisor of rates per `n` seconds -/
noncomputable def perUnit (n : ℕ) : ℝ := numberOf (binary64.round (1 / n))

/-- what is read from a rate shown per `n` seconds -/
noncomputable def perRung (up : TieRule) (n : ℕ) : ℝ × (ℝ → ℝ) :=
  (perUnit n, fun v => shownDec up 2 (numberOf (binary64.round (v / perUnit n))) * (1 / n))

theorem perUnit_spec (n : ℕ) (h1 : 1 < n) (h2 : n ≤ 2 ^ 20) :
    (E64).div (fin 1) (fin n) = fin (perUnit n) ∧ |perUnit n - 1 / n| ≤ 1 / n * 2 ^ (-53 : ℤ) ∧ 0 < perUnit n ∧ perUnit n < 1 := by
  obtain ⟨c, hc, h3, h4, h5⟩ := f64_recip log2 powi powf tol n h1 h2
  have hn : (0:ℝ) < n := by exact_mod_cast (by omega : 0 < n)
  have e : perUnit n = c := by
    have hc' := hc
    rw [div_fin_fin_pos (by norm_num) hn.ne'] at hc'
    have h : binary64.round (1 / n) = fin c := hc'
    unfold perUnit; rw [h]; rfl
  rw [e]
  exact ⟨hc, h3, h4, h5⟩

/-- a rate shown per `n` seconds -/
theorem perRung_shown (n : ℕ) (h1 : 1 < n) (h2 : n ≤ 3600) {v : ℝ} (hc : perUnit n ≤ v) (hv : v ≤ 1) :
    ∃ s, (E64).div (fin v) (fin (perUnit n)) = fin s ∧ numberOf (binary64.round (v / perUnit n)) = s ∧
      |s * (1 / n) - v| ≤ v * 2 ^ (-51:ℤ) ∧ 1 ≤ s ∧ s * (1 / n) ≤ v * (1 + 2 ^ (-51:ℤ)) := by
  obtain ⟨-, h3, h4, -⟩ := perUnit_spec log2 powi powf tol n h1 (h2.trans (by norm_num))
  have hn : (0:ℝ) < n := by exact_mod_cast (by omega : 0 < n)
  have hn2 : (n:ℝ) ≤ 3600 := by exact_mod_cast h2
  obtain ⟨s, hs, a, b, c⟩ := f64_div_rounded log2 powi powf tol (f := 1 / n) (by positivity) h3 hc hv
    (by rw [le_div_iff₀ hn]; norm_num; linarith) h4
  refine ⟨s, hs, ?_, a, b, c⟩
  rw [div_fin_fin_pos (h4.trans_le hc) h4.ne'] at hs
  have h : binary64.round (v / perUnit n) = fin s := hs
  rw [h]; rfl

include log2 powi powf tol in
theorem perRung_mono (up : TieRule) (n : ℕ) (h1 : 1 < n) (h2 : n ≤ 3600) {v w : ℝ} (hc : perUnit n ≤ v) (hvw : v ≤ w) (hw : w ≤ 1) :
    (perRung up n).2 v ≤ (perRung up n).2 w := by
  obtain ⟨-, -, h4, -⟩ := perUnit_spec log2 powi powf tol n h1 (h2.trans (by norm_num))
  have hn : (0:ℝ) < n := by exact_mod_cast (by omega : 0 < n)
  obtain ⟨s, hs, es, -, s1, -⟩ := perRung_shown log2 powi powf tol n h1 h2 hc (hvw.trans hw)
  obtain ⟨t, ht, et, -, t1, -⟩ := perRung_shown log2 powi powf tol n h1 h2 (hc.trans hvw) hw
  have hm := Format.round_mono Format.ok64 ((div_le_div_iff_of_pos_right h4).2 hvw)
  have e1 : binary64.round (v / perUnit n) = fin s := by
    rw [div_fin_fin_pos (h4.trans_le hc) h4.ne'] at hs; exact hs
  have e2 : binary64.round (w / perUnit n) = fin t := by
    rw [div_fin_fin_pos (h4.trans_le (hc.trans hvw)) h4.ne'] at ht; exact ht
  rw [e1, e2] at hm
  have hst : s ≤ t := by simpa using hm
  unfold perRung
  simp only
  rw [es, et]
  exact mul_le_mul_of_nonneg_right (shownDec_mono up 2 (by linarith) hst) (by positivity)

include log2 powi powf tol in
/-- a rate per `n` seconds stays within its unit and the next one -/
theorem perRung_between (up : TieRule) (n : ℕ) (h1 : 1 < n) (h2 : n ≤ 3600) {v : ℝ} (hc : perUnit n ≤ v) (hv : v ≤ 1) {k : ℕ}
    (hk : v ≤ (k / n) * (1 + 2 ^ (-53:ℤ))) (hk1 : k ≤ 60) :
    1 / (n:ℝ) ≤ (perRung up n).2 v ∧ (perRung up n).2 v ≤ k / n := by
  have hn : (0:ℝ) < n := by exact_mod_cast (by omega : 0 < n)
  obtain ⟨s, -, es, -, s1, s2⟩ := perRung_shown log2 powi powf tol n h1 h2 hc hv
  unfold perRung
  simp only
  rw [es]
  have a := le_shownDec up 2 (x := s) (n := 1) (by exact_mod_cast s1)
  push_cast at a
  constructor
  · have h3 : (0:ℝ) < 1 / n := by positivity
    nlinarith
  · rw [div_eq_mul_one_div (k:ℝ)]
    refine mul_le_mul_of_nonneg_right ?_ (by positivity)
    have hk' : (k:ℝ) ≤ 60 := by exact_mod_cast hk1
    have hs : s < k + 1 / 200 := by
      have h3 : s * (1 / n) ≤ (k / n) * (1 + 2 ^ (-53:ℤ)) * (1 + 2 ^ (-51:ℤ)) := s2.trans (mul_le_mul_of_nonneg_right hk (by norm_num))
      rw [show s * (1 / (n:ℝ)) = s / n by ring, show (k / (n:ℝ)) * (1 + 2 ^ (-53:ℤ)) * (1 + 2 ^ (-51:ℤ)) = k * ((1 + 2 ^ (-53:ℤ)) * (1 + 2 ^ (-51:ℤ))) / n by ring,
        div_le_div_iff_of_pos_right hn] at h3
      have h4 : ((1:ℝ) + 2 ^ (-53:ℤ)) * (1 + 2 ^ (-51:ℤ)) ≤ 1 + 1 / 20000 := by norm_num
      have h5 := mul_le_mul_of_nonneg_left h4 (Nat.cast_nonneg (α := ℝ) k)
      generalize ((1:ℝ) + 2 ^ (-53:ℤ)) * (1 + 2 ^ (-51:ℤ)) = P at *
      linarith
    unfold shownDec
    rw [div_le_iff₀ (by norm_num)]
    have := roundTie_le_of_lt up (x := s * 10 ^ 2) (by nlinarith) (n := k * 100) (by push_cast; linarith)
    push_cast at this
    linarith

include log2 powi powf tol in
/-- the error of a rate shown per `n` seconds -/
theorem perRung_error (up : TieRule) (n : ℕ) (h1 : 1 < n) (h2 : n ≤ 3600) {v : ℝ} (hc : perUnit n ≤ v) (hv : v ≤ 1) :
    |(perRung up n).2 v - v| ≤ v / 199 := by
  obtain ⟨-, -, h4, -⟩ := perUnit_spec log2 powi powf tol n h1 (h2.trans (by norm_num))
  have hn : (0:ℝ) < n := by exact_mod_cast (by omega : 0 < n)
  obtain ⟨s, -, es, s0, s1, s2⟩ := perRung_shown log2 powi powf tol n h1 h2 hc hv
  unfold perRung
  simp only
  rw [es]
  have hs0 : (0:ℝ) ≤ s := by linarith
  have a := shownDec_near up 2 hs0
  have hn' : (0:ℝ) < 1 / n := by positivity
  have b : |shownDec up 2 s * (1 / n) - s * (1 / n)| ≤ 1 / 200 * (1 / n) := by
    rw [← sub_mul, abs_mul, abs_of_pos hn']
    refine mul_le_mul_of_nonneg_right ?_ hn'.le
    norm_num at a ⊢; exact a
  have hq : 1 / (n:ℝ) ≤ s * (1 / n) := by nlinarith
  have hv0 : 0 < v := h4.trans_le hc
  have e : (2:ℝ) ^ (-51:ℤ) ≤ 1 / 10 ^ 9 := by norm_num
  have h51 : v * (2:ℝ) ^ (-51:ℤ) ≤ v * (1 / 10 ^ 9) := mul_le_mul_of_nonneg_left e hv0.le
  have h52 : v * (1 + (2:ℝ) ^ (-51:ℤ)) = v + v * (2:ℝ) ^ (-51:ℤ) := by ring
  rw [h52] at s2
  generalize v * (2:ℝ) ^ (-51:ℤ) = ε at *
  generalize s * (1 / (n:ℝ)) = q at *
  generalize shownDec up 2 s * (1 / (n:ℝ)) = y at *
  generalize 1 / (n:ℝ) = r at *
  have := abs_sub_le y q v
  norm_num at h51
  linarith

/-- what is read from the text of a rate of bytes -/
noncomputable def byteRateRungs (up : TieRule) : List (ℝ × (ℝ → ℝ)) :=
  [(2 ^ 40, fun v => shownDec up 2 (v / 2 ^ 40) * 2 ^ 40), (2 ^ 30, fun v => shownDec up 2 (v / 2 ^ 30) * 2 ^ 30),
   (2 ^ 20, fun v => shownDec up 2 (v / 2 ^ 20) * 2 ^ 20), (2 ^ 10, fun v => shownDec up 2 (v / 2 ^ 10) * 2 ^ 10),
   (1, fun v => shownDec up 2 (v / 1) * 1), perRung up 60, perRung up 3600, (0, fun v => shownDec up 0 v)]

/-- what is read from the text of a rate of a custom unit -/
noncomputable def customRateRungs (up : TieRule) : List (ℝ × (ℝ → ℝ)) :=
  [(100000, fun v => shownSci up v), (1, fun v => shownDec up 2 v), perRung up 60, perRung up 3600, (0, fun v => shownDec up 0 v)]

include log2 powi powf tol in
theorem smallRates_ladder (up : TieRule) : Ladder 1 1 [perRung up 60, perRung up 3600, (0, fun v => shownDec up 0 v)] := by
  obtain ⟨-, c60, p60, -⟩ := perUnit_spec log2 powi powf tol 60 (by norm_num) (by norm_num)
  obtain ⟨-, c36, p36, -⟩ := perUnit_spec log2 powi powf tol 3600 (by norm_num) (by norm_num)
  have u60 := (abs_le.1 c60).2
  have u36 := (abs_le.1 c36).2
  push_cast at u60 u36
  have e60 : perUnit 60 ≤ 1 / 60 * (1 + 2 ^ (-53:ℤ)) := by linarith
  have t60 : (1:ℝ) / 60 * (1 + 2 ^ (-53:ℤ)) ≤ 1 := by norm_num
  have t36 : (1:ℝ) / 3600 * 2 ^ (-53:ℤ) ≤ 1 / 3600 := by norm_num
  refine ⟨1 / 60, by norm_num, ?_, ?_, 1 / 3600, by norm_num, ?_, ?_, 0, by norm_num, ?_, fun v w h1 h2 _ => shownDec_mono up 0 h1 h2, le_rfl⟩
  · intro v h1 h2
    have := perRung_between log2 powi powf tol up 60 (by norm_num) (by norm_num) (k := 60) h1 h2.le (by push_cast; norm_num at h2 ⊢; linarith) le_rfl
    push_cast at this
    rw [show (60:ℝ) / 60 = 1 by norm_num] at this
    exact this
  · intro v w h1 h2 h3
    exact perRung_mono log2 powi powf tol up 60 (by norm_num) (by norm_num) h1 h2 h3.le
  · intro v h1 h2
    have h2' : v < perUnit 60 := h2
    have := perRung_between log2 powi powf tol up 3600 (by norm_num) (by norm_num) (k := 60) h1 (h2'.le.trans (e60.trans t60))
      (by push_cast; rw [show (60:ℝ) / 3600 = 1 / 60 by norm_num]; exact h2'.le.trans e60) le_rfl
    push_cast at this
    rw [show (60:ℝ) / 3600 = 1 / 60 by norm_num] at this
    exact this
  · intro v w h1 h2 h3
    have h3' : w < perUnit 60 := h3
    exact perRung_mono log2 powi powf tol up 3600 (by norm_num) (by norm_num) h1 h2 (h3'.le.trans (e60.trans t60))
  · intro v h1 h2
    have h2' : v < perUnit 3600 := h2
    refine ⟨by exact_mod_cast le_shownDec up 0 (n := 0) (by exact_mod_cast h1), ?_⟩
    have : (roundTie up (v * 10 ^ 0) : ℝ) ≤ (0:ℕ) := roundTie_le_of_lt up (by simpa using h1) (by push_cast; norm_num; linarith)
    unfold shownDec
    norm_num at this ⊢
    rw [this]; norm_num

include log2 powi powf tol in
theorem byteRateRungs_mono (up : TieRule) {v w : ℝ} (hvw : v ≤ w) : pickRung (byteRateRungs up) v ≤ pickRung (byteRateRungs up) w := by
  unfold byteRateRungs
  obtain ⟨-, m4⟩ := rung_scaled up 2 (f := 2 ^ 40) (top := 2 ^ 50) (by norm_num) 1024 (by norm_num)
  obtain ⟨b3, m3⟩ := rung_scaled up 2 (f := 2 ^ 30) (top := 2 ^ 40) (by norm_num) 1024 (by norm_num)
  obtain ⟨b2, m2⟩ := rung_scaled up 2 (f := 2 ^ 20) (top := 2 ^ 30) (by norm_num) 1024 (by norm_num)
  obtain ⟨b1, m1⟩ := rung_scaled up 2 (f := 2 ^ 10) (top := 2 ^ 20) (by norm_num) 1024 (by norm_num)
  obtain ⟨b0, m0⟩ := rung_scaled up 2 (f := 1) (top := 2 ^ 10) (by norm_num) 1024 (by norm_num)
  refine Ladder.mono_top (b := 2 ^ 40) ?_ m4 ?_ hvw
  · intro v hv
    have := le_shownDec up 2 (x := v / 2 ^ 40) (n := 1) (by rw [le_div_iff₀ (by positivity)]; simpa using hv)
    push_cast at this
    have hp : (0:ℝ) < 2 ^ 40 := by positivity
    nlinarith
  exact ⟨2 ^ 30, by norm_num, b3, fun v w h1 h2 _ => m3 v w h1 h2, 2 ^ 20, by norm_num, b2, fun v w h1 h2 _ => m2 v w h1 h2,
    2 ^ 10, by norm_num, b1, fun v w h1 h2 _ => m1 v w h1 h2, 1, by norm_num, b0, fun v w h1 h2 _ => m0 v w h1 h2,
    smallRates_ladder log2 powi powf tol up⟩

include log2 powi powf tol in
theorem customRateRungs_mono (up : TieRule) {v w : ℝ} (hvw : v ≤ w) : pickRung (customRateRungs up) v ≤ pickRung (customRateRungs up) w := by
  unfold customRateRungs
  refine Ladder.mono_top (b := 100000) (fun v hv => sci_lower up hv) (fun v w h1 h2 => shownSci_mono up (by linarith) h2) ?_ hvw
  refine ⟨1, by norm_num, ?_, fun v w h1 h2 _ => shownDec_mono up 2 (by linarith) h2, smallRates_ladder log2 powi powf tol up⟩
  intro v h1 h2
  refine ⟨by exact_mod_cast le_shownDec up 2 (n := 1) (by exact_mod_cast h1), ?_⟩
  exact_mod_cast shownDec_le up 2 (n := 100000) (by linarith) (by exact_mod_cast h2.le)

theorem numberOf_div {v c : ℝ} (hv : 0 < v) (hc : 0 < c) {s : ℝ} (h : (E64).div (fin v) (fin c) = fin s) : numberOf (binary64.round (v / c)) = s := by
  rw [div_fin_fin_pos hv hc.ne'] at h
  have h' : binary64.round (v / c) = fin s := h
  rw [h']; rfl

theorem byteRate_read (up : TieRule) {v : ℝ} (hv : IsF64 v) :
    ∃ s, (bytesPerSecondMeasurement (E64) (fin v)).display (E64) (stdNumText up) = .ok s ∧
      readByteRate s = some (pickRung (byteRateRungs up) v) := by
  have h40 : (E64).ofNat (2 ^ 40) = fin (2 ^ 40) := by rw [f64_ofNat]; · norm_num
                                                       · norm_num
  have h30 : (E64).ofNat (2 ^ 30) = fin (2 ^ 30) := by rw [f64_ofNat]; · norm_num
                                                       · norm_num
  have h20 : (E64).ofNat (2 ^ 20) = fin (2 ^ 20) := by rw [f64_ofNat]; · norm_num
                                                       · norm_num
  have h10 : (E64).ofNat (2 ^ 10) = fin (2 ^ 10) := by rw [f64_ofNat]; · norm_num
                                                       · norm_num
  obtain ⟨hm, -, m0, m1⟩ := perUnit_spec log2 powi powf tol 60 (by norm_num) (by norm_num)
  obtain ⟨hh, -, p0, p1⟩ := perUnit_spec log2 powi powf tol 3600 (by norm_num) (by norm_num)
  push_cast at hm hh
  have ncm : ¬ perUnit 60 = 0 := m0.ne'
  have nch : ¬ perUnit 3600 = 0 := p0.ne'
  have lk : ∀ (k : ℕ) (x f : ℝ) (u : String), 0 ≤ x → NotDigitHead u.toList → u.toList.head? ≠ some '.' →
      [("b/hr".toList, (1:ℝ) / 3600), ("b/min".toList, 1 / 60), ("b/s".toList, 1), ("KiB/s".toList, 2 ^ 10), ("MiB/s".toList, 2 ^ 20),
        ("GiB/s".toList, 2 ^ 30), ("TiB/s".toList, 2 ^ 40)].lookup u.toList = some f →
      readByteRate (stdNum up k (fin x) ++ u) = some (shownDec up k x * f) :=
    fun k x f u hx hr hd hl => read_quantity_std up k hx hr hd hl
  unfold Presented.display Presented.select bytesPerSecondMeasurement
  rw [h40, h30, h20, h10, hm, hh]
  simp only [selfScaled_fin ncm, selfScaled_fin nch, selfScaled_zero, selfScaled_fin one_ne_zero, selfScaled_fin (show (2:ℝ) ^ 40 ≠ 0 by norm_num), selfScaled_fin (show (2:ℝ) ^ 30 ≠ 0 by norm_num), selfScaled_fin (show (2:ℝ) ^ 20 ≠ 0 by norm_num), selfScaled_fin (show (2:ℝ) ^ 10 ≠ 0 by norm_num),  List.find?_cons, F.fin_le_fin]
  simp only [byteRateRungs, pickRung, perRung]
  by_cases c4 : (2:ℝ) ^ 40 ≤ v
  · simp only [c4, decide_true, if_true, f64_div_pow2 log2 powi powf tol hv 40 le_rfl c4]
    exact ⟨_, rfl, lk 2 _ _ _ (div_nonneg hv.1 (by norm_num)) (by intro c h; simp at h; subst h; decide) (by decide) (by simp [List.lookup])⟩
  by_cases c3 : (2:ℝ) ^ 30 ≤ v
  · simp only [c4, c3, decide_true, decide_false, if_true, if_false, f64_div_pow2 log2 powi powf tol hv 30 (by norm_num) c3]
    exact ⟨_, rfl, lk 2 _ _ _ (div_nonneg hv.1 (by norm_num)) (by intro c h; simp at h; subst h; decide) (by decide) (by simp [List.lookup])⟩
  by_cases c2 : (2:ℝ) ^ 20 ≤ v
  · simp only [c4, c3, c2, decide_true, decide_false, if_true, if_false, f64_div_pow2 log2 powi powf tol hv 20 (by norm_num) c2]
    exact ⟨_, rfl, lk 2 _ _ _ (div_nonneg hv.1 (by norm_num)) (by intro c h; simp at h; subst h; decide) (by decide) (by simp [List.lookup])⟩
  by_cases c1 : (2:ℝ) ^ 10 ≤ v
  · simp only [c4, c3, c2, c1, decide_true, decide_false, if_true, if_false, f64_div_pow2 log2 powi powf tol hv 10 (by norm_num) c1]
    exact ⟨_, rfl, lk 2 _ _ _ (div_nonneg hv.1 (by norm_num)) (by intro c h; simp at h; subst h; decide) (by decide) (by simp [List.lookup])⟩
  by_cases c0 : (1:ℝ) ≤ v
  · simp only [c4, c3, c2, c1, c0, decide_true, decide_false, if_true, if_false, f64_div_one log2 powi powf tol hv, div_one]
    exact ⟨_, rfl, lk 2 _ _ _ hv.1 (by intro c h; simp at h; subst h; decide) (by decide) (by simp [List.lookup])⟩
  by_cases b1 : perUnit 60 ≤ v
  · obtain ⟨s, hs, es, -, s1, -⟩ := perRung_shown log2 powi powf tol 60 (by norm_num) (by norm_num) b1 (not_le.1 c0).le
    simp only [c4, c3, c2, c1, c0, b1, decide_true, decide_false, if_true, if_false, hs, es]
    exact ⟨_, rfl, lk 2 _ _ _ (by linarith) (by intro c h; simp at h; subst h; decide) (by decide) (by simp [List.lookup])⟩
  by_cases b2 : perUnit 3600 ≤ v
  · obtain ⟨s, hs, es, -, s1, -⟩ := perRung_shown log2 powi powf tol 3600 (by norm_num) (by norm_num) b2 (not_le.1 c0).le
    simp only [c4, c3, c2, c1, c0, b1, b2, decide_true, decide_false, if_true, if_false, hs, es]
    exact ⟨_, rfl, lk 2 _ _ _ (by linarith) (by intro c h; simp at h; subst h; decide) (by decide) (by simp [List.lookup])⟩
  · simp only [c4, c3, c2, c1, c0, b1, b2, hv.1, decide_true, decide_false, if_true, if_false, f64_div_one log2 powi powf tol hv]
    refine ⟨_, rfl, ?_⟩
    rw [← mul_one (shownDec up 0 v)]
    exact lk 0 _ _ _ hv.1 (by intro c h; simp at h; subst h; decide) (by decide) (by simp [List.lookup])

theorem customRate_read (up : TieRule) (l : List UnitCall) (unit : String) {v : ℝ} (hv : IsF64 v) :
    ∃ s, (customUnitPerSecondMeasurement (E64) (afterCalls (E64) .initial l) (fin v) unit).1.display (E64) (stdNumText up) = .ok s ∧
      ReadsAsRate unit (pickRung (customRateRungs up) v) s := by
  obtain ⟨-, h1, -, h2⟩ := C73_caches_transparent (E64) l (fin v) unit
  rw [h1, h2]
  obtain ⟨hm, -, m0, m1⟩ := perUnit_spec log2 powi powf tol 60 (by norm_num) (by norm_num)
  obtain ⟨hh, -, p0, p1⟩ := perUnit_spec log2 powi powf tol 3600 (by norm_num) (by norm_num)
  push_cast at hm hh
  unfold Presented.display Presented.select customPerSecondTable
  rw [hm, hh]
  simp only [List.find?_cons, F.fin_le_fin, customRateRungs, pickRung, perRung]
  by_cases c5 : (100000:ℝ) ≤ v
  · simp only [c5, decide_true, if_true, f64_div_one log2 powi powf tol hv]
    exact ⟨_, rfl, Or.inl ⟨_, rfl, readScientific_exp3 up (by linarith)⟩⟩
  by_cases c0 : (1:ℝ) ≤ v
  · simp only [c5, c0, decide_true, decide_false, if_true, if_false, f64_div_one log2 powi powf tol hv]
    exact ⟨_, rfl, Or.inl ⟨_, rfl, readScientific_std up 2 hv.1⟩⟩
  by_cases b1 : perUnit 60 ≤ v
  · obtain ⟨s, hs, es, -, s1, -⟩ := perRung_shown log2 powi powf tol 60 (by norm_num) (by norm_num) b1 (not_le.1 c0).le
    simp only [c5, c0, b1, decide_true, decide_false, if_true, if_false, hs, es]
    refine ⟨_, rfl, Or.inr (Or.inl ⟨_, rfl, ?_⟩)⟩
    rw [show shownDec up 2 s * (1 / ((60:ℕ):ℝ)) * 60 = shownDec up 2 s by push_cast; ring]
    exact readScientific_std up 2 (by linarith)
  by_cases b2 : perUnit 3600 ≤ v
  · obtain ⟨s, hs, es, -, s1, -⟩ := perRung_shown log2 powi powf tol 3600 (by norm_num) (by norm_num) b2 (not_le.1 c0).le
    simp only [c5, c0, b1, b2, decide_true, decide_false, if_true, if_false, hs, es]
    refine ⟨_, rfl, Or.inr (Or.inr ⟨_, rfl, ?_⟩)⟩
    rw [show shownDec up 2 s * (1 / ((3600:ℕ):ℝ)) * 3600 = shownDec up 2 s by push_cast; ring]
    exact readScientific_std up 2 (by linarith)
  · simp only [c5, c0, b1, b2, hv.1, decide_true, decide_false, if_true, if_false, f64_div_one log2 powi powf tol hv]
    exact ⟨_, rfl, Or.inl ⟨_, rfl, readScientific_std up 0 hv.1⟩⟩

include log2 powi powf tol in
theorem smallRate_error (up : TieRule) {v : ℝ} (hv : IsF64 v) (h1 : v < 1) :
    |pickRung [perRung up 60, perRung up 3600, (0, fun v => shownDec up 0 v)] v - v| ≤ if 1 / 3600 ≤ v then v / 199 else 1 / 3600 := by
  obtain ⟨-, -, m0, -⟩ := perUnit_spec log2 powi powf tol 60 (by norm_num) (by norm_num)
  obtain ⟨hh, c36, p0, -⟩ := perUnit_spec log2 powi powf tol 3600 (by norm_num) (by norm_num)
  have hle : v ≤ 1 := h1.le
  have small : v < 1 / 3600 → v / 199 ≤ 1 / 3600 := fun h => by linarith
  have e1 : ∀ n : ℕ, (perRung up n).1 = perUnit n := fun _ => rfl
  unfold pickRung
  by_cases b1 : perUnit 60 ≤ v
  · have := perRung_error log2 powi powf tol up 60 (by norm_num) (by norm_num) b1 hle
    rw [show (perRung up 60) = (perUnit 60, (perRung up 60).2) from rfl]
    simp only [if_pos b1]
    split_ifs with h
    · exact this
    · exact this.trans (small (not_le.1 h))
  rw [show (perRung up 60) = (perUnit 60, (perRung up 60).2) from rfl]
  simp only [if_neg b1]
  unfold pickRung
  by_cases b2 : perUnit 3600 ≤ v
  · have := perRung_error log2 powi powf tol up 3600 (by norm_num) (by norm_num) b2 hle
    rw [show (perRung up 3600) = (perUnit 3600, (perRung up 3600).2) from rfl]
    simp only [if_pos b2]
    split_ifs with h
    · exact this
    · exact this.trans (small (not_le.1 h))
  rw [show (perRung up 3600) = (perUnit 3600, (perRung up 3600).2) from rfl]
  simp only [if_neg b2]
  unfold pickRung
  have hlow : v < 1 / 3600 := by
    by_contra hc
    have hge := not_lt.1 hc
    have h0 : 0 < v := lt_of_lt_of_le (by norm_num) hge
    have hr : binary64.round v = fin v := by
      rcases hv.2 with h | h
      · exact absurd h h0.ne'
      · exact h
    have hmn := Format.round_mono Format.ok64 hge
    push_cast at hh
    rw [div_fin_fin_pos (by norm_num) (by norm_num)] at hh
    have hh' : binary64.round (1 / 3600) = fin (perUnit 3600) := hh
    rw [hr, hh'] at hmn
    exact b2 (by simpa using hmn)
  rw [if_neg (not_le.2 hlow)]
  simp only [if_pos hv.1]
  have h0 : (roundTie up (v * 10 ^ 0) : ℝ) ≤ (0:ℕ) := roundTie_le_of_lt up (by simpa using hv.1) (by push_cast; norm_num; linarith)
  have h2 : shownDec up 0 v = 0 := by
    unfold shownDec
    push_cast at h0
    have h3 : (roundTie up (v * 10 ^ 0) : ℝ) = 0 := le_antisymm h0 (Nat.cast_nonneg _)
    rw [h3]; simp
  rw [h2, zero_sub, abs_neg, abs_of_nonneg hv.1]
  exact hlow.le

/-- **C19** (rates of bytes): the text of any rate reads as that rate, to one part in 199 from one byte per hour on; a lower rate reads as less than
one byte per hour away from it. -/
theorem C19_byte_rates (up : TieRule) (v : ℝ) (hv : IsF64 v) :
    ∃ s y, (bytesPerSecondMeasurement (E64) (fin v)).display (E64) (stdNumText up) = .ok s ∧ readByteRate s = some y ∧
      |y - v| ≤ if 1 / 3600 ≤ v then v / 199 else 1 / 3600 := by
  obtain ⟨s, h1, h2⟩ := byteRate_read log2 powi powf tol up hv
  refine ⟨s, _, h1, h2, ?_⟩
  by_cases c0 : (1:ℝ) ≤ v
  · rw [if_pos (by linarith)]
    have weak : ∀ f : ℝ, 0 < f → f ≤ v → |shownDec up 2 (v / f) * f - v| ≤ v / 199 := fun f hf h => (scaled_error up hf h).trans (by linarith)
    unfold byteRateRungs
    simp only [pickRung]
    split_ifs with c4 c3 c2 c1
    · exact weak _ (by norm_num) c4
    · exact weak _ (by norm_num) c3
    · exact weak _ (by norm_num) c2
    · exact weak _ (by norm_num) c1
    · exact weak _ (by norm_num) c0
  · have h := smallRate_error log2 powi powf tol up hv (not_le.1 c0)
    have c1 : ¬ (2:ℝ)^10 ≤ v := fun h => c0 (le_trans (by norm_num) h)
    have c2 : ¬ (2:ℝ)^20 ≤ v := fun h => c0 (le_trans (by norm_num) h)
    have c3 : ¬ (2:ℝ)^30 ≤ v := fun h => c0 (le_trans (by norm_num) h)
    have c4 : ¬ (2:ℝ)^40 ≤ v := fun h => c0 (le_trans (by norm_num) h)
    have e : pickRung (byteRateRungs up) v = pickRung [perRung up 60, perRung up 3600, (0, fun v => shownDec up 0 v)] v := by
      unfold byteRateRungs
      rw [pickRung, if_neg c4, pickRung, if_neg c3, pickRung, if_neg c2, pickRung, if_neg c1, pickRung, if_neg c0]
    rw [e]; exact h

/-- **C19** (order of rates of bytes): the texts of two rates compare like the rates, whatever their units. -/
theorem C19_byte_rates_ordered (up : TieRule) (v w : ℝ) (hv : IsF64 v) (hw : IsF64 w) (hvw : v ≤ w) :
    ∃ s t y z, (bytesPerSecondMeasurement (E64) (fin v)).display (E64) (stdNumText up) = .ok s ∧
      (bytesPerSecondMeasurement (E64) (fin w)).display (E64) (stdNumText up) = .ok t ∧ readByteRate s = some y ∧ readByteRate t = some z ∧ y ≤ z := by
  obtain ⟨s, h1, h2⟩ := byteRate_read log2 powi powf tol up hv
  obtain ⟨t, h3, h4⟩ := byteRate_read log2 powi powf tol up hw
  exact ⟨s, t, _, _, h1, h3, h2, h4, byteRateRungs_mono log2 powi powf tol up hvw⟩

/-- **C19** (custom rates): after any history of calls, the text of a rate is a number and the unit per second, minute or hour, and the rate is the one
measured up to half of the last digit; below one per hour it reads as less than one per hour away. -/
theorem C19_custom_rates (up : TieRule) (l : List UnitCall) (unit : String) (v : ℝ) (hv : IsF64 v) :
    ∃ s y, (customUnitPerSecondMeasurement (E64) (afterCalls (E64) .initial l) (fin v) unit).1.display (E64) (stdNumText up) = .ok s ∧
      ReadsAsRate unit y s ∧ |y - v| ≤ if 1 ≤ v then shownError v else if 1 / 3600 ≤ v then v / 199 else 1 / 3600 := by
  obtain ⟨s, h1, h2⟩ := customRate_read log2 powi powf tol up l unit hv
  refine ⟨s, _, h1, h2, ?_⟩
  by_cases c0 : (1:ℝ) ≤ v
  · rw [if_pos c0]
    unfold customRateRungs
    simp only [pickRung, shownError, if_pos c0]
    split_ifs with c5
    · exact shownSci_near up (by linarith)
    · have := shownDec_near up 2 hv.1; norm_num at this ⊢; exact this
  · rw [if_neg c0]
    have h := smallRate_error log2 powi powf tol up hv (not_le.1 c0)
    have c5 : ¬ (100000:ℝ) ≤ v := fun h => c0 (le_trans (by norm_num) h)
    have e : pickRung (customRateRungs up) v = pickRung [perRung up 60, perRung up 3600, (0, fun v => shownDec up 0 v)] v := by
      unfold customRateRungs
      rw [pickRung, if_neg c5, pickRung, if_neg c0]
    rw [e]; exact h

/-- **C19** (order of custom rates): whatever rates are read from the texts of two measurements, they compare like the measurements. -/
theorem C19_custom_rates_ordered (up : TieRule) (l m : List UnitCall) (unit : String) (v w : ℝ) (hv : IsF64 v) (hw : IsF64 w) (hvw : v ≤ w)
    {s t : String} {y z : ℝ}
    (hs : (customUnitPerSecondMeasurement (E64) (afterCalls (E64) .initial l) (fin v) unit).1.display (E64) (stdNumText up) = .ok s)
    (ht : (customUnitPerSecondMeasurement (E64) (afterCalls (E64) .initial m) (fin w) unit).1.display (E64) (stdNumText up) = .ok t)
    (hy : ReadsAsRate unit y s) (hz : ReadsAsRate unit z t) : y ≤ z := by
  obtain ⟨s', h1, h2⟩ := customRate_read log2 powi powf tol up l unit hv
  obtain ⟨t', h3, h4⟩ := customRate_read log2 powi powf tol up m unit hw
  rw [hs] at h1; cases h1
  rw [ht] at h3; cases h3
  rw [hy.unique h2, hz.unique h4]
  exact customRateRungs_mono log2 powi powf tol up hvw

/-- **C19** (durations): a duration below 26 days reads as itself, to the nanosecond. -/
theorem C19_durations (up : TieRule) (d : Duration) (hd : d < 2 ^ 51) :
    ∃ s, (durationMeasurement (E64) d).display (E64) (stdNumText up) = .ok s ∧ readDuration s = some (d : ℝ) :=
  ⟨_, C77_durations_exact log2 powi powf tol (stdNumText up) d hd, C69_duration d⟩

/-! ## concrete cases -/

-- two numbers of bytes on both sides of a change of unit, two custom quantities, a rate per minute
example : IsF64 1023 ∧ IsF64 1024 ∧ (1023:ℝ) ≤ 1024 :=
  ⟨by exact_mod_cast isF64_nat (n := 1023) (by norm_num), by exact_mod_cast isF64_nat (n := 1024) (by norm_num), by norm_num⟩

example : IsF64 99999 ∧ IsF64 100000 ∧ (99999:ℝ) ≤ 100000 :=
  ⟨by exact_mod_cast isF64_nat (n := 99999) (by norm_num), by exact_mod_cast isF64_nat (n := 100000) (by norm_num), by norm_num⟩

example : IsF64 (1 / 4) ∧ ¬ (1:ℝ) ≤ 1 / 4 ∧ (1:ℝ) / 3600 ≤ 1 / 4 := ⟨⟨by norm_num, Or.inr tol25_is_literal⟩, by norm_num, by norm_num⟩

end
end BigO
