import Verif.Props.MeasureRead

/-!
# The project's unit tests of presentable measurements, replayed on the model

Not properties: the literal expectations of `/repo/src/utils/measurements/presentable_measurements.rs` 185-271. A decimal literal of the
tests stands for a binary64 nearest to it, and so does a product of such a literal and a power of two: `Lit x v`.
-/
namespace BigO
open F

/-- `v` is a binary64 within one part in 2^50 of `x` -/
def Lit (x v : ℝ) : Prop := IsF64 v ∧ |v - x| ≤ x / 2 ^ 50

theorem dec_text (up : TieRule) (k m : ℕ) {x : ℝ} (h0 : 0 ≤ x) (h : |x * 10 ^ k - m| < 1 / 2) :
    stdNum up k (fin x) = String.ofList (fixedText k m) := by
  have h1 := abs_lt.1 h
  have hx : 0 ≤ x * 10 ^ k := by positivity
  have h2 := roundTie_le_of_lt up hx (n := m) (by linarith)
  have h3 : (m : ℝ) ≤ roundTie up (x * 10 ^ k) := by
    have h4 := (abs_le.1 (roundTie_near up hx)).1
    have h5 : ((m : ℕ) : ℝ) < ((roundTie up (x * 10 ^ k) + 1 : ℕ) : ℝ) := by push_cast; linarith
    have h6 : m < roundTie up (x * 10 ^ k) + 1 := by exact_mod_cast h5
    exact_mod_cast Nat.lt_succ_iff.1 h6
  have e : roundTie up (x * 10 ^ k) = m := by exact_mod_cast le_antisymm h2 h3
  simp only [stdNum, if_pos h0, List.nil_append, abs_of_nonneg h0, e]

/-- the digits of `{:.3e}` -/
theorem exp_text (up : TieRule) (m : ℕ) (e : ℤ) {x : ℝ} (h0 : 0 < x) (h1 : (10:ℝ) ^ e ≤ x) (h2 : x < 10 ^ (e + 1))
    (h : |x * 10 ^ (3 - e) - m| < 1 / 2) (hm : m ≠ 10 ^ 4) :
    stdExp3 up (fin x) = String.ofList (fixedText 3 m ++ exponentText e) := by
  have hl : Int.log 10 x = e := by
    have a : e ≤ Int.log 10 x := (Int.zpow_le_iff_le_log (by norm_num) h0).1 (by exact_mod_cast h1)
    have b : Int.log 10 x < e + 1 := (Int.lt_zpow_iff_log_lt (by norm_num) h0).1 (by exact_mod_cast h2)
    omega
  have hp : (0:ℝ) < 10 ^ (3 - e) := zpow_pos (by norm_num) _
  have hx : 0 ≤ x * 10 ^ (3 - e) := (mul_pos h0 hp).le
  have h1 := abs_lt.1 h
  have h2 := roundTie_le_of_lt up hx (n := m) (by linarith)
  have h3 : (m : ℝ) ≤ roundTie up (x * 10 ^ (3 - e)) := by
    have h4 := (abs_le.1 (roundTie_near up hx)).1
    have h5 : ((m : ℕ) : ℝ) < ((roundTie up (x * 10 ^ (3 - e)) + 1 : ℕ) : ℝ) := by push_cast; linarith
    have h6 : m < roundTie up (x * 10 ^ (3 - e)) + 1 := by exact_mod_cast h5
    exact_mod_cast Nat.lt_succ_iff.1 h6
  have er : roundTie up (x * 10 ^ (3 - e)) = m := by exact_mod_cast le_antisymm h2 h3
  simp only [stdExp3, if_neg h0.ne', if_pos h0.le, List.nil_append, abs_of_pos h0, fourDigits, hl, er, if_neg hm]

section
variable (log2 : F → F) (powi : F → ℕ → F) (powf : F → F → F) (tol : F) (up : TieRule)

/-- local abbreviation: the shipped arithmetic -/
local notation "E64" => binary64Env log2 powi powf tol

/-- `test_duration_measurement` -/
example : ∀ r ∈ [(3600 * 10 ^ 9, "3600s"), (60 * 10 ^ 9, "60s"), (0, "0ns"), (10 ^ 6, "1ms"), (10 ^ 3, "1µs")],
    (durationMeasurement (E64) r.1).display (E64) (stdNumText up) = .ok r.2 := by
  intro r hr
  have key : ∀ r ∈ [(3600 * 10 ^ 9, "3600s"), (60 * 10 ^ 9, "60s"), (0, "0ns"), (10 ^ 6, "1ms"), (10 ^ 3, "1µs")],
      stdDur r.1 = r.2 ∧ r.1 < 2 ^ 51 := by decide +kernel
  rw [C77_durations_exact log2 powi powf tol (stdNumText up) r.1 (key r hr).2]
  exact congrArg Except.ok (key r hr).1

theorem bytes_text {v : ℝ} (hv : IsF64 v) (u : MUnit) (hu : u ∈ byteUnits) (h1 : ∀ w ∈ byteUnits, w.factor ≤ v → w.factor ≤ u.factor)
    (h2 : u.factor ≤ v ∨ u = ⟨1, "b", 0⟩) (m : ℕ) (hm : |v / u.factor * 10 ^ u.decimals - m| < 1 / 2) :
    (bytesMeasurement (E64) (fin v)).display (E64) (stdNumText up) = .ok (String.ofList (fixedText u.decimals m) ++ u.name) := by
  obtain ⟨w, ⟨hw, hmax⟩, hs, g1, g0, -⟩ := C70_bytes log2 powi powf tol (stdNumText up) v hv
  have huniq : ∀ a ∈ byteUnits, ∀ b ∈ byteUnits, a.factor = b.factor → a = b := by
    intro a ha b hb
    simp only [byteUnits, List.mem_cons, List.not_mem_nil, or_false] at ha hb
    rcases ha with rfl | rfl | rfl | rfl | rfl <;> rcases hb with rfl | rfl | rfl | rfl | rfl <;> norm_num
  have hpos : ∀ a ∈ byteUnits, 0 < a.factor ∧ (1 ≤ a.factor) := by
    intro a ha
    simp only [byteUnits, List.mem_cons, List.not_mem_nil, or_false] at ha
    rcases ha with rfl | rfl | rfl | rfl | rfl <;> norm_num
  have e : w = u := by
    apply huniq w hw u hu
    by_cases hv1 : (1:ℝ) ≤ v
    · have a : w.factor ≤ v := by
        have := g1 hv1
        rwa [one_le_div (hpos w hw).1] at this
      refine le_antisymm (h1 w hw a) ?_
      rcases h2 with h2 | rfl
      · exact hmax u hu h2
      · exact (hpos w hw).2
    · have hb := g0 (not_le.1 hv1)
      rcases h2 with h2 | rfl
      · exact absurd ((hpos u hu).2.trans h2) hv1
      · simp only [byteUnits, List.mem_cons, List.not_mem_nil, or_false] at hw
        rcases hw with rfl | rfl | rfl | rfl | rfl <;> simp at hb ⊢
  subst e
  rw [hs]
  show Except.ok (stdNum up w.decimals _ ++ _) = _
  rw [dec_text up w.decimals m (div_nonneg hv.1 (hpos w hw).1.le) hm]

theorem lit_bounds {x v : ℝ} (h : Lit x v) : x - x / 2 ^ 50 ≤ v ∧ v ≤ x + x / 2 ^ 50 := by
  have := abs_le.1 h.2
  constructor <;> linarith

/-- `test_bytes_measurement` -/
example : (bytesMeasurement (E64) (fin 0)).display (E64) (stdNumText up) = .ok "0b" ∧
    (∀ v, Lit 10.15 v → (bytesMeasurement (E64) (fin v)).display (E64) (stdNumText up) = .ok "10b") ∧
    (∀ v, Lit (2 ^ 10 * 10.15) v → (bytesMeasurement (E64) (fin v)).display (E64) (stdNumText up) = .ok "10.15KiB") ∧
    (∀ v, Lit (2 ^ 20 * 10.15) v → (bytesMeasurement (E64) (fin v)).display (E64) (stdNumText up) = .ok "10.15MiB") ∧
    (∀ v, Lit (2 ^ 30 * 10.15) v → (bytesMeasurement (E64) (fin v)).display (E64) (stdNumText up) = .ok "10.15GiB") ∧
    (∀ v, Lit (2 ^ 40 * 10.15) v → (bytesMeasurement (E64) (fin v)).display (E64) (stdNumText up) = .ok "10.15TiB") := by
  have t : String.ofList (fixedText 0 0) ++ "b" = "0b" ∧ String.ofList (fixedText 0 10) ++ "b" = "10b" ∧
      String.ofList (fixedText 2 1015) ++ "KiB" = "10.15KiB" ∧ String.ofList (fixedText 2 1015) ++ "MiB" = "10.15MiB" ∧
      String.ofList (fixedText 2 1015) ++ "GiB" = "10.15GiB" ∧ String.ofList (fixedText 2 1015) ++ "TiB" = "10.15TiB" := by decide +kernel
  obtain ⟨t0, t1, t2, t3, t4, t5⟩ := t
  refine ⟨?_, fun v h => ?_, fun v h => ?_, fun v h => ?_, fun v h => ?_, fun v h => ?_⟩
  · rw [← t0]
    exact bytes_text log2 powi powf tol up ⟨le_rfl, Or.inl rfl⟩ ⟨1, "b", 0⟩ (by simp [byteUnits]) (by norm_num [byteUnits]) (Or.inr rfl) 0 (by norm_num)
  · rw [← t1]
    obtain ⟨b1, b2⟩ := lit_bounds h
    norm_num at b1 b2
    refine bytes_text log2 powi powf tol up h.1 ⟨1, "b", 0⟩ (by simp [byteUnits]) ?_ (Or.inr rfl) 10 ?_
    · simp only [byteUnits, List.mem_cons, List.not_mem_nil, or_false, forall_eq_or_imp, forall_eq]
      norm_num
      refine ⟨?_, ?_, ?_, ?_⟩ <;> linarith
    · norm_num; rw [abs_lt]; constructor <;> linarith
  · rw [← t2]
    obtain ⟨b1, b2⟩ := lit_bounds h
    norm_num at b1 b2
    refine bytes_text log2 powi powf tol up h.1 ⟨2 ^ 10, "KiB", 2⟩ (by simp [byteUnits]) ?_ (Or.inl ?_) 1015 ?_
    · simp only [byteUnits, List.mem_cons, List.not_mem_nil, or_false, forall_eq_or_imp, forall_eq]
      norm_num
      refine ⟨?_, ?_, ?_⟩ <;> linarith
    · norm_num; linarith
    · norm_num; rw [abs_lt]; constructor <;> linarith
  · rw [← t3]
    obtain ⟨b1, b2⟩ := lit_bounds h
    norm_num at b1 b2
    refine bytes_text log2 powi powf tol up h.1 ⟨2 ^ 20, "MiB", 2⟩ (by simp [byteUnits]) ?_ (Or.inl ?_) 1015 ?_
    · simp only [byteUnits, List.mem_cons, List.not_mem_nil, or_false, forall_eq_or_imp, forall_eq]
      norm_num
      refine ⟨?_, ?_⟩ <;> linarith
    · norm_num; linarith
    · norm_num; rw [abs_lt]; constructor <;> linarith
  · rw [← t4]
    obtain ⟨b1, b2⟩ := lit_bounds h
    norm_num at b1 b2
    refine bytes_text log2 powi powf tol up h.1 ⟨2 ^ 30, "GiB", 2⟩ (by simp [byteUnits]) ?_ (Or.inl ?_) 1015 ?_
    · simp only [byteUnits, List.mem_cons, List.not_mem_nil, or_false, forall_eq_or_imp, forall_eq]
      norm_num
      linarith
    · norm_num; linarith
    · norm_num; rw [abs_lt]; constructor <;> linarith
  · rw [← t5]
    obtain ⟨b1, b2⟩ := lit_bounds h
    norm_num at b1 b2
    refine bytes_text log2 powi powf tol up h.1 ⟨2 ^ 40, "TiB", 2⟩ (by simp [byteUnits]) ?_ (Or.inl ?_) 1015 ?_
    · simp only [byteUnits, List.mem_cons, List.not_mem_nil, or_false, forall_eq_or_imp, forall_eq]
      norm_num
    · norm_num; linarith
    · norm_num; rw [abs_lt]; constructor <;> linarith

theorem rate_uniq (units : List MUnit) (hpos : ∀ a ∈ units, 0 < a.factor) (hinj : ∀ a ∈ units, ∀ b ∈ units, a.factor = b.factor → a = b) {v : ℝ}
    {w u : MUnit} (hw : LargestUnit units v w) {shown : ℝ} (herr : |shown * w.factor - v| ≤ v * 2 ^ (-51 : ℤ)) (hs : 1 ≤ shown)
    (hu : u ∈ units) (h1 : ∀ a ∈ units, a.factor ≤ v * (1 + 2 ^ (-51 : ℤ)) → a.factor ≤ u.factor) (h2 : u.factor ≤ v) : w = u := by
  refine hinj w hw.1 u hu (le_antisymm (h1 w hw.1 ?_) (hw.2 u hu h2))
  have h3 := (abs_le.1 herr).2
  have h4 : w.factor ≤ shown * w.factor := le_mul_of_one_le_left (hpos w hw.1).le hs
  linarith

theorem shown_near {v f shown : ℝ} (hf : 0 < f) (h : |shown * f - v| ≤ v * 2 ^ (-51 : ℤ)) :
    v / f * (1 - 2 ^ (-51 : ℤ)) ≤ shown ∧ shown ≤ v / f * (1 + 2 ^ (-51 : ℤ)) := by
  obtain ⟨h1, h2⟩ := abs_le.1 h
  constructor
  · rw [div_mul_eq_mul_div, div_le_iff₀ hf]; linarith
  · rw [div_mul_eq_mul_div, le_div_iff₀ hf]; linarith

theorem byteRate_text {v : ℝ} (hv : IsF64 v) (h0 : 1 / 3600 ≤ v) (u : MUnit) (hu : u ∈ byteRateUnits)
    (h1 : ∀ a ∈ byteRateUnits, a.factor ≤ v * (1 + 2 ^ (-51 : ℤ)) → a.factor ≤ u.factor) (h2 : u.factor ≤ v) (m : ℕ)
    (hm : (m - 1 / 2) / 100 < v / u.factor * (1 - 2 ^ (-51 : ℤ)) ∧ v / u.factor * (1 + 2 ^ (-51 : ℤ)) < (m + 1 / 2) / 100) :
    (bytesPerSecondMeasurement (E64) (fin v)).display (E64) (stdNumText up) = .ok (String.ofList (fixedText 2 m) ++ u.name) := by
  obtain ⟨w, shown, hw, hs, herr, g1, -⟩ := (C71_bytes_per_second log2 powi powf tol (stdNumText up) v hv).1 h0
  have hpos : ∀ a ∈ byteRateUnits, 0 < a.factor := by
    simp only [byteRateUnits, List.mem_cons, List.not_mem_nil, or_false, forall_eq_or_imp, forall_eq]; norm_num
  have hd : ∀ a ∈ byteRateUnits, a.decimals = 2 := by
    simp only [byteRateUnits, List.mem_cons, List.not_mem_nil, or_false, forall_eq_or_imp, forall_eq]; norm_num
  have e := rate_uniq byteRateUnits hpos (by
    intro a ha b hb
    simp only [byteRateUnits, List.mem_cons, List.not_mem_nil, or_false] at ha hb
    rcases ha with rfl | rfl | rfl | rfl | rfl | rfl | rfl <;> rcases hb with rfl | rfl | rfl | rfl | rfl | rfl | rfl <;> norm_num) hw herr g1 hu h1 h2
  subst e
  obtain ⟨k1, k2⟩ := shown_near (hpos w hu) herr
  rw [hs, hd w hu]
  show Except.ok (stdNum up 2 _ ++ _) = _
  rw [dec_text up 2 m (by linarith)]
  rw [abs_lt]; constructor <;> linarith

theorem rate_text {v : ℝ} (hv : IsF64 v) (h0 : 1 / 3600 ≤ v) (h5 : v < 100000) (unit : String) (u : MUnit) (hu : u ∈ rateUnits unit)
    (h1 : ∀ a ∈ rateUnits unit, a.factor ≤ v * (1 + 2 ^ (-51 : ℤ)) → a.factor ≤ u.factor) (h2 : u.factor ≤ v) (m : ℕ)
    (hm : (m - 1 / 2) / 100 < v / u.factor * (1 - 2 ^ (-51 : ℤ)) ∧ v / u.factor * (1 + 2 ^ (-51 : ℤ)) < (m + 1 / 2) / 100) :
    (customUnitPerSecondMeasurement (E64) .initial (fin v) unit).1.display (E64) (stdNumText up) = .ok (String.ofList (fixedText 2 m) ++ u.name) := by
  rw [(C73_caches_transparent (E64) [] (fin v) unit).2.2.2]
  obtain ⟨w, shown, hw, hs, herr, g1⟩ := (C71_custom_per_second log2 powi powf tol (stdNumText up) unit v hv).1 h0 h5
  have hpos : ∀ a ∈ rateUnits unit, 0 < a.factor := by
    simp only [rateUnits, List.mem_cons, List.not_mem_nil, or_false, forall_eq_or_imp, forall_eq]; norm_num
  have hd : ∀ a ∈ rateUnits unit, a.decimals = 2 := by
    simp only [rateUnits, List.mem_cons, List.not_mem_nil, or_false, forall_eq_or_imp, forall_eq]; norm_num
  have e := rate_uniq (rateUnits unit) hpos (by
    intro a ha b hb
    simp only [rateUnits, List.mem_cons, List.not_mem_nil, or_false] at ha hb
    rcases ha with rfl | rfl | rfl <;> rcases hb with rfl | rfl | rfl <;> norm_num) hw herr g1 hu h1 h2
  subst e
  obtain ⟨k1, k2⟩ := shown_near (hpos w hu) herr
  rw [hs, hd w hu]
  show Except.ok (stdNum up 2 _ ++ _) = _
  rw [dec_text up 2 m (by linarith)]
  rw [abs_lt]; constructor <;> linarith

/-- `test_bytes_per_second_measurement` -/
example :
    (bytesPerSecondMeasurement (E64) (fin 0)).display (E64) (stdNumText up) = .ok "0b/s" ∧
    (∀ v, Lit 0.011 v → (bytesPerSecondMeasurement (E64) (fin v)).display (E64) (stdNumText up) = .ok "39.60b/hr") ∧
    (∀ v, Lit 0.921 v → (bytesPerSecondMeasurement (E64) (fin v)).display (E64) (stdNumText up) = .ok "55.26b/min") ∧
    (∀ v, Lit 10.15 v → (bytesPerSecondMeasurement (E64) (fin v)).display (E64) (stdNumText up) = .ok "10.15b/s") ∧
    (∀ v, Lit (2 ^ 10 * 10.15) v → (bytesPerSecondMeasurement (E64) (fin v)).display (E64) (stdNumText up) = .ok "10.15KiB/s") ∧
    (∀ v, Lit (2 ^ 20 * 10.15) v → (bytesPerSecondMeasurement (E64) (fin v)).display (E64) (stdNumText up) = .ok "10.15MiB/s") ∧
    (∀ v, Lit (2 ^ 30 * 10.15) v → (bytesPerSecondMeasurement (E64) (fin v)).display (E64) (stdNumText up) = .ok "10.15GiB/s") ∧
    (∀ v, Lit (2 ^ 40 * 10.15) v → (bytesPerSecondMeasurement (E64) (fin v)).display (E64) (stdNumText up) = .ok "10.15TiB/s") := by
  have t : String.ofList (fixedText 0 0) ++ "b/s" = "0b/s" ∧ String.ofList (fixedText 2 3960) ++ "b/hr" = "39.60b/hr" ∧
      String.ofList (fixedText 2 5526) ++ "b/min" = "55.26b/min" ∧ String.ofList (fixedText 2 1015) ++ "b/s" = "10.15b/s" ∧
      String.ofList (fixedText 2 1015) ++ "KiB/s" = "10.15KiB/s" ∧ String.ofList (fixedText 2 1015) ++ "MiB/s" = "10.15MiB/s" ∧
      String.ofList (fixedText 2 1015) ++ "GiB/s" = "10.15GiB/s" ∧ String.ofList (fixedText 2 1015) ++ "TiB/s" = "10.15TiB/s" := by decide +kernel
  obtain ⟨t0, t1, t2, t3, t4, t5, t6, t7⟩ := t
  refine ⟨?_, fun v h => ?_, fun v h => ?_, fun v h => ?_, fun v h => ?_, fun v h => ?_, fun v h => ?_, fun v h => ?_⟩
  · rw [(C71_bytes_per_second log2 powi powf tol (stdNumText up) 0 ⟨le_rfl, Or.inl rfl⟩).2 (by norm_num), ← t0]
    show Except.ok (stdNum up 0 _ ++ _) = _
    rw [dec_text up 0 0 le_rfl (by norm_num)]
  · rw [← t1]
    obtain ⟨b1, b2⟩ := lit_bounds h
    norm_num at b1 b2
    refine byteRate_text log2 powi powf tol up h.1 (by linarith) ⟨1 / 3600, "b/hr", 2⟩ (by simp [byteRateUnits]) ?_ (by norm_num; linarith) 3960 ?_
    · simp only [byteRateUnits, List.mem_cons, List.not_mem_nil, or_false, forall_eq_or_imp, forall_eq]
      norm_num
      refine ⟨?_, ?_, ?_, ?_, ?_, ?_⟩ <;> linarith
    · norm_num; constructor <;> linarith
  · rw [← t2]
    obtain ⟨b1, b2⟩ := lit_bounds h
    norm_num at b1 b2
    refine byteRate_text log2 powi powf tol up h.1 (by linarith) ⟨1 / 60, "b/min", 2⟩ (by simp [byteRateUnits]) ?_ (by norm_num; linarith) 5526 ?_
    · simp only [byteRateUnits, List.mem_cons, List.not_mem_nil, or_false, forall_eq_or_imp, forall_eq]
      norm_num
      refine ⟨?_, ?_, ?_, ?_, ?_⟩ <;> linarith
    · norm_num; constructor <;> linarith
  · rw [← t3]
    obtain ⟨b1, b2⟩ := lit_bounds h
    norm_num at b1 b2
    refine byteRate_text log2 powi powf tol up h.1 (by linarith) ⟨1, "b/s", 2⟩ (by simp [byteRateUnits]) ?_ (by norm_num; linarith) 1015 ?_
    · simp only [byteRateUnits, List.mem_cons, List.not_mem_nil, or_false, forall_eq_or_imp, forall_eq]
      norm_num
      refine ⟨?_, ?_, ?_, ?_⟩ <;> linarith
    · norm_num; constructor <;> linarith
  · rw [← t4]
    obtain ⟨b1, b2⟩ := lit_bounds h
    norm_num at b1 b2
    refine byteRate_text log2 powi powf tol up h.1 (by linarith) ⟨2 ^ 10, "KiB/s", 2⟩ (by simp [byteRateUnits]) ?_ (by norm_num; linarith) 1015 ?_
    · simp only [byteRateUnits, List.mem_cons, List.not_mem_nil, or_false, forall_eq_or_imp, forall_eq]
      norm_num
      refine ⟨?_, ?_, ?_⟩ <;> linarith
    · norm_num; constructor <;> linarith
  · rw [← t5]
    obtain ⟨b1, b2⟩ := lit_bounds h
    norm_num at b1 b2
    refine byteRate_text log2 powi powf tol up h.1 (by linarith) ⟨2 ^ 20, "MiB/s", 2⟩ (by simp [byteRateUnits]) ?_ (by norm_num; linarith) 1015 ?_
    · simp only [byteRateUnits, List.mem_cons, List.not_mem_nil, or_false, forall_eq_or_imp, forall_eq]
      norm_num
      refine ⟨?_, ?_⟩ <;> linarith
    · norm_num; constructor <;> linarith
  · rw [← t6]
    obtain ⟨b1, b2⟩ := lit_bounds h
    norm_num at b1 b2
    refine byteRate_text log2 powi powf tol up h.1 (by linarith) ⟨2 ^ 30, "GiB/s", 2⟩ (by simp [byteRateUnits]) ?_ (by norm_num; linarith) 1015 ?_
    · simp only [byteRateUnits, List.mem_cons, List.not_mem_nil, or_false, forall_eq_or_imp, forall_eq]
      norm_num
      linarith
    · norm_num; constructor <;> linarith
  · rw [← t7]
    obtain ⟨b1, b2⟩ := lit_bounds h
    norm_num at b1 b2
    refine byteRate_text log2 powi powf tol up h.1 (by linarith) ⟨2 ^ 40, "TiB/s", 2⟩ (by simp [byteRateUnits]) ?_ (by norm_num; linarith) 1015 ?_
    · simp only [byteRateUnits, List.mem_cons, List.not_mem_nil, or_false, forall_eq_or_imp, forall_eq]
      norm_num
    · norm_num; constructor <;> linarith

theorem exp_row {v : ℝ} (m : ℕ) (e : ℕ) (h0 : 0 < v) (h1 : (10:ℝ) ^ e ≤ v) (h2 : v < 10 ^ (e + 1)) (h : |v * 10 ^ 3 / 10 ^ e - m| < 1 / 2)
    (hm : m ≠ 10 ^ 4) : stdExp3 up (fin v) = String.ofList (fixedText 3 m ++ exponentText e) := by
  refine exp_text up m e h0 (by exact_mod_cast h1) (by exact_mod_cast h2) ?_ hm
  have e1 : (10:ℝ) ^ (3 - (e : ℤ)) = 10 ^ 3 / 10 ^ e := by
    rw [zpow_sub₀ (by norm_num)]; norm_cast
  rw [e1, ← mul_div_assoc]
  exact h

/-- `test_custom_unit_measurement` and `test_custom_unit_per_second_measurement` -/
example (l : List UnitCall) :
    let shows (x : ℝ) (plain rate : String) := ∀ v, Lit x v →
      (customUnitMeasurement (afterCalls (E64) .initial l) (fin v) "req").1.display (E64) (stdNumText up) = .ok plain ∧
      (customUnitPerSecondMeasurement (E64) (afterCalls (E64) .initial l) (fin v) "req").1.display (E64) (stdNumText up) = .ok rate
    shows 0 "0req" "0req/s" ∧ shows 0.011 "0req" "39.60req/hr" ∧ shows 0.92 "1req" "55.20req/min" ∧ shows 10.15 "10.15req" "10.15req/s" ∧
    shows 10393.6 "10393.60req" "10393.60req/s" ∧ shows 10643046.4 "1.064e7req" "1.064e7req/s" ∧
    shows 10898479513.6 "1.090e10req" "1.090e10req/s" ∧ shows 11160043021926.4 "1.116e13req" "1.116e13req/s" := by
  intro shows
  have t : String.ofList (fixedText 0 0) ++ "req" = "0req" ∧ String.ofList (fixedText 0 1) ++ "req" = "1req" ∧
      String.ofList (fixedText 2 1015) ++ "req" = "10.15req" ∧ String.ofList (fixedText 2 1039360) ++ "req" = "10393.60req" ∧
      String.ofList (fixedText 3 1064 ++ exponentText (7 : ℕ)) ++ "req" = "1.064e7req" ∧
      String.ofList (fixedText 3 1090 ++ exponentText (10 : ℕ)) ++ "req" = "1.090e10req" ∧
      String.ofList (fixedText 3 1116 ++ exponentText (13 : ℕ)) ++ "req" = "1.116e13req" ∧
      String.ofList (fixedText 0 0) ++ ("req" ++ "/s") = "0req/s" ∧ String.ofList (fixedText 2 3960) ++ ("req" ++ "/hr") = "39.60req/hr" ∧
      String.ofList (fixedText 2 5520) ++ ("req" ++ "/min") = "55.20req/min" ∧ String.ofList (fixedText 2 1015) ++ ("req" ++ "/s") = "10.15req/s" ∧
      String.ofList (fixedText 2 1039360) ++ ("req" ++ "/s") = "10393.60req/s" ∧
      String.ofList (fixedText 3 1064 ++ exponentText (7 : ℕ)) ++ ("req" ++ "/s") = "1.064e7req/s" ∧
      String.ofList (fixedText 3 1090 ++ exponentText (10 : ℕ)) ++ ("req" ++ "/s") = "1.090e10req/s" ∧
      String.ofList (fixedText 3 1116 ++ exponentText (13 : ℕ)) ++ ("req" ++ "/s") = "1.116e13req/s" := by decide +kernel
  obtain ⟨p0, p1, p2, p3, p4, p5, p6, q0, q1, q2, q3, q4, q5, q6, q7⟩ := t
  have plain : ∀ v, IsF64 v → ∀ s, (if 100000 ≤ v then stdExp3 up (fin v) else if 1 ≤ v then stdNum up 2 (fin v) else stdNum up 0 (fin v)) ++ "req" = s →
      (customUnitMeasurement (afterCalls (E64) .initial l) (fin v) "req").1.display (E64) (stdNumText up) = .ok s := by
    intro v hv s h
    rw [(C73_caches_transparent (E64) l (fin v) "req").1, (C73_caches_transparent (E64) l (fin v) "req").2.2.1,
      C78_custom_unit log2 powi powf tol (stdNumText up) "req" v hv]
    exact congrArg Except.ok h
  have big : ∀ v, IsF64 v → 100000 ≤ v → ∀ m e : ℕ, (10:ℝ) ^ e ≤ v → v < 10 ^ (e + 1) → |v * 10 ^ 3 / 10 ^ e - m| < 1 / 2 → m ≠ 10 ^ 4 →
      (customUnitMeasurement (afterCalls (E64) .initial l) (fin v) "req").1.display (E64) (stdNumText up) =
        .ok (String.ofList (fixedText 3 m ++ exponentText e) ++ "req") ∧
      (customUnitPerSecondMeasurement (E64) (afterCalls (E64) .initial l) (fin v) "req").1.display (E64) (stdNumText up) =
        .ok (String.ofList (fixedText 3 m ++ exponentText e) ++ ("req" ++ "/s")) := by
    intro v hv h5 m e h1 h2 h hm
    have hx := exp_row up m e (by linarith) h1 h2 h hm
    refine ⟨plain v hv _ (by rw [if_pos h5, hx]), ?_⟩
    rw [(C73_caches_transparent (E64) l (fin v) "req").2.1, (C73_caches_transparent (E64) l (fin v) "req").2.2.2,
      (C71_custom_per_second log2 powi powf tol (stdNumText up) "req" v hv).2.1 h5]
    show Except.ok (stdExp3 up _ ++ _) = _
    rw [hx]
  refine ⟨fun v h => ?_, fun v h => ⟨?_, ?_⟩, fun v h => ⟨?_, ?_⟩, fun v h => ⟨?_, ?_⟩, fun v h => ⟨?_, ?_⟩, fun v h => ?_, fun v h => ?_,
    fun v h => ?_⟩
  · have e : v = 0 := by have := h.2; rw [zero_div, sub_zero] at this; exact abs_eq_zero.1 (le_antisymm this (abs_nonneg v))
    subst e
    refine ⟨plain 0 h.1 _ ?_, ?_⟩
    · rw [if_neg (by norm_num), if_neg (by norm_num), dec_text up 0 0 le_rfl (by norm_num), p0]
    · rw [(C73_caches_transparent (E64) l (fin 0) "req").2.1, (C73_caches_transparent (E64) l (fin 0) "req").2.2.2,
        (C71_custom_per_second log2 powi powf tol (stdNumText up) "req" 0 h.1).2.2 (by norm_num), ← q0]
      show Except.ok (stdNum up 0 _ ++ _) = _
      rw [dec_text up 0 0 le_rfl (by norm_num)]
  · obtain ⟨b1, b2⟩ := lit_bounds h
    norm_num at b1 b2
    refine plain v h.1 _ ?_
    rw [if_neg (by linarith), if_neg (by linarith), dec_text up 0 0 h.1.1 (by rw [abs_lt]; norm_num; constructor <;> linarith), p0]
  · obtain ⟨b1, b2⟩ := lit_bounds h
    norm_num at b1 b2
    rw [(C73_caches_transparent (E64) l (fin v) "req").2.1, ← q1]
    refine rate_text log2 powi powf tol up h.1 (by linarith) (by linarith) "req" ⟨1 / 3600, "req" ++ "/hr", 2⟩ (by simp [rateUnits]) ?_ (by norm_num; linarith) 3960 ?_
    · simp only [rateUnits, List.mem_cons, List.not_mem_nil, or_false, forall_eq_or_imp, forall_eq]
      norm_num
      refine ⟨?_, ?_⟩ <;> linarith
    · norm_num; constructor <;> linarith
  · obtain ⟨b1, b2⟩ := lit_bounds h
    norm_num at b1 b2
    refine plain v h.1 _ ?_
    rw [if_neg (by linarith), if_neg (by linarith), dec_text up 0 1 h.1.1 (by rw [abs_lt]; norm_num; constructor <;> linarith), p1]
  · obtain ⟨b1, b2⟩ := lit_bounds h
    norm_num at b1 b2
    rw [(C73_caches_transparent (E64) l (fin v) "req").2.1, ← q2]
    refine rate_text log2 powi powf tol up h.1 (by linarith) (by linarith) "req" ⟨1 / 60, "req" ++ "/min", 2⟩ (by simp [rateUnits]) ?_ (by norm_num; linarith) 5520 ?_
    · simp only [rateUnits, List.mem_cons, List.not_mem_nil, or_false, forall_eq_or_imp, forall_eq]
      norm_num
      linarith
    · norm_num; constructor <;> linarith
  · obtain ⟨b1, b2⟩ := lit_bounds h
    norm_num at b1 b2
    refine plain v h.1 _ ?_
    rw [if_neg (by linarith), if_pos (by linarith), dec_text up 2 1015 h.1.1 (by rw [abs_lt]; norm_num; constructor <;> linarith), p2]
  · obtain ⟨b1, b2⟩ := lit_bounds h
    norm_num at b1 b2
    rw [(C73_caches_transparent (E64) l (fin v) "req").2.1, ← q3]
    refine rate_text log2 powi powf tol up h.1 (by linarith) (by linarith) "req" ⟨1, "req" ++ "/s", 2⟩ (by simp [rateUnits]) ?_ (by norm_num; linarith) 1015 ?_
    · simp only [rateUnits, List.mem_cons, List.not_mem_nil, or_false, forall_eq_or_imp, forall_eq]
      norm_num
    · norm_num; constructor <;> linarith
  · obtain ⟨b1, b2⟩ := lit_bounds h
    norm_num at b1 b2
    refine plain v h.1 _ ?_
    rw [if_neg (by linarith), if_pos (by linarith), dec_text up 2 1039360 h.1.1 (by rw [abs_lt]; norm_num; constructor <;> linarith), p3]
  · obtain ⟨b1, b2⟩ := lit_bounds h
    norm_num at b1 b2
    rw [(C73_caches_transparent (E64) l (fin v) "req").2.1, ← q4]
    refine rate_text log2 powi powf tol up h.1 (by linarith) (by linarith) "req" ⟨1, "req" ++ "/s", 2⟩ (by simp [rateUnits]) ?_ (by norm_num; linarith) 1039360 ?_
    · simp only [rateUnits, List.mem_cons, List.not_mem_nil, or_false, forall_eq_or_imp, forall_eq]
      norm_num
    · norm_num; constructor <;> linarith
  · obtain ⟨b1, b2⟩ := lit_bounds h
    norm_num at b1 b2
    rw [← p4, ← q5]
    exact big v h.1 (by linarith) 1064 7 (by norm_num; linarith) (by norm_num; linarith) (by norm_num; rw [abs_lt]; constructor <;> linarith) (by norm_num)
  · obtain ⟨b1, b2⟩ := lit_bounds h
    norm_num at b1 b2
    rw [← p5, ← q6]
    exact big v h.1 (by linarith) 1090 10 (by norm_num; linarith) (by norm_num; linarith) (by norm_num; rw [abs_lt]; constructor <;> linarith) (by norm_num)
  · obtain ⟨b1, b2⟩ := lit_bounds h
    norm_num at b1 b2
    rw [← p6, ← q7]
    exact big v h.1 (by linarith) 1116 13 (by norm_num; linarith) (by norm_num; linarith) (by norm_num; rw [abs_lt]; constructor <;> linarith) (by norm_num)

end
end BigO
