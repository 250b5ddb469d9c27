import Verif.Spec.DisplaySpec
import Verif.Props.Binary64
import Verif.Proofs.Duration
import Verif.Proofs.Crud
import Verif.Proofs.Binary32Sign

/-!
# Properties of the report texts (C74-C76)
-/
namespace BigO
open F

/-! ## C76: totals -/

theorem isizeOf_small {n : ℕ} (h : n < 2 ^ 62) : isizeOf n = n := by
  unfold isizeOf; rw [if_pos (by omega)]

theorem isizeRes_ok {p e z} (h1 : -2 ^ 63 ≤ z) (h2 : z < 2 ^ 63) : isizeRes p e z = .ok z := by
  unfold isizeRes; rw [if_pos ⟨h1, h2⟩]

/-- **C76** (delta): for plausible readings, the net memory use is the sum of the differences of the passes. -/
theorem C76_delta (p : Profile) (m : SpaceMeasurements) (h1 : PlausibleReading m.pass1) (h2 : PlausibleReading m.pass2) :
    usedMemoryDelta p m =
      .ok (((m.pass1.usedAfter : ℤ) - m.pass1.usedBefore) + ((m.pass2.usedAfter : ℤ) - m.pass2.usedBefore)) := by
  obtain ⟨a1, a2, a3, a4⟩ := h1
  obtain ⟨b1, b2, b3, b4⟩ := h2
  unfold usedMemoryDelta
  rw [isizeOf_small (n := m.pass2.usedAfter) (by omega), isizeOf_small (n := m.pass2.usedBefore) (by omega),
    isizeOf_small (n := m.pass1.usedAfter) (by omega), isizeOf_small (n := m.pass1.usedBefore) (by omega),
    isizeRes_ok (by omega) (by omega)]
  simp only
  rw [isizeRes_ok (by omega) (by omega)]
  simp only
  rw [isizeRes_ok (by omega) (by omega)]
  congr 1
  ring

/-- **C76** (auxiliary space): for plausible readings, it is the sum over the passes of what the peak was above both the
reading before and the reading after. -/
theorem C76_auxiliary (p : Profile) (m : SpaceMeasurements) (h1 : PlausibleReading m.pass1) (h2 : PlausibleReading m.pass2) :
    usedAuxiliarySpace p m =
      .ok ((m.pass1.maxUsed - max m.pass1.usedAfter m.pass1.usedBefore) + (m.pass2.maxUsed - max m.pass2.usedAfter m.pass2.usedBefore)) := by
  obtain ⟨a1, a2, a3, a4⟩ := h1
  obtain ⟨b1, b2, b3, b4⟩ := h2
  have e1 : max m.pass1.usedAfter m.pass1.usedBefore ≤ m.pass1.maxUsed := max_le a3 a2
  have e2 : max m.pass2.usedAfter m.pass2.usedBefore ≤ m.pass2.maxUsed := max_le b3 b2
  unfold usedAuxiliarySpace usizeSub
  generalize max m.pass1.usedAfter m.pass1.usedBefore = x at *
  generalize max m.pass2.usedAfter m.pass2.usedBefore = y at *
  rw [if_pos e2]
  simp only
  unfold usizeAdd
  rw [if_pos (by unfold usizeMod; omega)]
  simp only
  rw [if_pos (by omega)]
  congr 1
  omega

/-- the partial sum overflows -/
theorem usedAuxiliarySpace_overflow (m : SpaceMeasurements) (h : max m.pass2.usedAfter m.pass2.usedBefore ≤ m.pass2.maxUsed)
    (hs : 2 ^ 64 ≤ m.pass2.maxUsed - max m.pass2.usedAfter m.pass2.usedBefore + m.pass1.maxUsed) :
    usedAuxiliarySpace .checked m = .error .addOverflow := by
  unfold usedAuxiliarySpace usizeSub
  rw [if_pos h]
  simp only
  unfold usizeAdd usizeMod
  rw [if_neg (not_lt.2 hs)]

/-- **C76** (overflow): with overflow checks, the auxiliary space panics if the statistics of the first pass were lost and the
second pass used auxiliary space: the terms are added in an order that overflows although the total does not. -/
theorem C76_lost_statistics_overflow (s1 s2 : SpacePass) (h1 : s1.maxUsed = usizeMax)
    (h : max s2.usedAfter s2.usedBefore < s2.maxUsed) :
    usedAuxiliarySpace .checked ⟨s1, s2⟩ = .error .addOverflow := by
  refine usedAuxiliarySpace_overflow _ h.le ?_
  show 2 ^ 64 ≤ s2.maxUsed - max s2.usedAfter s2.usedBefore + s1.maxUsed
  rw [h1]
  have e : usizeMax = 2 ^ 64 - 1 := rfl
  omega

/-- **C76** (release builds): without overflow checks the auxiliary space is right whenever the readings are consistent and the
total fits, even then. -/
theorem C76_auxiliary_wrapping (m : SpaceMeasurements)
    (h1 : max m.pass1.usedAfter m.pass1.usedBefore ≤ m.pass1.maxUsed) (h2 : max m.pass2.usedAfter m.pass2.usedBefore ≤ m.pass2.maxUsed)
    (u1 : m.pass1.maxUsed < 2 ^ 64) (u2 : m.pass2.maxUsed < 2 ^ 64)
    (hf : (m.pass1.maxUsed - max m.pass1.usedAfter m.pass1.usedBefore) + (m.pass2.maxUsed - max m.pass2.usedAfter m.pass2.usedBefore) < 2 ^ 64) :
    usedAuxiliarySpace .wrapping m =
      .ok ((m.pass1.maxUsed - max m.pass1.usedAfter m.pass1.usedBefore) + (m.pass2.maxUsed - max m.pass2.usedAfter m.pass2.usedBefore)) := by
  unfold usedAuxiliarySpace usizeSub
  generalize max m.pass1.usedAfter m.pass1.usedBefore = x at *
  generalize max m.pass2.usedAfter m.pass2.usedBefore = y at *
  rw [if_pos h2]
  simp only
  unfold usizeAdd usizeMod
  by_cases hc : m.pass2.maxUsed - y + m.pass1.maxUsed < 2 ^ 64
  · rw [if_pos hc]
    simp only
    rw [if_pos (by omega)]
    congr 1; omega
  · rw [if_neg hc]
    simp only
    by_cases hd : x ≤ (m.pass2.maxUsed - y + m.pass1.maxUsed) % 2 ^ 64
    · rw [if_pos hd]; congr 1; omega
    · rw [if_neg hd]
      show Except.ok (((m.pass2.maxUsed - y + m.pass1.maxUsed) % 2 ^ 64 + usizeMod - x) % usizeMod) = _
      have e : usizeMod = 2 ^ 64 := rfl
      rw [e]
      congr 1; omega

/-! ## C74: reports and panics -/

section
variable {E : FloatEnv} (L : FloatLaws E)
include L

omit L in
theorem fin_of_bounded {x : F} (hn : x.isNum) (h0 : (0 : EReal) ≤ x.toE) (h1 : x.toE ≤ ((2 ^ 53 : ℝ) : EReal)) (hz : ¬ x.neg) :
    ∃ y : ℝ, x = fin y ∧ 0 ≤ y ∧ y ≤ 2 ^ 53 := by
  cases x with
  | nan => exact absurd hn id
  | inf s =>
    cases s with
    | false => rw [F.toE] at h1; exact absurd h1 (not_le.2 (EReal.coe_lt_top _))
    | true => exact absurd rfl hz
  | nzero => exact absurd trivial hz
  | fin y =>
    rw [F.toE] at h0 h1
    exact ⟨y, rfl, by exact_mod_cast h0, by exact_mod_cast h1⟩

theorem rnd0_bounded {x : ℝ} (h0 : 0 ≤ x) (h1 : x ≤ 2 ^ 53) : ∃ y : ℝ, E.rnd0 x = fin y ∧ 0 ≤ y ∧ y ≤ 2 ^ 53 := by
  have hn := rnd0_nonneg L h0
  refine fin_of_bounded hn.2.1 ?_ ?_ ?_
  · have := hn.2.2; simpa [F.toE] using this
  · have := rnd0_mono L h1
    have e : E.rnd0 (2 ^ 53) = fin (2 ^ 53) := by
      unfold FloatEnv.rnd0
      rw [if_neg (by norm_num)]
      have := L.rnd_nat (2 ^ 53) le_rfl
      exact_mod_cast this
    rw [e] at this
    exact this
  · unfold FloatEnv.rnd0
    split
    · simp [F.neg]
    · rename_i h; exact L.rnd_pos x (lt_of_le_of_ne h0 (Ne.symm h))

theorem timePerElement_ok {d : Duration} (hd : PlausibleTime d) {n : ℕ} (hn : 0 < n) (hn' : n < 2 ^ 32) :
    ∃ x, timePerElement E d n = .ok x := by
  have hd' : d / 10 ^ 9 < 2 ^ 53 := hd
  obtain ⟨y, y0, y1, e, -, -⟩ := asSecs_eq L (d := d) (le_of_lt hd')
  have hb : ((d / 10 ^ 9 : ℕ) : ℝ) + y ≤ 2 ^ 53 := by
    have : ((d / 10 ^ 9 + 1 : ℕ) : ℝ) ≤ ((2 ^ 53 : ℕ) : ℝ) := by exact_mod_cast hd'
    push_cast at this ⊢
    linarith
  obtain ⟨s, hs, s0, s1⟩ := rnd0_bounded L (x := ((d / 10 ^ 9 : ℕ) : ℝ) + y) (by positivity) hb
  have hnat : E.ofNat n = fin n := by
    unfold FloatEnv.ofNat FloatEnv.rnd0
    rw [if_neg (by exact_mod_cast hn.ne'), L.rnd_nat n (by omega)]
  have hnpos : (0:ℝ) < n := by exact_mod_cast hn
  have hn1 : (1:ℝ) ≤ n := by exact_mod_cast hn
  unfold timePerElement
  rw [e, hs, hnat]
  have hfin : ∃ z : ℝ, E.div (fin s) (fin n) = fin z ∧ 0 ≤ z ∧ z ≤ 2 ^ 53 := by
    rcases s0.eq_or_lt with h0 | h0
    · subst h0
      refine ⟨0, ?_, le_rfl, by norm_num⟩
      simp [FloatEnv.div, FloatEnv.divFin, F.val, hnpos.ne', F.zero, F.neg, Xor, not_lt.2 hnpos.le]
    · rw [div_fin_fin_pos h0 hnpos.ne']
      have hq : s / n ≤ 2 ^ 53 := by
        rw [div_le_iff₀ hnpos]; nlinarith
      have := rnd0_bounded L (x := s / n) (by positivity) hq
      unfold FloatEnv.rnd0 at this
      rwa [if_neg (by positivity)] at this
  obtain ⟨z, hz, z0, z1⟩ := hfin
  rw [hz]
  unfold fromSecsF64
  exact ⟨_, by
    simp only
    rw [if_pos ⟨z0, lt_of_le_of_lt z1 (by norm_num)⟩]⟩

end

theorem memAmount_ok (T : TextEnv) (p : Profile) {s : SpacePass} (h : PlausibleReading s) (n : ℕ) :
    memAmount T p s n = .ok (T.f32.div (T.f32.ofNat (max (s.maxUsed - s.usedBefore) (s.usedBefore - s.minUsed))) (T.f32.ofNat n)) := by
  unfold memAmount usizeSub
  rw [if_pos h.before_le, if_pos h.min_le]

theorem fmtOverN_ok (T : TextEnv) (p : Profile) {s : SpacePass} (h : PlausibleReading s) (n : ℕ) : ∃ t, fmtOverN T p s n = .ok t := by
  unfold fmtOverN
  rw [memAmount_ok T p h]
  exact ⟨_, rfl⟩

theorem displaySpace_ok (T : TextEnv) (p : Profile) (m : SpaceMeasurements) (h1 : PlausibleReading m.pass1) (h2 : PlausibleReading m.pass2) :
    ∃ t, displaySpace T p m = .ok t := by
  unfold displaySpace
  rw [C76_delta p m h1 h2, C76_auxiliary p m h1 h2]
  obtain ⟨a1, a2, a3, a4⟩ := h1
  obtain ⟨b1, b2, b3, b4⟩ := h2
  simp only
  unfold isizeAbs
  have hb : |((m.pass1.usedAfter : ℤ) - m.pass1.usedBefore) + ((m.pass2.usedAfter : ℤ) - m.pass2.usedBefore)| < 2 ^ 63 := by
    rw [abs_lt]; constructor <;> omega
  rw [isizeRes_ok (le_trans (by norm_num) (abs_nonneg _)) hb]
  exact ⟨_, rfl⟩

/-- **C74**, true part: for plausible readings and durations and non-zero element counts, no report panics.
Missing: element counts of zero, set sizes of 2^31 or more (with overflow checks) and lost statistics, see the other theorems. -/
theorem C74_no_panic_partial (E : FloatEnv) (L : FloatLaws E) (T : TextEnv) (p : Profile) (tm : TimeMeasurements) (sm : SpaceMeasurements)
    (h1 : PlausibleReading sm.pass1) (h2 : PlausibleReading sm.pass2) (d1 : PlausibleTime tm.pass1) (d2 : PlausibleTime tm.pass2)
    (name : String) (time space : Complexity) :
    (∀ n1 n2, 0 < n1 → n1 < 2 ^ 32 → 0 < n2 → n2 < 2 ^ 32 →
      ∃ t, reportRegular E T p ⟨time, space, ⟨name, ⟨n1, n2⟩, tm, sm⟩⟩ = .ok t) ∧
    (∀ s1 s2 r, 0 < r → r < 2 ^ 32 → ∃ t, reportConstantSet E T p ⟨time, space, ⟨name, ⟨s1, s2, r⟩, tm, sm⟩⟩ = .ok t) ∧
    (∀ n, 0 < n → 2 * n < 2 ^ 32 → ∃ t, reportSetResizing E T p ⟨time, space, ⟨name, ⟨n⟩, tm, sm⟩⟩ = .ok t) := by
  obtain ⟨x, hx⟩ := displaySpace_ok T p sm h1 h2
  obtain ⟨s1, hs1⟩ := fmtOverN_ok T p h1 1
  obtain ⟨s2, hs2⟩ := fmtOverN_ok T p h2 1
  refine ⟨?_, ?_, ?_⟩
  · intro n1 n2 a1 a2 b1 b2
    obtain ⟨y1, hy1⟩ := fmtOverN_ok T p h1 n1
    obtain ⟨y2, hy2⟩ := fmtOverN_ok T p h2 n2
    obtain ⟨t1, ht1⟩ := timePerElement_ok L d1 a1 a2
    obtain ⟨t2, ht2⟩ := timePerElement_ok L d2 b1 b2
    unfold reportRegular displayAnalysis displayRegular displaySpacePass
    simp only [hx, hs1, hs2, hy1, hy2, ht1, ht2, bind, Except.bind, pure, Except.pure]
    exact ⟨_, rfl⟩
  · intro z1 z2 r a1 a2
    obtain ⟨t1, ht1⟩ := timePerElement_ok L d1 a1 a2
    obtain ⟨t2, ht2⟩ := timePerElement_ok L d2 a1 a2
    unfold reportConstantSet displayAnalysis displayConstantSet displaySpacePass
    simp only [hx, hs1, hs2, ht1, ht2, bind, Except.bind, pure, Except.pure]
    exact ⟨_, rfl⟩
  · intro n a1 a2
    obtain ⟨t1, ht1⟩ := timePerElement_ok L d1 a1 (by omega)
    obtain ⟨t2, ht2⟩ := timePerElement_ok L d2 a1 (by omega)
    have hm : u32Mul p n 2 = .ok (n * 2) := u32Mul_ok p (by omega)
    unfold reportSetResizing displayAnalysis displaySetResizing displaySpacePass
    simp only [hx, hs1, hs2, ht1, ht2, hm, bind, Except.bind, pure, Except.pure]
    exact ⟨_, rfl⟩

theorem bind_error {α β : Type} (x : Rs α) (f : α → Rs β) (h : ∀ a, ∃ e, f a = .error e) : ∃ e, (x >>= f) = .error e := by
  cases x with
  | error e => exact ⟨e, rfl⟩
  | ok a => exact h a

theorem bind_error_left {α β : Type} {x : Rs α} (f : α → Rs β) (h : ∃ e, x = .error e) : ∃ e, (x >>= f) = .error e := by
  obtain ⟨e, rfl⟩ := h; exact ⟨e, rfl⟩

theorem div_zero_not_fin (E : FloatEnv) (x : F) : E.div x (fin 0) = nan ∨ ∃ s, E.div x (fin 0) = inf s := by
  cases x with
  | nan => exact Or.inl rfl
  | inf s => exact Or.inr ⟨_, rfl⟩
  | nzero => left; simp [FloatEnv.div, FloatEnv.divFin, F.val]
  | fin y =>
    by_cases h : y = 0
    · left; simp [FloatEnv.div, FloatEnv.divFin, F.val, h]
    · right
      refine ⟨@decide (Xor (fin y).neg (fin 0).neg) (Classical.propDecidable _), ?_⟩
      show E.divFin (fin y) (fin 0) = _
      unfold FloatEnv.divFin
      rw [if_pos (show (fin 0).val = 0 from rfl), if_neg (show ¬ (fin y).val = 0 from h)]
      unfold F.infS
      congr

theorem timePerElement_zero (E : FloatEnv) (d : Duration) : ∃ e, timePerElement E d 0 = .error e := by
  unfold timePerElement
  have : E.ofNat 0 = fin 0 := by simp [FloatEnv.ofNat, FloatEnv.rnd0]
  rw [this]
  rcases div_zero_not_fin E (asSecsF64 E d) with h | ⟨s, h⟩
  · rw [h]; exact ⟨_, rfl⟩
  · rw [h]; exact ⟨_, rfl⟩

/-- **C74** (zero elements): the report of any analysis with an element count of zero panics, whatever was measured, in every
arithmetic. -/
theorem C74_zero_elements_panics (E : FloatEnv) (T : TextEnv) (p : Profile) (tm : TimeMeasurements) (sm : SpaceMeasurements)
    (name : String) (time space : Complexity) :
    (∀ n1 n2, n1 = 0 ∨ n2 = 0 → ∃ e, reportRegular E T p ⟨time, space, ⟨name, ⟨n1, n2⟩, tm, sm⟩⟩ = .error e) ∧
    (∀ s1 s2, ∃ e, reportConstantSet E T p ⟨time, space, ⟨name, ⟨s1, s2, 0⟩, tm, sm⟩⟩ = .error e) ∧
    (∃ e, reportSetResizing E T p ⟨time, space, ⟨name, ⟨0⟩, tm, sm⟩⟩ = .error e) := by
  refine ⟨?_, ?_, ?_⟩
  · intro n1 n2 h
    refine bind_error_left _ ?_
    refine bind_error _ _ fun _ => bind_error _ _ fun _ => bind_error _ _ fun _ => bind_error _ _ fun _ => ?_
    rcases h with rfl | rfl
    · exact bind_error_left _ (timePerElement_zero E _)
    · exact bind_error _ _ fun _ => bind_error_left _ (timePerElement_zero E _)
  · intro s1 s2
    refine bind_error_left _ ?_
    exact bind_error _ _ fun _ => bind_error _ _ fun _ => bind_error_left _ (timePerElement_zero E _)
  · refine bind_error_left _ ?_
    exact bind_error _ _ fun _ => bind_error _ _ fun _ => bind_error_left _ (timePerElement_zero E _)

/-- **C74** (large sets): with overflow checks, the report of a create or delete analysis of 2^31 elements or more panics. -/
theorem C74_large_set_panics (E : FloatEnv) (T : TextEnv) (tm : TimeMeasurements) (sm : SpaceMeasurements)
    (name : String) (time space : Complexity) (n : ℕ) (h : 2 ^ 31 ≤ n) :
    ∃ e, reportSetResizing E T .checked ⟨time, space, ⟨name, ⟨n⟩, tm, sm⟩⟩ = .error e := by
  refine bind_error_left _ ?_
  refine bind_error _ _ fun _ => bind_error _ _ fun _ => bind_error _ _ fun _ => bind_error_left _ ?_
  exact ⟨.mulOverflow, by unfold u32Mul; rw [if_neg (by simp only; omega)]⟩

/-- **C74** (lost statistics): with overflow checks, every report panics if the statistics of the first pass were lost and the
second pass used auxiliary space. -/
theorem C74_lost_statistics_panics (E : FloatEnv) (T : TextEnv) (tm : TimeMeasurements) (s1 s2 : SpacePass)
    (h1 : s1.maxUsed = usizeMax) (h : max s2.usedAfter s2.usedBefore < s2.maxUsed) (name : String) (time space : Complexity) :
    (∀ i, ∃ e, reportRegular E T .checked ⟨time, space, ⟨name, i, tm, ⟨s1, s2⟩⟩⟩ = .error e) ∧
    (∀ i, ∃ e, reportConstantSet E T .checked ⟨time, space, ⟨name, i, tm, ⟨s1, s2⟩⟩⟩ = .error e) ∧
    (∀ i, ∃ e, reportSetResizing E T .checked ⟨time, space, ⟨name, i, tm, ⟨s1, s2⟩⟩⟩ = .error e) := by
  have key : ∃ e, displaySpace T .checked ⟨s1, s2⟩ = .error e := by
    unfold displaySpace
    rw [C76_lost_statistics_overflow s1 s2 h1 h]
    split
    · exact ⟨_, rfl⟩
    · exact ⟨_, rfl⟩
  exact ⟨fun i => bind_error _ _ fun _ => bind_error_left _ key, fun i => bind_error _ _ fun _ => bind_error_left _ key,
    fun i => bind_error _ _ fun _ => bind_error_left _ key⟩

/-! ## C75: sign and unit -/

/-- **C75** (exact arithmetic): for plausible readings and `n ≥ 1` the text is the sign of the change, the excursion per element
in the unit, and the unit: `b` up to 1024, `KiB` and `MiB` with numbers in (1, 1024], `GiB` above 1. -/
theorem C75_text (t : ℝ) (T : TextEnv) (hT : T.f32 = exactEnv t) (p : Profile) (s : SpacePass) (h : PlausibleReading s) (n : ℕ) (hn : 1 ≤ n) :
    ∃ (num : F → String) (unit : String) (scale : ℝ),
      fmtOverN T p s n = .ok (signOf s ++ num (fin (excursionPerElement s n / scale)) ++ unit) ∧
      (num = T.num0 ∨ num = T.num2) ∧
      ((∃ lo hi, (unit, scale, lo, hi) ∈ unitTable ∧ lo < excursionPerElement s n / scale ∧ excursionPerElement s n / scale ≤ hi) ∨
       (unit = "GiB" ∧ scale = 2 ^ 30 ∧ 1 < excursionPerElement s n / scale)) := by
  have hnpos : (0:ℝ) < n := by exact_mod_cast hn
  have hx : T.f32.div (T.f32.ofNat (max (s.maxUsed - s.usedBefore) (s.usedBefore - s.minUsed))) (T.f32.ofNat n) =
      fin (excursionPerElement s n) := by
    rw [hT, ex_ofNat, ex_ofNat, ex_div (by positivity) hnpos]
    unfold excursionPerElement
    rw [Nat.cast_max, Nat.cast_sub h.before_le, Nat.cast_sub h.min_le]
  have hr0 : 0 ≤ excursionPerElement s n := by
    have : fin 0 ≤ fin (excursionPerElement s n) ∨ True := Or.inr trivial
    unfold excursionPerElement
    apply div_nonneg _ hnpos.le
    refine le_max_of_le_left ?_
    have : (s.usedBefore : ℝ) ≤ s.maxUsed := by exact_mod_cast h.before_le
    linarith
  have hsign : memSign T s n = signOf s := by
    unfold memSign signOf
    rw [hT]
    rw [ex_ofNat, ex_ofNat, ex_ofNat, ex_sub]
    have hdiv : (exactEnv t).div (fin ((s.usedAfter : ℝ) - s.usedBefore)) (fin n) =
        fin (((s.usedAfter : ℝ) - s.usedBefore) / n) ∨ ((s.usedAfter : ℝ) - s.usedBefore = 0 ∧
          (exactEnv t).div (fin ((s.usedAfter : ℝ) - s.usedBefore)) (fin n) = fin 0) := by
      by_cases h0 : (s.usedAfter : ℝ) - s.usedBefore = 0
      · right
        refine ⟨h0, ?_⟩
        rw [h0, ex_div le_rfl hnpos, zero_div]
      · left
        show (exactEnv t).divFin (fin ((s.usedAfter : ℝ) - s.usedBefore)) (fin n) = _
        unfold FloatEnv.divFin
        rw [if_neg (show ¬ (fin (n : ℝ)).val = 0 from hnpos.ne'), if_neg (show ¬ (fin ((s.usedAfter : ℝ) - s.usedBefore)).val = 0 from h0)]
        rfl
    rcases lt_trichotomy s.usedBefore s.usedAfter with hlt | heq | hgt
    · have hp : (0:ℝ) < (s.usedAfter : ℝ) - s.usedBefore := by
        have : (s.usedBefore : ℝ) < s.usedAfter := by exact_mod_cast hlt
        linarith
      rw [if_pos hlt]
      rcases hdiv with hd | ⟨h0, -⟩
      · rw [hd, if_pos]
        rw [F.fin_lt_fin]; positivity
      · linarith
    · have h0 : (s.usedAfter : ℝ) - s.usedBefore = 0 := by rw [heq]; ring
      have hd : (exactEnv t).div (fin ((s.usedAfter : ℝ) - s.usedBefore)) (fin n) = fin 0 := by
        rw [h0, ex_div le_rfl hnpos, zero_div]
      rw [hd, if_neg (by rw [F.fin_lt_fin]; exact lt_irrefl _), if_neg (by rw [F.fin_lt_fin]; exact lt_irrefl _), if_neg (by omega), if_neg (by omega)]
    · have hp : (s.usedAfter : ℝ) - s.usedBefore < 0 := by
        have : (s.usedAfter : ℝ) < s.usedBefore := by exact_mod_cast hgt
        linarith
      have hq : ((s.usedAfter : ℝ) - s.usedBefore) / n < 0 := div_neg_of_neg_of_pos hp hnpos
      rw [if_neg (show ¬ s.usedBefore < s.usedAfter by omega), if_pos hgt]
      rcases hdiv with hd | ⟨h0, -⟩
      · rw [hd, if_neg (by rw [F.fin_lt_fin]; exact not_lt.2 hq.le), if_pos (by rw [F.fin_lt_fin]; exact hq)]
      · linarith
  have hscale : ∀ k : ℝ, 0 < k → T.f32.div (fin (excursionPerElement s n)) (fin k) = fin (excursionPerElement s n / k) := by
    intro k hk; rw [hT, ex_div hr0 hk]
  unfold fmtOverN
  rw [memAmount_ok T p h, hx, hsign]
  generalize excursionPerElement s n = r at *
  unfold memUnit memScaled
  simp only [F.fin_lt_fin]
  by_cases h30 : (2:ℝ) ^ 30 < r
  · refine ⟨T.num2, "GiB", 2 ^ 30, ?_, Or.inr rfl, Or.inr ⟨rfl, rfl, ?_⟩⟩
    · simp only [if_pos h30, hscale _ (show (0:ℝ) < 2 ^ 30 by norm_num)]
      rw [if_neg (by simp)]
    · rw [lt_div_iff₀ (by norm_num)]; linarith
  · by_cases h20 : (2:ℝ) ^ 20 < r
    · refine ⟨T.num2, "MiB", 2 ^ 20, ?_, Or.inr rfl, Or.inl ⟨1, 2 ^ 10, by simp [unitTable], ?_, ?_⟩⟩
      · simp only [if_neg h30, if_pos h20, hscale _ (show (0:ℝ) < 2 ^ 20 by norm_num)]
        rw [if_neg (by simp)]
      · rw [lt_div_iff₀ (by norm_num)]; linarith
      · rw [div_le_iff₀ (by norm_num)]; norm_num at h30 ⊢; linarith
    · by_cases h10 : (2:ℝ) ^ 10 < r
      · refine ⟨T.num2, "KiB", 2 ^ 10, ?_, Or.inr rfl, Or.inl ⟨1, 2 ^ 10, by simp [unitTable], ?_, ?_⟩⟩
        · simp only [if_neg h30, if_neg h20, if_pos h10, hscale _ (show (0:ℝ) < 2 ^ 10 by norm_num)]
          rw [if_neg (by simp)]
        · rw [lt_div_iff₀ (by norm_num)]; linarith
        · rw [div_le_iff₀ (by norm_num)]; norm_num at h20 ⊢; linarith
      · refine ⟨if T.whole (fin r) then T.num0 else T.num2, "b", 1, ?_, ?_, Or.inl ⟨-1, 2 ^ 10, by simp [unitTable], ?_, ?_⟩⟩
        · simp only [if_neg h30, if_neg h20, if_neg h10, div_one]
          cases T.whole (fin r) <;> simp
        · split
          · exact Or.inl rfl
          · exact Or.inr rfl
        · rw [div_one]; linarith
        · rw [div_one]; linarith

/-- **C75** (`f32`, soundness): in binary32 arithmetic, `+` is shown only if memory use grew, `-` only if it shrank, for any
readings and element count. -/
theorem C75_sign_sound (T : TextEnv) (hT : T.f32.rnd = binary32.round) (s : SpacePass) (n : ℕ) :
    (memSign T s n = "+" → s.usedBefore < s.usedAfter) ∧ (memSign T s n = "-" → s.usedAfter < s.usedBefore) := by
  have hnn : ∀ k : ℕ, (T.f32.ofNat k).NonnegNum := fun k => r32_nonneg hT (Nat.cast_nonneg k)
  unfold memSign
  constructor
  · intro h
    by_contra hc
    have h1 := div32_nonpos hT (sub32_sign hT (hnn s.usedAfter) (hnn s.usedBefore) (ofNat32_mono hT (by omega))) (hnn n)
    simp only [if_neg h1] at h
    split at h
    · exact absurd h (by decide)
    · exact absurd h (by decide)
  · intro h
    by_contra hc
    have h1 := div32_nonneg hT (sub32_sign' hT (hnn s.usedAfter) (hnn s.usedBefore) (ofNat32_mono hT (by omega))) (hnn n)
    simp only [if_neg h1] at h
    split at h
    · exact absurd h (by decide)
    · exact absurd h (by decide)

/-- **C75** (`f32`, limit): a growth by one byte from 16 MiB shows no sign: the readings round to the same `f32`. -/
theorem C75_sign_lost (T : TextEnv) (hT : T.f32.rnd = binary32.round) :
    memSign T ⟨2 ^ 24, 2 ^ 24 + 1, 2 ^ 24 + 1, 2 ^ 24⟩ 1 = "" := by
  have h1 : T.f32.ofNat (2 ^ 24) = fin (2 ^ 24) := by
    unfold FloatEnv.ofNat FloatEnv.rnd0
    rw [if_neg (by norm_num), hT, (C17_integers_exact _).2 le_rfl]; norm_num
  have h2 : T.f32.ofNat (2 ^ 24 + 1) = fin (2 ^ 24) := by
    unfold FloatEnv.ofNat FloatEnv.rnd0
    rw [if_neg (by positivity), hT, binary32_tie]
  have h3 : T.f32.ofNat 1 = fin 1 := by
    unfold FloatEnv.ofNat FloatEnv.rnd0
    rw [if_neg (by norm_num), hT, (C17_integers_exact _).2 (by norm_num)]; norm_num
  unfold memSign
  rw [h1, h2, h3]
  have : T.f32.div (T.f32.sub (fin (2 ^ 24)) (fin (2 ^ 24))) (fin 1) = fin 0 := by
    simp [FloatEnv.sub, FloatEnv.rnd0, FloatEnv.div, FloatEnv.divFin, F.zero, F.neg, Xor]
  rw [this, if_neg (by simp), if_neg (by simp)]

/-! ## concrete cases -/

-- a pass that started with 1000 bytes in use, peaked at 9000, ended at 5000
example : PlausibleReading ⟨1000, 5000, 9000, 1000⟩ := ⟨by norm_num, by norm_num, by norm_num, by norm_num⟩
-- two seconds
example : PlausibleTime 2000000000 := by unfold PlausibleTime; norm_num
-- its totals, twice: 8000 bytes allocated, 8000 bytes auxiliary
example : usedMemoryDelta .checked ⟨⟨1000, 5000, 9000, 1000⟩, ⟨1000, 5000, 9000, 1000⟩⟩ = .ok 8000 := by decide
example : usedAuxiliarySpace .checked ⟨⟨1000, 5000, 9000, 1000⟩, ⟨1000, 5000, 9000, 1000⟩⟩ = .ok 8000 := by decide
-- a lost first pass, as the runner records it, and a second one with auxiliary space
example : (⟨0, usizeMax, usizeMax, 0⟩ : SpacePass).maxUsed = usizeMax ∧ max 5000 1000 < 9000 := ⟨rfl, by decide⟩
-- the text for 2 bytes allocated per element, with any formatting of numbers
example (t : ℝ) (T : TextEnv) (hT : T.f32 = exactEnv t) : signOf ⟨0, 2048, 2048, 0⟩ = "+" ∧
    excursionPerElement ⟨0, 2048, 2048, 0⟩ 1024 = 2 ∧ ∃ s, fmtOverN T .checked ⟨0, 2048, 2048, 0⟩ 1024 = .ok s := by
  refine ⟨by decide, by unfold excursionPerElement; norm_num, ?_⟩
  obtain ⟨num, unit, scale, h, -⟩ := C75_text t T hT .checked ⟨0, 2048, 2048, 0⟩ ⟨by norm_num, by norm_num, by norm_num, by norm_num⟩ 1024 (by norm_num)
  exact ⟨_, h⟩

end BigO
