import Verif.Props.Report

/-!
# Memory amounts in reports, in the shipped `f32` arithmetic (C75, C81)
-/
namespace BigO
open F

section
variable {E : FloatEnv} (hE : E.rnd = binary32.round)

/-! ## binary32 -/

/-- rounding in the normal range -/
theorem r32_near {x : ℝ} (h1 : (2:ℝ) ^ (-100 : ℤ) ≤ x) (h2 : x ≤ 2 ^ 100) :
    ∃ y, binary32.round x = fin y ∧ binary32.round (-x) = fin (-y) ∧ 0 < y ∧ |y - x| ≤ x * 2 ^ (-24 : ℤ) ∧ binary32.roundMag y = y := by
  have hx : 0 < x := lt_of_lt_of_le (by positivity) h1
  have hrel : |binary32.roundMag x - x| ≤ x * 2 ^ (-24 : ℤ) := by
    have := Format.roundMag_rel (f := binary32) (x := x) (le_trans (by
      show (2:ℝ) ^ (-126 : ℤ) ≤ 2 ^ (-100 : ℤ)
      rw [Format.zpow_le_iff]; norm_num) h1)
    exact this
  have hlin : x / 2 ≤ binary32.roundMag x ∧ binary32.roundMag x ≤ 2 * x := by
    have h24 : x * (2:ℝ) ^ (-24 : ℤ) ≤ x / 2 := by
      rw [div_eq_mul_one_div]; exact mul_le_mul_of_nonneg_left (by norm_num) hx.le
    have := abs_le.1 (hrel.trans h24)
    constructor <;> linarith [this.1, this.2]
  have hpos : 0 < binary32.roundMag x := by linarith [hlin.1]
  have hlt : binary32.roundMag x < 2 ^ (binary32.emax + 1) := by
    have h3 : (2:ℝ) ^ (binary32.emax + 1) = 2 ^ 128 := by
      show (2:ℝ) ^ ((127:ℤ) + 1) = _
      norm_num
    rw [h3]
    have h4 : binary32.roundMag x ≤ 2 * 2 ^ 100 := hlin.2.trans (mul_le_mul_of_nonneg_left h2 (by norm_num))
    exact lt_of_le_of_lt h4 (by norm_num)
  exact ⟨_, Format.round_of_mag hx rfl hpos.ne' hlt, Format.round_neg_of_mag hx rfl hpos.ne' hlt, hpos, hrel,
    Format.roundMag_idem Format.ok32 hx.le⟩

/-- dividing an `f32` by a power of two not above it is exact -/
theorem r32_scale {v : ℝ} (hm : binary32.roundMag v = v) (j : ℕ) (hj : j ≤ 40) (hge : (2:ℝ) ^ j ≤ v) (hlt : v ≤ 2 ^ 101) :
    binary32.round (v / 2 ^ j) = fin (v / 2 ^ j) := by
  have hv0 : 0 < v := lt_of_lt_of_le (by positivity) hge
  obtain ⟨k, q, hk, hq, hkq⟩ := Format.roundMag_form Format.ok32 hv0.le
  rw [hm] at hkq
  have hk' : ((k : ℕ) : ℝ) < 2 ^ (24 : ℤ) := by
    have : k < 2 ^ 24 := hk
    exact_mod_cast this
  have hq' : -24 < q := by
    have h1 : (1:ℝ) ≤ v := le_trans (one_le_pow₀ (by norm_num)) hge
    have h2 : (2:ℝ) ^ (-24 + 24 : ℤ) < 2 ^ (24 + q : ℤ) := by
      rw [zpow_add₀ (by norm_num) 24 q]
      have h3 : v < 2 ^ (24:ℤ) * 2 ^ q := by
        rw [hkq]; exact mul_lt_mul_of_pos_right hk' (Format.two_zpow_pos _)
      have : (2:ℝ) ^ (-24 + 24 : ℤ) = 1 := by norm_num
      rw [this]; linarith
    rw [Format.zpow_lt_iff] at h2
    omega
  have hdiv : v / 2 ^ j = k * (2:ℝ) ^ (q - j : ℤ) := by
    rw [hkq, zpow_sub₀ (by norm_num), zpow_natCast]; ring
  have hmag : binary32.roundMag (v / 2 ^ j) = v / 2 ^ j := by
    rw [hdiv]; exact Format.roundMag_exact hk (by simp only [binary32]; push_cast; omega)
  have hpos : 0 < v / 2 ^ j := by positivity
  refine Format.round_of_mag hpos hmag hpos.ne' (lt_of_le_of_lt (div_le_self hv0.le (one_le_pow₀ (by norm_num))) (lt_of_le_of_lt hlt ?_))
  show (2:ℝ) ^ 101 < 2 ^ ((127:ℤ) + 1)
  norm_num

/-- a non-negative `f32` of moderate size -/
def IsF32 (v : ℝ) : Prop := 0 ≤ v ∧ v ≤ 2 ^ 101 ∧ (v = 0 ∨ binary32.roundMag v = v)

include hE in
theorem ofNat32 {n : ℕ} (hn : n ≤ 2 ^ 64) : ∃ y, E.ofNat n = fin y ∧ IsF32 y ∧ |y - n| ≤ n * 2 ^ (-24 : ℤ) ∧
    (n ≤ 2 ^ 24 → y = n) := by
  unfold FloatEnv.ofNat FloatEnv.rnd0
  by_cases h0 : (n:ℝ) = 0
  · rw [if_pos h0]
    exact ⟨0, rfl, ⟨le_rfl, by positivity, Or.inl rfl⟩, by simp [h0], fun _ => h0.symm⟩
  rw [if_neg h0, hE]
  have hn1 : (1:ℝ) ≤ n := by
    have : n ≠ 0 := by exact_mod_cast h0
    exact_mod_cast (by omega : 1 ≤ n)
  have hn2 : (n:ℝ) ≤ 2 ^ 64 := by exact_mod_cast hn
  obtain ⟨y, hy, -, hpos, hrel, hmag⟩ := r32_near (x := n) (le_trans (by norm_num) hn1) (le_trans hn2 (by norm_num))
  refine ⟨y, hy, ⟨hpos.le, ?_, Or.inr hmag⟩, hrel, fun h => ?_⟩
  · rw [abs_le] at hrel
    have : (n:ℝ) * 2 ^ (-24 : ℤ) ≤ n * 1 := mul_le_mul_of_nonneg_left (by norm_num) (by linarith)
    have h3 : y ≤ 2 * 2 ^ 64 := by linarith [hrel.2]
    exact le_trans h3 (by norm_num)
  · have := Format.round_nat Format.ok32 (f := binary32) (n := n) h
    rw [hy] at this
    exact F.fin.inj this

/-! ## amounts -/

/-- unit and number for an `f32` amount -/
theorem shown32 (T : TextEnv) (hT : T.f32.rnd = binary32.round) {v : ℝ} (hv : IsF32 v) :
    ∃ scale, 0 < scale ∧ memScaled T (fin v) = fin (v / scale) ∧
      ((∃ lo hi, (memUnit (fin v), scale, lo, hi) ∈ unitTable ∧ lo < v / scale ∧ v / scale ≤ hi) ∨
        (memUnit (fin v) = "GiB" ∧ scale = 2 ^ 30 ∧ 1 < v / scale)) := by
  have hscale : ∀ j : ℕ, j ≤ 40 → (2:ℝ) ^ j < v → T.f32.div (fin v) (fin (2 ^ j)) = fin (v / 2 ^ j) := by
    intro j hj hlt
    have hv0 : 0 < v := lt_trans (by positivity) hlt
    have hm : binary32.roundMag v = v := by
      rcases hv.2.2 with h | h
      · exact absurd h hv0.ne'
      · exact h
    rw [div_fin_fin_pos hv0 (by positivity), hT]
    exact r32_scale hm j hj hlt.le hv.2.1
  unfold memUnit memScaled
  simp only [F.fin_lt_fin]
  by_cases h30 : (2:ℝ) ^ 30 < v
  · refine ⟨2 ^ 30, by positivity, ?_, Or.inr ⟨?_, rfl, ?_⟩⟩
    · rw [if_pos h30, hscale 30 (by norm_num) h30]
    · rw [if_pos h30]
    · rw [lt_div_iff₀ (by norm_num)]; linarith
  by_cases h20 : (2:ℝ) ^ 20 < v
  · refine ⟨2 ^ 20, by positivity, ?_, Or.inl ⟨1, 2 ^ 10, ?_, ?_, ?_⟩⟩
    · rw [if_neg h30, if_pos h20, hscale 20 (by norm_num) h20]
    · rw [if_neg h30, if_pos h20]; simp [unitTable]
    · rw [lt_div_iff₀ (by norm_num)]; linarith
    · rw [div_le_iff₀ (by norm_num)]; norm_num at h30 ⊢; linarith
  by_cases h10 : (2:ℝ) ^ 10 < v
  · refine ⟨2 ^ 10, by positivity, ?_, Or.inl ⟨1, 2 ^ 10, ?_, ?_, ?_⟩⟩
    · rw [if_neg h30, if_neg h20, if_pos h10, hscale 10 (by norm_num) h10]
    · rw [if_neg h30, if_neg h20, if_pos h10]; simp [unitTable]
    · rw [lt_div_iff₀ (by norm_num)]; linarith
    · rw [div_le_iff₀ (by norm_num)]; norm_num at h20 ⊢; linarith
  · refine ⟨1, by positivity, ?_, Or.inl ⟨-1, 2 ^ 10, ?_, ?_, ?_⟩⟩
    · rw [if_neg h30, if_neg h20, if_neg h10, div_one]
    · rw [if_neg h30, if_neg h20, if_neg h10]; simp [unitTable]
    · rw [div_one]; linarith [hv.1]
    · rw [div_one]; linarith

theorem humanReadable32 (T : TextEnv) (hT : T.f32.rnd = binary32.round) {n : ℕ} (hn : n ≤ 2 ^ 64) :
    ShowsAbout (fun _ => T.num2) n (humanReadable T (T.f32.ofNat n)) := by
  obtain ⟨y, hy, hf, hrel, -⟩ := ofNat32 hT hn
  obtain ⟨scale, hs, hsc, hr⟩ := shown32 T hT hf
  rw [hy]
  refine ⟨memUnit (fin y), scale, y / scale, ?_, ?_, hr⟩
  · unfold humanReadable; rw [hsc]
  · rw [div_mul_cancel₀ _ hs.ne']
    refine hrel.trans (mul_le_mul_of_nonneg_left ?_ (Nat.cast_nonneg _))
    rw [Format.zpow_le_iff]; norm_num

/-- the quotient of two amounts -/
theorem div32 (hE : E.rnd = binary32.round) {e n : ℕ} (he : e ≤ 2 ^ 64) (hn : 1 ≤ n) (hn' : n ≤ 2 ^ 32) :
    ∃ y, E.div (E.ofNat e) (E.ofNat n) = fin y ∧ IsF32 y ∧ |y - (e : ℝ) / n| ≤ (e : ℝ) / n * 2 ^ (-22 : ℤ) := by
  obtain ⟨a, ha, hfa, hra, ha24⟩ := ofNat32 hE he
  obtain ⟨b, hb, hfb, hrb, -⟩ := ofNat32 hE (n := n) (hn'.trans (by norm_num))
  have hnR : (1:ℝ) ≤ n := by exact_mod_cast hn
  have hnR' : (n:ℝ) ≤ 2 ^ 32 := by exact_mod_cast hn'
  have hu : (2:ℝ) ^ (-24 : ℤ) = 1 / 2 ^ 24 := by norm_num
  rw [hu, abs_le] at hra hrb
  have hb1 : (n:ℝ) * (1 - 1 / 2 ^ 24) ≤ b := by linarith [hrb.1]
  have hb2 : b ≤ (n:ℝ) * (1 + 1 / 2 ^ 24) := by linarith [hrb.2]
  have hbpos : 0 < b := lt_of_lt_of_le (mul_pos (by linarith) (by norm_num)) hb1
  rw [ha, hb]
  by_cases h0 : e = 0
  · have : a = 0 := by rw [ha24 (by rw [h0]; positivity), h0, Nat.cast_zero]
    rw [this]
    refine ⟨0, ?_, ⟨le_rfl, by positivity, Or.inl rfl⟩, by simp [h0]⟩
    have hneg : ¬ b < 0 := not_lt.2 hbpos.le
    simp [FloatEnv.div, FloatEnv.divFin, F.zero, Xor, hbpos.ne', F.neg, hneg]
  have heR : (1:ℝ) ≤ e := by exact_mod_cast (by omega : 1 ≤ e)
  have heR' : (e:ℝ) ≤ 2 ^ 64 := by exact_mod_cast he
  have ha1 : (e:ℝ) * (1 - 1 / 2 ^ 24) ≤ a := by linarith [hra.1]
  have ha2 : a ≤ (e:ℝ) * (1 + 1 / 2 ^ 24) := by linarith [hra.2]
  have hapos : 0 < a := lt_of_lt_of_le (mul_pos (by linarith) (by norm_num)) ha1
  rw [div_fin_fin_pos hapos hbpos.ne', hE]
  -- the exact quotient of the rounded amounts
  set q := (e:ℝ) / n with hq
  have hqpos : 0 < q := by positivity
  have hqn : q * n = e := by rw [hq]; field_simp
  have hab1 : q * (1 - 1 / 2 ^ 23) ≤ a / b := by
    rw [le_div_iff₀ hbpos]
    have : q * (1 - 1 / 2 ^ 23) * b ≤ q * (1 - 1 / 2 ^ 23) * (n * (1 + 1 / 2 ^ 24)) :=
      mul_le_mul_of_nonneg_left hb2 (mul_nonneg hqpos.le (by norm_num))
    have e1 : q * (1 - 1 / 2 ^ 23) * (n * (1 + 1 / 2 ^ 24)) = e * ((1 - 1 / 2 ^ 23) * (1 + 1 / 2 ^ 24)) := by rw [← hqn]; ring
    rw [e1] at this
    refine this.trans (le_trans ?_ ha1)
    exact mul_le_mul_of_nonneg_left (by norm_num) (by linarith)
  have hab2 : a / b ≤ q * (1 + 1 / 2 ^ 23 + 1 / 2 ^ 40) := by
    rw [div_le_iff₀ hbpos]
    have : q * (1 + 1 / 2 ^ 23 + 1 / 2 ^ 40) * (n * (1 - 1 / 2 ^ 24)) ≤ q * (1 + 1 / 2 ^ 23 + 1 / 2 ^ 40) * b :=
      mul_le_mul_of_nonneg_left hb1 (mul_nonneg hqpos.le (by norm_num))
    have e1 : q * (1 + 1 / 2 ^ 23 + 1 / 2 ^ 40) * (n * (1 - 1 / 2 ^ 24)) = e * ((1 + 1 / 2 ^ 23 + 1 / 2 ^ 40) * (1 - 1 / 2 ^ 24)) := by
      rw [← hqn]; ring
    rw [e1] at this
    refine le_trans (ha2.trans ?_) this
    exact mul_le_mul_of_nonneg_left (by norm_num) (by linarith)
  have hqlo : (1:ℝ) / 2 ^ 32 ≤ q := by
    rw [hq, le_div_iff₀ (by linarith), div_mul_eq_mul_div, one_mul, div_le_iff₀ (by positivity)]
    nlinarith
  have hqhi : q ≤ 2 ^ 64 := by
    rw [hq, div_le_iff₀ (by linarith)]; nlinarith
  have hlo : (2:ℝ) ^ (-100 : ℤ) ≤ a / b := by
    refine le_trans (le_trans ?_ (mul_le_mul_of_nonneg_right hqlo (by norm_num : (0:ℝ) ≤ 1 - 1 / 2 ^ 23))) hab1
    norm_num
  have hhi : a / b ≤ 2 ^ 66 := by
    refine hab2.trans (le_trans (mul_le_mul_of_nonneg_right hqhi (by norm_num)) (by norm_num))
  obtain ⟨y, hy, -, hypos, hrel, hmag⟩ := r32_near hlo (hhi.trans (by norm_num))
  rw [hu, abs_le] at hrel
  refine ⟨y, hy, ⟨hypos.le, ?_, Or.inr hmag⟩, ?_⟩
  · have : y ≤ 2 ^ 66 * 2 := by nlinarith [hrel.2]
    exact this.trans (by norm_num)
  · have e22 : (2:ℝ) ^ (-22 : ℤ) = 1 / 2 ^ 22 := by norm_num
    rw [e22, abs_le]
    constructor
    · have : a / b * (1 - 1 / 2 ^ 24) ≤ y := by linarith [hrel.1]
      have h2 : q * (1 - 1 / 2 ^ 23) * (1 - 1 / 2 ^ 24) ≤ a / b * (1 - 1 / 2 ^ 24) := mul_le_mul_of_nonneg_right hab1 (by norm_num)
      have h3 : q * (1 - 1 / 2 ^ 22) ≤ q * (1 - 1 / 2 ^ 23) * (1 - 1 / 2 ^ 24) := by
        rw [mul_assoc]; exact mul_le_mul_of_nonneg_left (by norm_num) hqpos.le
      linarith
    · have : y ≤ a / b * (1 + 1 / 2 ^ 24) := by linarith [hrel.2]
      have h2 : a / b * (1 + 1 / 2 ^ 24) ≤ q * (1 + 1 / 2 ^ 23 + 1 / 2 ^ 40) * (1 + 1 / 2 ^ 24) := mul_le_mul_of_nonneg_right hab2 (by norm_num)
      have h3 : q * (1 + 1 / 2 ^ 23 + 1 / 2 ^ 40) * (1 + 1 / 2 ^ 24) ≤ q * (1 + 1 / 2 ^ 22) := by
        rw [mul_assoc]; exact mul_le_mul_of_nonneg_left (by norm_num) hqpos.le
      linarith

/-! ## sign -/

/-- the sign of a quotient of a visible difference -/
theorem sign32 (hE : E.rnd = binary32.round) {a b c : ℝ} (hd : 1 / 2 ^ 40 ≤ a - b) (hd' : a - b ≤ 2 ^ 70) (hc : 1 / 2 ≤ c) (hc' : c ≤ 2 ^ 33) :
    fin 0 < E.div (E.sub (fin a) (fin b)) (fin c) ∧ E.div (E.sub (fin b) (fin a)) (fin c) < fin 0 := by
  have hpos : 0 < a - b := lt_of_lt_of_le (by positivity) hd
  have hcpos : 0 < c := by linarith
  obtain ⟨y, hy, hyn, hypos, hrel, -⟩ := r32_near (x := a - b) (le_trans (by norm_num) hd) (hd'.trans (by norm_num))
  have e1 : E.sub (fin a) (fin b) = fin y := by
    show E.rnd0 (a - b) = _
    unfold FloatEnv.rnd0
    rw [if_neg hpos.ne', hE, hy]
  have e2 : E.sub (fin b) (fin a) = fin (-y) := by
    show E.rnd0 (b - a) = _
    unfold FloatEnv.rnd0
    rw [if_neg (by linarith), hE, show b - a = -(a - b) by ring, hyn]
  have hu : (2:ℝ) ^ (-24 : ℤ) = 1 / 2 ^ 24 := by norm_num
  rw [hu, abs_le] at hrel
  have hy1 : 1 / 2 ^ 41 ≤ y := by nlinarith [hrel.1]
  have hy2 : y ≤ 2 ^ 71 := by nlinarith [hrel.2]
  have hq1 : (2:ℝ) ^ (-100 : ℤ) ≤ y / c := by
    rw [le_div_iff₀ hcpos]
    refine le_trans (mul_le_mul_of_nonneg_left hc' (by positivity)) (le_trans ?_ hy1)
    norm_num
  have hq2 : y / c ≤ 2 ^ 100 := by
    rw [div_le_iff₀ hcpos]
    nlinarith
  obtain ⟨z, hz, hzn, hzpos, -, -⟩ := r32_near hq1 hq2
  rw [e1, e2]
  constructor
  · rw [div_fin_fin_pos hypos hcpos.ne', hE, hz, F.fin_lt_fin]; exact hzpos
  · have : E.div (fin (-y)) (fin c) = E.rnd (-(y / c)) := by
      simp [FloatEnv.div, FloatEnv.divFin, hypos.ne', hcpos.ne', neg_div]
    rw [this, hE, hzn, F.fin_lt_fin]; linarith

theorem visible32 (hE : E.rnd = binary32.round) {x y : ℕ} (h : x < y) (hy64 : y ≤ 2 ^ 64)
    (hv : y ≤ 2 ^ 24 ∨ y < 2 ^ 22 * (y - x)) :
    ∃ a b, E.ofNat y = fin a ∧ E.ofNat x = fin b ∧ 1 / 2 ^ 40 ≤ a - b ∧ a - b ≤ 2 ^ 70 := by
  obtain ⟨a, ha, hfa, hra, ha24⟩ := ofNat32 hE hy64
  obtain ⟨b, hb, hfb, hrb, hb24⟩ := ofNat32 hE (n := x) (by omega)
  refine ⟨a, b, ha, hb, ?_, ?_⟩
  · rcases hv with h24 | hv
    · rw [ha24 h24, hb24 (by omega)]
      have : (x:ℝ) + 1 ≤ y := by exact_mod_cast h
      norm_num
      linarith
    · have hu : (2:ℝ) ^ (-24 : ℤ) = 1 / 2 ^ 24 := by norm_num
      rw [hu, abs_le] at hra hrb
      have hv' : (y:ℝ) < 2 ^ 22 * ((y:ℝ) - x) := by
        have := (Nat.cast_lt (α := ℝ)).2 hv
        rw [Nat.cast_mul, Nat.cast_sub h.le] at this
        rw [Nat.cast_pow, Nat.cast_ofNat] at this
        exact this
      have hxy : (x:ℝ) + 1 ≤ y := by exact_mod_cast h
      have hx0 : (0:ℝ) ≤ x := Nat.cast_nonneg _
      have hd : (y:ℝ) / 2 ^ 22 ≤ y - x := by rw [div_le_iff₀ (by positivity)]; linarith
      have : (y:ℝ) - x - y * (1 / 2 ^ 24) - x * (1 / 2 ^ 24) ≤ a - b := by linarith [hra.1, hrb.2]
      refine le_trans ?_ this
      have h3 : (x:ℝ) * (1 / 2 ^ 24) ≤ y * (1 / 2 ^ 24) := mul_le_mul_of_nonneg_right (by linarith) (by norm_num)
      have h4 : (y:ℝ) / 2 ^ 22 - y * (1 / 2 ^ 24) - y * (1 / 2 ^ 24) = y * (1 / 2 ^ 23) := by ring
      have h5 : (1:ℝ) * (1 / 2 ^ 23) ≤ y * (1 / 2 ^ 23) := mul_le_mul_of_nonneg_right (by linarith) (by norm_num)
      have h6 : (1:ℝ) / 2 ^ 40 ≤ 1 * (1 / 2 ^ 23) := by norm_num
      linarith
  · have hb0 : 0 ≤ b := hfb.1
    have hyR : (y:ℝ) ≤ 2 ^ 64 := by exact_mod_cast hy64
    rw [abs_le] at hra
    have : (y:ℝ) * 2 ^ (-24 : ℤ) ≤ y * 1 := mul_le_mul_of_nonneg_left (by norm_num) (Nat.cast_nonneg _)
    have h2 : a ≤ 2 * 2 ^ 64 := by linarith [hra.2]
    have h3 : (2:ℝ) * 2 ^ 64 ≤ 2 ^ 70 := by norm_num
    linarith

theorem memSign32 (T : TextEnv) (hT : T.f32.rnd = binary32.round) (s : SpacePass) (n : ℕ) :
    memSign T s n = signOf s ∨ memSign T s n = "" := by
  have h := C75_sign_sound T hT s n
  by_cases h1 : memSign T s n = "+"
  · left; rw [h1]; unfold signOf; rw [if_pos (h.1 h1)]
  by_cases h2 : memSign T s n = "-"
  · left; rw [h2]; unfold signOf
    have := h.2 h2
    rw [if_neg (by omega), if_pos this]
  right
  unfold memSign at h1 h2 ⊢
  simp only at h1 h2 ⊢
  split_ifs at h1 h2 ⊢
  · exact absurd rfl h1
  · exact absurd rfl h2
  · rfl

theorem memSign32_visible (T : TextEnv) (hT : T.f32.rnd = binary32.round) {s : SpacePass} (hs : s.usedBefore ≤ 2 ^ 64) (hs' : s.usedAfter ≤ 2 ^ 64)
    (hv : ChangeVisible s) {n : ℕ} (hn : 1 ≤ n) (hn' : n ≤ 2 ^ 32) : memSign T s n = signOf s := by
  obtain ⟨c, hc, hfc, hrc, -⟩ := ofNat32 hT (n := n) (hn'.trans (by norm_num))
  have hnR : (1:ℝ) ≤ n := by exact_mod_cast hn
  have hnR' : (n:ℝ) ≤ 2 ^ 32 := by exact_mod_cast hn'
  have hu : (2:ℝ) ^ (-24 : ℤ) = 1 / 2 ^ 24 := by norm_num
  rw [hu, abs_le] at hrc
  have hc1 : 1 / 2 ≤ c := by nlinarith [hrc.1]
  have hc2 : c ≤ 2 ^ 33 := by nlinarith [hrc.2]
  unfold ChangeVisible at hv
  rcases lt_trichotomy s.usedBefore s.usedAfter with h | h | h
  · rw [max_eq_right h.le, min_eq_left h.le] at hv
    obtain ⟨a, b, ha, hb, hd, hd'⟩ := visible32 hT h hs' (by rcases hv with h | h; exacts [Or.inl h.2, Or.inr h])
    unfold memSign signOf
    rw [ha, hb, hc]
    simp only
    rw [if_pos (sign32 hT hd hd' hc1 hc2).1, if_pos h]
  · rcases memSign32 T hT s n with h' | h'
    · exact h'
    · rw [h']; unfold signOf; rw [if_neg (by omega), if_neg (by omega)]
  · rw [max_eq_left h.le, min_eq_right h.le] at hv
    obtain ⟨a, b, ha, hb, hd, hd'⟩ := visible32 hT h hs (by rcases hv with h | h; exacts [Or.inl h.1, Or.inr h])
    have hneg := (sign32 hT hd hd' hc1 hc2).2
    unfold memSign signOf
    rw [ha, hb, hc]
    simp only
    have hnp : ¬ fin 0 < T.f32.div (T.f32.sub (fin b) (fin a)) (fin c) := by
      intro hp
      exact absurd (lt_trans hp.2.2 hneg.2.2) (lt_irrefl _)
    rw [if_neg hnp, if_pos hneg, if_neg (by omega), if_pos h]

/-- **C75** (shipped arithmetic): for plausible readings and `1 ≤ n ≤ 2^32` the text is a sign, the larger excursion per element to
within one part in 2^22, and its unit; the sign is that of the change if the change is visible in `f32`, and otherwise that or none.
Amounts in bytes that are whole (to 1e-3) have no decimals, all others two. -/
theorem C75_text_shipped (T : TextEnv) (hT : T.f32.rnd = binary32.round) (p : Profile) (s : SpacePass) (h : PlausibleReading s)
    (n : ℕ) (hn : 1 ≤ n) (hn' : n ≤ 2 ^ 32) :
    ∃ sign amount, fmtOverN T p s n = .ok (sign ++ amount) ∧ (sign = signOf s ∨ sign = "") ∧ (ChangeVisible s → sign = signOf s) ∧
      ShowsAbout (fun unit x => if T.whole x && unit == "b" then T.num0 x else T.num2 x) (excursionPerElement s n) amount := by
  have hmax : max (s.maxUsed - s.usedBefore) (s.usedBefore - s.minUsed) ≤ 2 ^ 64 := by
    have := h.small; have := h.before_le; omega
  obtain ⟨y, hy, hf, hrel⟩ := div32 hT hmax hn hn'
  obtain ⟨scale, hs, hsc, hr⟩ := shown32 T hT hf
  have hex : ((max (s.maxUsed - s.usedBefore) (s.usedBefore - s.minUsed) : ℕ) : ℝ) / n = excursionPerElement s n := by
    unfold excursionPerElement
    rw [Nat.cast_max, Nat.cast_sub h.before_le, Nat.cast_sub h.min_le]
  rw [hex] at hrel
  refine ⟨memSign T s n, (if T.whole (fin (y / scale)) && memUnit (fin y) == "b" then T.num0 (fin (y / scale)) else T.num2 (fin (y / scale))) ++
      memUnit (fin y), ?_, memSign32 T hT s n, fun hv => ?_, memUnit (fin y), scale, y / scale, rfl, ?_, hr⟩
  · unfold fmtOverN
    rw [memAmount_ok T p h, hy]
    simp only [hsc, String.append_assoc]
  · have := h.small; have := h.before_le; have := h.after_le
    exact memSign32_visible T hT (by omega) (by omega) hv hn hn'
  · rw [div_mul_cancel₀ _ hs.ne']; exact hrel

/-- **C81** (memory totals, shipped arithmetic): as `C81_totals`, each amount to within one part in 2^22; `allocated` or `freed` is
exact. -/
theorem C81_totals_shipped (T : TextEnv) (hT : T.f32.rnd = binary32.round) (p : Profile) (m : SpaceMeasurements)
    (h1 : PlausibleReading m.pass1) (h2 : PlausibleReading m.pass2) :
    ∃ change aux, ShowsAbout (fun _ => T.num2) |(totalChange m : ℝ)| change ∧ ShowsAbout (fun _ => T.num2) (totalAuxiliary m) aux ∧
      displaySpace T p m =
        .ok ((if totalChange m < 0 then "freed" else "allocated") ++ ": " ++ change ++ "; auxiliary used space: " ++ aux) := by
  have hch : (((totalChange m).natAbs : ℕ) : ℝ) = |(totalChange m : ℝ)| := by
    rw [← Int.cast_abs, Int.abs_eq_natAbs]; simp
  have b1 := h1.small; have b2 := h1.before_le; have b3 := h1.after_le; have b4 := h1.min_le
  have c1 := h2.small; have c2 := h2.before_le; have c3 := h2.after_le; have c4 := h2.min_le
  have n1 : (totalChange m).natAbs ≤ 2 ^ 64 := by unfold totalChange; omega
  have n2 : totalAuxiliary m ≤ 2 ^ 64 := by unfold totalAuxiliary; omega
  have k1 := humanReadable32 T hT n1
  rw [hch] at k1
  refine ⟨_, _, k1, humanReadable32 T hT n2, ?_⟩
  unfold displaySpace
  rw [C76_delta p m h1 h2, C76_auxiliary p m h1 h2]
  simp only
  unfold isizeAbs
  have hb : |((m.pass1.usedAfter : ℤ) - m.pass1.usedBefore) + ((m.pass2.usedAfter : ℤ) - m.pass2.usedBefore)| < 2 ^ 63 := by
    rw [abs_lt]; constructor <;> omega
  rw [isizeRes_ok (le_trans (by norm_num) (abs_nonneg _)) hb]
  have e0 : T.f32.rnd0 ((|((m.pass1.usedAfter : ℤ) - m.pass1.usedBefore) + ((m.pass2.usedAfter : ℤ) - m.pass2.usedBefore)| : ℤ) : ℝ) =
      T.f32.ofNat (totalChange m).natAbs := by
    unfold FloatEnv.ofNat
    rw [hch, Int.cast_abs]; rfl
  simp only [e0]
  have e1 : (0 ≤ ((m.pass1.usedAfter : ℤ) - m.pass1.usedBefore) + ((m.pass2.usedAfter : ℤ) - m.pass2.usedBefore)) ↔ ¬ totalChange m < 0 := by
    unfold totalChange; omega
  by_cases hc : totalChange m < 0
  · rw [if_pos hc, if_neg (fun h => e1.1 h hc)]; rfl
  · rw [if_neg hc, if_pos (e1.2 hc)]; rfl

/-! ## Concrete cases -/

-- a 2 GiB pass that ends 600 bytes below a reading of 100 MB: not visible as such, but a change of 600 MB is, and one of 1 byte below 16 MiB is
example : ChangeVisible ⟨100000000, 700000000, 2 ^ 31, 1000⟩ ∧ ChangeVisible ⟨1000, 1001, 2 ^ 31, 1000⟩ ∧
    ¬ ChangeVisible ⟨100000000, 100000020, 2 ^ 31, 1000⟩ := by
  unfold ChangeVisible; norm_num
example : PlausibleReading ⟨100000000, 700000000, 2 ^ 31, 1000⟩ := ⟨by norm_num, by norm_num, by norm_num, by norm_num⟩
-- the shipped arithmetic meets the hypothesis
example (f : F → F) (g : F → ℕ → F) (h : F → F → F) (t : F) : (FloatEnv.mk binary32.round f g h t).rnd = binary32.round := rfl

end
end BigO
