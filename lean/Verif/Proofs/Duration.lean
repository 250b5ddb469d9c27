import Verif.Proofs.SetResizing

set_option linter.unusedSimpArgs false
set_option linter.unusedSectionVars false

namespace BigO
open F
variable {E : FloatEnv} (L : FloatLaws E)
include L

theorem rnd_unit {x : ℝ} (h0 : 0 < x) (h1 : x ≤ 1) : ∃ y, E.rnd x = fin y ∧ 0 ≤ y ∧ y ≤ 1 := by
  have hnum := L.rnd_num x
  have hp := L.rnd_pos x h0
  have hle := L.rnd_mono x 1 h1
  have h1' := L.rnd_nat 1 (by norm_num)
  simp at h1'
  rw [h1'] at hle
  cases h : E.rnd x with
  | nan => rw [h] at hnum; exact absurd hnum (by simp)
  | inf s =>
    rw [h] at hle hp
    cases s
    · exact absurd (top_le_iff.1 hle) (EReal.coe_ne_top 1)
    · simp at hp
  | nzero => rw [h] at hp; simp at hp
  | fin y =>
    rw [h] at hle hp
    exact ⟨y, rfl, by simpa using hp, by rw [toE_fin, toE_fin] at hle; exact_mod_cast hle⟩

/-- the fractional seconds -/
theorem frac_secs (k : ℕ) (hk : k ≤ 10 ^ 9) : ∃ y, E.div (E.ofNat k) (fin (10 ^ 9)) = fin y ∧ 0 ≤ y ∧ y ≤ 1 ∧
    ((y : ℝ) : EReal) = (E.rnd ((k : ℝ) / 10 ^ 9)).toE ∧ (0 < k → 0 < y) := by
  have hexact : E.ofNat k = fin k := by
    unfold FloatEnv.ofNat FloatEnv.rnd0
    split_ifs with h
    · rw [h]
    · exact L.rnd_nat k (by omega)
  rw [hexact]
  rcases Nat.eq_zero_or_pos k with rfl | hpos
  · refine ⟨0, ?_, le_refl _, by norm_num, ?_, by simp⟩
    · simp [FloatEnv.div, FloatEnv.divFin, zero, Xor, not_lt.2 (show (0:ℝ) ≤ 10^9 by norm_num)]
    · simp [rnd_zero_toE L]
  · have hk' : (0:ℝ) < k := by exact_mod_cast hpos
    have hk1 : (k:ℝ) ≤ 10 ^ 9 := by exact_mod_cast hk
    rw [div_fin_fin_pos hk' (by norm_num)]
    obtain ⟨y, hy, hy0, hy1⟩ := rnd_unit L (x := (k:ℝ) / 10 ^ 9) (by positivity) (by rw [div_le_one (by norm_num)]; exact hk1)
    refine ⟨y, hy, hy0, hy1, by rw [hy]; rfl, fun _ => ?_⟩
    have h1 : (1:ℝ) / 10 ^ 9 ≤ k / 10 ^ 9 := by
      apply div_le_div_of_nonneg_right _ (by norm_num)
      exact_mod_cast hpos
    have := lt_of_lt_of_le L.rnd_nano (L.rnd_mono _ _ h1)
    rw [hy, toE_fin] at this
    exact_mod_cast this

theorem asSecs_eq {d : ℕ} (hd : d / 10 ^ 9 ≤ 2 ^ 53) : ∃ y : ℝ, 0 ≤ y ∧ y ≤ 1 ∧ asSecsF64 E d = E.rnd0 ((d / 10 ^ 9 : ℕ) + y) ∧
    ((y : ℝ) : EReal) = (E.rnd (((d % 10 ^ 9 : ℕ) : ℝ) / 10 ^ 9)).toE ∧ (0 < d % 10 ^ 9 → 0 < y) := by
  obtain ⟨y, hy, h0, h1, h2, h3⟩ := frac_secs L (d % 10 ^ 9) (by omega)
  refine ⟨y, h0, h1, ?_, h2, h3⟩
  have hexact : E.ofNat (d / 10 ^ 9) = fin (d / 10 ^ 9 : ℕ) := by
    unfold FloatEnv.ofNat FloatEnv.rnd0
    split_ifs with h
    · rw [h]
    · exact L.rnd_nat _ hd
  unfold asSecsF64
  rw [hy, hexact]
  rfl

theorem rnd0_not_nzero {x : ℝ} (h : 0 ≤ x) : E.rnd0 x ≠ nzero := by
  unfold FloatEnv.rnd0
  split_ifs with h'
  · simp
  · intro hc
    have := L.rnd_pos x (lt_of_le_of_ne h (Ne.symm h'))
    rw [hc] at this; simp at this

theorem rnd0_nonneg {x : ℝ} (h : 0 ≤ x) : fin 0 ≤ E.rnd0 x := by
  refine ⟨trivial, rnd0_num L x, ?_⟩
  have := rnd0_mono L h
  rwa [rnd0_toE L 0, rnd_zero_toE L] at this

theorem asSecs_mono {d d' : ℕ} (h : d ≤ d') (hd : d' / 10 ^ 9 ≤ 2 ^ 53) :
    (asSecsF64 E d).toE ≤ (asSecsF64 E d').toE := by
  have hle : d / 10 ^ 9 ≤ d' / 10 ^ 9 := Nat.div_le_div_right h
  obtain ⟨y, y0, y1, e, ey, -⟩ := asSecs_eq L (d := d) (hle.trans hd)
  obtain ⟨y', y0', y1', e', ey', -⟩ := asSecs_eq L (d := d') hd
  rw [e, e']
  apply rnd0_mono L
  rcases hle.lt_or_eq with hlt | heq
  · have : ((d / 10 ^ 9 : ℕ) : ℝ) + 1 ≤ (d' / 10 ^ 9 : ℕ) := by exact_mod_cast hlt
    linarith
  · have hm : d % 10 ^ 9 ≤ d' % 10 ^ 9 := by omega
    have : ((y : ℝ) : EReal) ≤ y' := by
      rw [ey, ey']
      apply L.rnd_mono
      apply div_le_div_of_nonneg_right _ (by norm_num)
      exact_mod_cast hm
    have : y ≤ y' := by exact_mod_cast this
    rw [heq]; linarith

theorem asSecs_wf {d : ℕ} (hd : d / 10 ^ 9 ≤ 2 ^ 53) : fin 0 ≤ asSecsF64 E d ∧ asSecsF64 E d ≠ nzero := by
  obtain ⟨y, y0, y1, e, -, -⟩ := asSecs_eq L (d := d) hd
  rw [e]
  have : (0:ℝ) ≤ (d / 10 ^ 9 : ℕ) + y := by positivity
  exact ⟨rnd0_nonneg L this, rnd0_not_nzero L this⟩

theorem asSecs_pos {d : ℕ} (hd : d / 10 ^ 9 ≤ 2 ^ 53) (h : 0 < d) : fin 0 < asSecsF64 E d := by
  obtain ⟨y, y0, y1, e, ey, hp⟩ := asSecs_eq L (d := d) hd
  refine ⟨trivial, (asSecs_wf L hd).1.2.1, ?_⟩
  rw [e, rnd0_toE L]
  have h1 : (1:ℝ) / 10 ^ 9 ≤ 1 := by norm_num
  rcases Nat.eq_zero_or_pos (d / 10 ^ 9) with hz | hz
  · have hm : 0 < d % 10 ^ 9 := by omega
    have hy := hp hm
    have : ((y:ℝ):EReal) = (E.rnd (((d % 10 ^ 9 : ℕ) : ℝ) / 10 ^ 9)).toE := ey
    -- y is positive, and `rnd y` is at least `rnd (1e-9)` as `y = rnd (k/1e9) ≥ rnd 1e-9`
    have hk : (1:ℝ) / 10 ^ 9 ≤ ((d % 10 ^ 9 : ℕ) : ℝ) / 10 ^ 9 := by
      apply div_le_div_of_nonneg_right _ (by norm_num); exact_mod_cast hm
    obtain ⟨z, hz', _, _⟩ := rnd_unit L (x := ((d % 10 ^ 9 : ℕ) : ℝ) / 10 ^ 9) (by positivity) (by
      rw [div_le_one (by norm_num)]; exact_mod_cast (Nat.mod_lt d (by norm_num)).le)
    have hyz : y = z := by rw [hz', toE_fin] at ey; exact_mod_cast ey
    subst hyz
    rw [hz, Nat.cast_zero, zero_add, L.rnd_idem _ _ hz', toE_fin, toE_fin]
    exact_mod_cast hy
  · have : (1:ℝ) ≤ (d / 10 ^ 9 : ℕ) + y := by
      have : (1:ℝ) ≤ (d / 10 ^ 9 : ℕ) := by exact_mod_cast hz
      linarith
    exact lt_of_lt_of_le L.rnd_nano (L.rnd_mono _ _ (h1.trans this))

end BigO
