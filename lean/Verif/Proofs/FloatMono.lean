import Verif.Model.Analysis
import Verif.Spec.FloatLaws
import Mathlib.Tactic.Linarith
import Mathlib.Tactic.Positivity
import Mathlib.Tactic.Push

set_option linter.unusedSimpArgs false
set_option linter.unusedSectionVars false

namespace BigO
open F

theorem F.lt_def (a b : F) : a < b ↔ (a.isNum ∧ b.isNum ∧ a.toE < b.toE) := Iff.rfl
theorem F.le_def (a b : F) : a ≤ b ↔ (a.isNum ∧ b.isNum ∧ a.toE ≤ b.toE) := Iff.rfl

@[simp] theorem F.isNum_fin (x : ℝ) : (fin x).isNum := trivial
@[simp] theorem F.isNum_inf (s) : (inf s).isNum := trivial
@[simp] theorem F.isNum_nzero : nzero.isNum := trivial
@[simp] theorem F.isNum_nan : ¬ nan.isNum := id
@[simp] theorem F.toE_fin (x : ℝ) : (fin x).toE = (x : EReal) := rfl
@[simp] theorem F.toE_inf_t : (inf true).toE = ⊥ := rfl
@[simp] theorem F.toE_inf_f : (inf false).toE = ⊤ := rfl
@[simp] theorem F.toE_nzero : nzero.toE = 0 := rfl
@[simp] theorem F.neg_fin (x : ℝ) : (fin x).neg ↔ x < 0 := Iff.rfl
@[simp] theorem F.neg_inf (s) : (inf s).neg ↔ s = true := Iff.rfl
@[simp] theorem F.neg_nzero : nzero.neg := trivial
@[simp] theorem F.val_fin (x : ℝ) : (fin x).val = x := rfl
@[simp] theorem F.val_nzero : nzero.val = 0 := rfl
@[simp] theorem F.fin_le_fin (x y : ℝ) : fin x ≤ fin y ↔ x ≤ y := by simp [F.le_def]
@[simp] theorem F.fin_lt_fin (x y : ℝ) : fin x < fin y ↔ x < y := by simp [F.lt_def]
@[simp] theorem F.nan_lt (b : F) : ¬ nan < b := by simp [F.lt_def]
@[simp] theorem F.lt_nan (b : F) : ¬ b < nan := by simp [F.lt_def]
@[simp] theorem F.nan_le (b : F) : ¬ nan ≤ b := by simp [F.le_def]
@[simp] theorem F.le_nan (b : F) : ¬ b ≤ nan := by simp [F.le_def]

/-- the positive numbers -/
theorem F.pos_cases {x : F} (h : fin 0 < x) : x = inf false ∨ ∃ r : ℝ, 0 < r ∧ x = fin r := by
  cases x with
  | nan => simp at h
  | inf s => cases s <;> simp_all [F.lt_def]
  | nzero => simp [F.lt_def] at h
  | fin x => right; exact ⟨x, by simpa using h, rfl⟩

variable {E : FloatEnv} (L : FloatLaws E)

/-- division by a fixed divisor, for positive dividends -/
theorem div_inf_inf (s t) : E.div (inf s) (inf t) = nan := rfl

include L

/-- the value of `abs a ≤ t` -/
theorem abs_le_iff {a : F} {t : ℝ} : F.abs a ≤ fin t ↔ a.isNum ∧ ((-t : ℝ) : EReal) ≤ a.toE ∧ a.toE ≤ (t : EReal) := by
  cases a with
  | nan => simp [F.abs]
  | inf s => cases s <;> simp [F.abs, F.le_def]
  | nzero =>
    simp only [F.abs, fin_le_fin, isNum_nzero, toE_nzero, true_and]
    constructor
    · intro h
      constructor
      · exact_mod_cast (by linarith : -t ≤ 0)
      · exact_mod_cast h
    · rintro ⟨_, h⟩; exact_mod_cast h
  | fin x =>
    simp only [F.abs, fin_le_fin, isNum_fin, toE_fin, true_and, EReal.coe_le_coe_iff]
    exact abs_le

theorem rnd0_mono {x y : ℝ} (h : x ≤ y) : (E.rnd0 x).toE ≤ (E.rnd0 y).toE := by
  have h0 : (E.rnd 0).toE = 0 := by have := L.rnd_nat 0 (by norm_num); simp at this; simp [this]
  have key : ∀ z, (E.rnd0 z).toE = (E.rnd z).toE := by
    intro z; unfold FloatEnv.rnd0; split_ifs with hz
    · subst hz; simp [h0]
    · rfl
  rw [key, key]; exact L.rnd_mono _ _ h

theorem rnd0_toE (z : ℝ) : (E.rnd0 z).toE = (E.rnd z).toE := by
  have h0 : (E.rnd 0).toE = 0 := by have := L.rnd_nat 0 (by norm_num); simp at this; simp [this]
  unfold FloatEnv.rnd0; split_ifs with hz
  · subst hz; simp [h0]
  · rfl

theorem rnd0_num (z : ℝ) : (E.rnd0 z).isNum := by
  unfold FloatEnv.rnd0; split_ifs <;> simp [L.rnd_num]

/-- subtraction of 1 is total on numbers and monotone -/
theorem sub_one_num {a : F} (h : a.isNum) : (E.sub a (fin 1)).isNum := by
  cases a with
  | nan => exact absurd h (by simp)
  | inf s => simp [FloatEnv.sub]
  | nzero => simp [FloatEnv.sub, L.rnd_num]
  | fin x => simp [FloatEnv.sub, rnd0_num L]

theorem sub_one_isNum_iff {a : F} : (E.sub a (fin 1)).isNum ↔ a.isNum := by
  refine ⟨?_, sub_one_num L⟩
  cases a <;> simp [FloatEnv.sub]

theorem sub_one_toE {a : F} : (E.sub a (fin 1)).toE =
    match a with
    | nan => 0
    | inf s => (inf s).toE
    | nzero => (E.rnd (-1)).toE
    | fin x => (E.rnd (x - 1)).toE := by
  cases a with
  | nan => rfl
  | inf s => simp [FloatEnv.sub]
  | nzero => simp [FloatEnv.sub]
  | fin x => simp [FloatEnv.sub, rnd0_toE L]

theorem sub_one_mono {a b : F} (ha : a.isNum) (hb : b.isNum) (h : a.toE ≤ b.toE) :
    (E.sub a (fin 1)).toE ≤ (E.sub b (fin 1)).toE := by
  rw [sub_one_toE L, sub_one_toE L]
  cases a with
  | nan => exact absurd ha (by simp)
  | inf s =>
    cases s
    · cases b with
      | nan => exact absurd hb (by simp)
      | inf t => cases t <;> simp_all
      | nzero => simp at h
      | fin y => simp at h
    · simp
  | nzero =>
    cases b with
    | nan => exact absurd hb (by simp)
    | inf t => cases t <;> simp_all
    | nzero => exact le_refl _
    | fin y =>
      apply L.rnd_mono
      simp at h
      linarith
  | fin x =>
    cases b with
    | nan => exact absurd hb (by simp)
    | inf t => cases t <;> simp_all
    | nzero =>
      apply L.rnd_mono
      simp at h
      linarith
    | fin y =>
      apply L.rnd_mono
      simp at h
      linarith

omit L in
theorem div_nan_right (a : F) : E.div a nan = nan := by cases a <;> rfl

omit L in
theorem div_fin_fin_pos {x y : ℝ} (hx : 0 < x) (hy : y ≠ 0) : E.div (fin x) (fin y) = E.rnd (x / y) := by
  simp [FloatEnv.div, FloatEnv.divFin, hx.ne', hy]

/-- Dividing two positive numbers `a ≤ b` by any fixed `g`: either both quotients are numbers and ordered, or both
numbers and both `≤ 0`(negative or zero divisor), or the larger one is NaN. -/
theorem div_pos_mono (g : F) {a b : F} (ha : fin 0 < a) (hab : a ≤ b) :
    ((E.div a g).isNum ∧ (E.div b g).isNum ∧ (E.div a g).toE ≤ (E.div b g).toE) ∨
    ((E.div a g).isNum ∧ (E.div b g).isNum ∧ (E.div a g).toE ≤ 0 ∧ (E.div b g).toE ≤ 0) ∨
    ¬ (E.div b g).isNum := by
  have hb : fin 0 < b := by
    rw [F.lt_def] at *; rw [F.le_def] at hab; exact ⟨ha.1, hab.2.1, lt_of_lt_of_le ha.2.2 hab.2.2⟩
  have hneg : ∀ x, x < 0 → (E.rnd x).toE ≤ 0 := by
    intro x hx
    have h0 := L.rnd_nat 0 (by norm_num)
    have := L.rnd_mono x 0 hx.le
    simp at h0; rw [h0] at this; simpa using this
  rcases F.pos_cases ha with rfl | ⟨x, hx, rfl⟩ <;> rcases F.pos_cases hb with rfl | ⟨y, hy, rfl⟩ 
  · -- inf, inf
    by_cases h : (E.div (inf false) g).isNum
    · left; exact ⟨h, h, le_refl _⟩
    · right; right; exact h
  · -- inf ≤ fin : impossible
    exfalso; rw [F.le_def] at hab; simp at hab
  · -- fin, inf
    cases g with
    | nan => right; right; simp [FloatEnv.div]
    | inf s => right; right; simp [FloatEnv.div]
    | nzero => left; simp [FloatEnv.div, FloatEnv.divFin, hx.ne', infS, Xor, hx.le, not_lt.2 hx.le]
    | fin z =>
      rcases lt_trichotomy z 0 with hz | hz | hz
      · right; left
        rw [div_fin_fin_pos hx hz.ne]
        refine ⟨L.rnd_num _, ?_, hneg _ (div_neg_of_pos_of_neg hx hz), ?_⟩
        · simp [FloatEnv.div, infS]
        · simp [FloatEnv.div, infS, Xor, hz]
      · subst hz; left; simp [FloatEnv.div, FloatEnv.divFin, hx.ne', infS, Xor, hx.le, not_lt.2 hx.le]
      · left
        rw [div_fin_fin_pos hx hz.ne']
        refine ⟨L.rnd_num _, ?_, ?_⟩
        · simp [FloatEnv.div, infS]
        · simp [FloatEnv.div, infS, Xor, hz.le, not_lt.2 hz.le]
  · -- fin, fin
    have hxy : x ≤ y := by simpa using hab
    cases g with
    | nan => right; right; simp [FloatEnv.div]
    | inf s => left; cases s <;> simp [FloatEnv.div, zero, Xor, hx.le, hy.le, not_lt.2 hx.le, not_lt.2 hy.le]
    | nzero => left; simp [FloatEnv.div, FloatEnv.divFin, hx.ne', hy.ne', infS, Xor, hx.le, hy.le, not_lt.2 hx.le, not_lt.2 hy.le]
    | fin z =>
      rcases lt_trichotomy z 0 with hz | hz | hz
      · right; left
        rw [div_fin_fin_pos hx hz.ne, div_fin_fin_pos hy hz.ne]
        exact ⟨L.rnd_num _, L.rnd_num _, hneg _ (div_neg_of_pos_of_neg hx hz), hneg _ (div_neg_of_pos_of_neg hy hz)⟩
      · subst hz; left; simp [FloatEnv.div, FloatEnv.divFin, hx.ne', hy.ne', infS, Xor, hx.le, hy.le, not_lt.2 hx.le, not_lt.2 hy.le]
      · left
        rw [div_fin_fin_pos hx hz.ne', div_fin_fin_pos hy hz.ne']
        exact ⟨L.rnd_num _, L.rnd_num _, L.rnd_mono _ _ (div_le_div_of_nonneg_right hxy hz.le)⟩

theorem oneMinusTol_eq {t c : ℝ} (ht : E.tol = fin t) (hc : E.rnd (1 - t) = fin c) (h1 : t < 1) :
    oneMinusTol E = fin c := by
  have : (1:ℝ) - t ≠ 0 := by linarith
  simp [oneMinusTol, ht, FloatEnv.sub, FloatEnv.rnd0, hc, this]

/-- Both tests of one tier of the chain, for positive `a ≤ b`: the first is downward closed, and so is the second
once the first failed. -/
theorem tier_first (g : F) {a b : F} (ha : fin 0 < a) (hab : a ≤ b)
    (h : E.div b g < oneMinusTol E) : E.div a g < oneMinusTol E := by
  obtain ⟨t, c, d, ht, hc, -, t0, t1, c0, c1, -⟩ := L.tol_consts
  rw [oneMinusTol_eq L ht hc t1] at *
  rcases div_pos_mono L g ha hab with ⟨h1, h2, h3⟩ | ⟨h1, h2, h3, h4⟩ | h1
  · rw [F.lt_def] at *; exact ⟨h1, trivial, lt_of_le_of_lt h3 h.2.2⟩
  · rw [F.lt_def] at *; exact ⟨h1, trivial, lt_of_le_of_lt h3 (by simpa using c0)⟩
  · exact absurd h.1 h1

theorem tier_second (g : F) {a b : F} (ha : fin 0 < a) (hab : a ≤ b)
    (hn : ¬ E.div a g < oneMinusTol E) (h : F.abs (E.sub (E.div b g) (fin 1)) ≤ E.tol) :
    F.abs (E.sub (E.div a g) (fin 1)) ≤ E.tol := by
  obtain ⟨t, c, d, ht, hc, -, t0, t1, c0, c1, -, hlow, -⟩ := L.tol_consts
  rw [oneMinusTol_eq L ht hc t1] at hn
  rw [ht, abs_le_iff L, sub_one_isNum_iff L] at h
  rw [ht, abs_le_iff L, sub_one_isNum_iff L]
  rcases div_pos_mono L g ha hab with ⟨h1, h2, h3⟩ | ⟨h1, h2, h3, h4⟩ | h1
  · refine ⟨h1, ?_, le_trans (sub_one_mono L h1 h2 h3) h.2.2⟩
    have : (fin c).toE ≤ (E.div a g).toE := by
      rw [F.lt_def] at hn; push Not at hn
      exact hn h1 trivial
    have := sub_one_mono L (a := fin c) trivial h1 this
    rw [sub_one_toE L] at this
    exact le_trans hlow this
  · exfalso; apply hn; rw [F.lt_def]; exact ⟨h1, trivial, lt_of_le_of_lt h3 (by simpa using c0)⟩
  · exact absurd h.1 h1

/-- the growth ratio is monotone in the numerator -/
theorem ratio_mono {u1 a b : F} (h1 : fin 0 < u1) (ha : fin 0 < a) (hab : a ≤ b) :
    (E.div a u1).isNum → (E.div b u1).isNum → (E.div a u1).toE ≤ (E.div b u1).toE := by
  have hb : fin 0 < b := by
    rw [F.lt_def] at *; rw [F.le_def] at hab; exact ⟨ha.1, hab.2.1, lt_of_lt_of_le ha.2.2 hab.2.2⟩
  rcases F.pos_cases h1 with rfl | ⟨z, hz, rfl⟩
  · rcases F.pos_cases ha with rfl | ⟨x, hx, rfl⟩ <;> rcases F.pos_cases hb with rfl | ⟨y, hy, rfl⟩
    · simp [FloatEnv.div]
    · simp [FloatEnv.div]
    · simp [FloatEnv.div]
    · simp [FloatEnv.div, zero, Xor, not_lt.2 hx.le, not_lt.2 hy.le]
  · rcases F.pos_cases ha with rfl | ⟨x, hx, rfl⟩ <;> rcases F.pos_cases hb with rfl | ⟨y, hy, rfl⟩
    · simp
    · rw [F.le_def] at hab; simp at hab
    · simp [FloatEnv.div, infS, Xor, not_lt.2 hz.le]
    · rw [div_fin_fin_pos hx hz.ne', div_fin_fin_pos hy hz.ne']
      intro _ _
      exact L.rnd_mono _ _ (div_le_div_of_nonneg_right (by simpa using hab) hz.le)

end BigO
