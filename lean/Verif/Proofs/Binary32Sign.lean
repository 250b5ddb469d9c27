import Verif.Proofs.Ieee
import Verif.Proofs.FloatMono

/-!
# Signs in binary32 arithmetic
-/
namespace BigO
open F

/-- a number that is not negative -/
def F.NonnegNum (x : F) : Prop := x.isNum ∧ ¬ x.neg ∧ (0 : EReal) ≤ x.toE

section
variable {E : FloatEnv} (hE : E.rnd = binary32.round)
include hE

theorem r32_nonneg {x : ℝ} (h : 0 ≤ x) : (E.rnd0 x).NonnegNum := by
  unfold FloatEnv.rnd0
  split
  · exact ⟨trivial, by simp, by simp⟩
  · rename_i h0
    have hx : 0 < x := lt_of_le_of_ne h (Ne.symm h0)
    rw [hE]
    refine ⟨Format.round_num x, Format.round_pos hx, ?_⟩
    have := Format.round_mono Format.ok32 h
    rwa [Format.round_zero, F.toE_fin, EReal.coe_zero] at this

theorem r32_toE (x : ℝ) : (E.rnd0 x).toE = (binary32.round x).toE := by
  unfold FloatEnv.rnd0
  split
  · rename_i h; rw [h, Format.round_zero]
  · rw [hE]

/-- the difference of two non-negative numbers has the sign of their order, or is not a number -/
theorem sub32_sign {a b : F} (ha : a.NonnegNum) (hb : b.NonnegNum) (h : a.toE ≤ b.toE) :
    E.sub a b = nan ∨ (E.sub a b).toE ≤ 0 := by
  have key : ∀ x : ℝ, x ≤ 0 → (binary32.round x).toE ≤ 0 := by
    intro x hx
    have := Format.round_mono Format.ok32 hx
    rwa [Format.round_zero, F.toE_fin, EReal.coe_zero] at this
  cases a with
  | nan => exact absurd ha.1 id
  | nzero => exact absurd trivial ha.2.1
  | inf s =>
    cases s with
    | true => exact absurd rfl ha.2.1
    | false =>
      cases b with
      | nan => exact absurd hb.1 id
      | nzero => exact absurd trivial hb.2.1
      | inf t => cases t with
        | true => exact absurd rfl hb.2.1
        | false => left; rfl
      | fin y => simp at h
  | fin x =>
    cases b with
    | nan => exact absurd hb.1 id
    | nzero => exact absurd trivial hb.2.1
    | inf t => cases t with
      | true => exact absurd rfl hb.2.1
      | false => right; simp [FloatEnv.sub]
    | fin y =>
      right
      have hxy : x ≤ y := by simpa using h
      show (E.rnd0 (x - y)).toE ≤ 0
      rw [r32_toE hE]
      exact key _ (by linarith)

theorem sub32_sign' {a b : F} (ha : a.NonnegNum) (hb : b.NonnegNum) (h : b.toE ≤ a.toE) :
    E.sub a b = nan ∨ (E.sub a b).NonnegNum := by
  cases a with
  | nan => exact absurd ha.1 id
  | nzero => exact absurd trivial ha.2.1
  | inf s =>
    cases s with
    | true => exact absurd rfl ha.2.1
    | false =>
      cases b with
      | nan => exact absurd hb.1 id
      | nzero => exact absurd trivial hb.2.1
      | inf t => cases t with
        | true => exact absurd rfl hb.2.1
        | false => left; rfl
      | fin y => right; exact ⟨trivial, by simp [FloatEnv.sub], by simp [FloatEnv.sub]⟩
  | fin x =>
    cases b with
    | nan => exact absurd hb.1 id
    | nzero => exact absurd trivial hb.2.1
    | inf t => cases t with
      | true => exact absurd rfl hb.2.1
      | false => simp at h
    | fin y =>
      right
      have hxy : y ≤ x := by simpa using h
      show (E.rnd0 (x - y)).NonnegNum
      exact r32_nonneg hE (by linarith)

/-- dividing by a non-negative number keeps the sign -/
theorem div32_nonpos {a g : F} (ha : a = nan ∨ a.toE ≤ 0) (hg : g.NonnegNum) : ¬ fin 0 < E.div a g := by
  have key : ∀ x : ℝ, x ≤ 0 → (binary32.round x).toE ≤ 0 := by
    intro x hx
    have := Format.round_mono Format.ok32 hx
    rwa [Format.round_zero, F.toE_fin, EReal.coe_zero] at this
  have z : ∀ p, ¬ fin 0 < zero p := by
    intro p; unfold zero; split <;> simp [F.lt_def]
  have z' : ∀ x : F, x.toE ≤ 0 → ¬ fin 0 < x := by
    intro x hx h; rw [F.lt_def] at h; exact absurd h.2.2 (not_lt.2 (by simpa using hx))
  rcases ha with rfl | ha
  · simp [FloatEnv.div]
  cases g with
  | nan => exact absurd hg.1 id
  | nzero => exact absurd trivial hg.2.1
  | inf t =>
    cases t with
    | true => exact absurd rfl hg.2.1
    | false => cases a with
      | nan => simp [FloatEnv.div]
      | inf s => simp [FloatEnv.div]
      | nzero => exact z _
      | fin x => exact z _
  | fin y =>
    have hy : 0 ≤ y := by simpa using hg.2.2
    cases a with
    | nan => simp [FloatEnv.div]
    | inf s => cases s with
      | false => simp at ha
      | true => apply z'; simp [FloatEnv.div, infS, Xor, not_lt.2 hy]
    | nzero =>
      show ¬ fin 0 < E.divFin nzero (fin y)
      unfold FloatEnv.divFin
      by_cases h0 : y = 0
      · simp [h0]
      · simp only [F.val_fin, if_neg h0, F.val_nzero, if_true]; exact z _
    | fin x =>
      have hx : x ≤ 0 := by simpa using ha
      show ¬ fin 0 < E.divFin (fin x) (fin y)
      unfold FloatEnv.divFin
      by_cases h0 : y = 0
      · by_cases h1 : x = 0
        · simp [h0, h1]
        · have hx' : x < 0 := lt_of_le_of_ne hx h1
          apply z'
          simp [h0, h1, infS, Xor, hx']
      · rw [if_neg (show ¬ (fin y).val = 0 from h0)]
        by_cases h1 : x = 0
        · rw [if_pos (show (fin x).val = 0 from h1)]; exact z _
        · rw [if_neg (show ¬ (fin x).val = 0 from h1), hE]; exact z' _ (key _ (div_nonpos_of_nonpos_of_nonneg hx hy))

theorem div32_nonneg {a g : F} (ha : a = nan ∨ a.NonnegNum) (hg : g.NonnegNum) : ¬ E.div a g < fin 0 := by
  have z : ∀ p, ¬ zero p < fin 0 := by
    intro p; unfold zero; split <;> simp [F.lt_def]
  have z' : ∀ x : F, 0 ≤ x.toE → ¬ x < fin 0 := by
    intro x hx h; rw [F.lt_def] at h; exact absurd h.2.2 (not_lt.2 (by simpa using hx))
  rcases ha with rfl | ha
  · simp [FloatEnv.div]
  cases g with
  | nan => exact absurd hg.1 id
  | nzero => exact absurd trivial hg.2.1
  | inf t =>
    cases t with
    | true => exact absurd rfl hg.2.1
    | false => cases a with
      | nan => simp [FloatEnv.div]
      | inf s => simp [FloatEnv.div]
      | nzero => exact z _
      | fin x => exact z _
  | fin y =>
    have hy : 0 ≤ y := by simpa using hg.2.2
    cases a with
    | nan => simp [FloatEnv.div]
    | inf s => cases s with
      | true => exact absurd rfl ha.2.1
      | false => apply z'; simp [FloatEnv.div, infS, Xor, not_lt.2 hy]
    | nzero => exact absurd trivial ha.2.1
    | fin x =>
      have hx : 0 ≤ x := by simpa using ha.2.2
      show ¬ E.divFin (fin x) (fin y) < fin 0
      unfold FloatEnv.divFin
      by_cases h0 : y = 0
      · by_cases h1 : x = 0
        · simp [h0, h1]
        · apply z'
          simp [h0, h1, infS, Xor, not_lt.2 hx]
      · rw [if_neg (show ¬ (fin y).val = 0 from h0)]
        by_cases h1 : x = 0
        · rw [if_pos (show (fin x).val = 0 from h1)]; exact z _
        · rw [if_neg (show ¬ (fin x).val = 0 from h1), hE]
          apply z'
          have := Format.round_mono Format.ok32 (div_nonneg hx hy)
          rwa [Format.round_zero, F.toE_fin, EReal.coe_zero] at this

theorem ofNat32_mono {a b : ℕ} (h : a ≤ b) : (E.ofNat a).toE ≤ (E.ofNat b).toE := by
  unfold FloatEnv.ofNat
  rw [r32_toE hE, r32_toE hE]
  exact Format.round_mono Format.ok32 (by exact_mod_cast h)

end

end BigO
