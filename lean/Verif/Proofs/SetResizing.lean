import Verif.Proofs.Chain

set_option linter.unusedSimpArgs false
set_option linter.unusedSectionVars false
set_option linter.unnecessarySimpa false

namespace BigO
open F

section
variable (E : FloatEnv)
def srBetter (u1 u2 : F) : Prop := E.tol < E.sub (E.div u1 u2) (fin 1)
def srLog (r g : F) : Prop := E.div r g < fin 1
def srLogIn (r g : F) : Prop := F.abs (E.sub (E.div r g) (fin 1)) < E.tol
def srAbove (r : F) : Prop := E.tol < E.sub (E.div r (fin 3)) (fin 1)

noncomputable def logTriple (n : F) : F := E.div (E.log2 (E.mul n (fin 3))) (E.log2 n)

/-- the tests of `analyse_set_resizing_iterator_complexity`, sorted by verdict -/
noncomputable def srTests (u1 u2 n : F) : List Prop :=
  let r := E.div u2 u1
  [srBetter E u1 u2, within E u2 u1, srLog E r (logTriple E n), srLogIn E r (logTriple E n),
   ¬ within E r (fin 3) ∧ ¬ srAbove E r, within E r (fin 3)]

open Classical in
theorem sr_eq_pick (u1 u2 n : F) : (analyseSetResizing E u1 u2 n).asU32 = pick (srTests E u1 u2 n) := by
  unfold analyseSetResizing srTests
  rw [← Nat.zero_add (pick _)]
  refine rank_ite rfl ?_
  refine rank_ite rfl ?_
  refine rank_ite rfl ?_
  refine rank_ite rfl ?_
  simp only [pick]
  change Complexity.asU32 (ite (within E (E.div u2 u1) (fin 3)) _ (ite (srAbove E (E.div u2 u1)) _ _)) = _
  by_cases h1 : within E (E.div u2 u1) (fin 3) <;> by_cases h2 : srAbove E (E.div u2 u1) <;>
    simp [h1, h2, Complexity.asU32]
end

variable {E : FloatEnv} (L : FloatLaws E)
include L

theorem abs_lt_iff' {a : F} {t : ℝ} : F.abs a < fin t ↔ a.isNum ∧ ((-t : ℝ) : EReal) < a.toE ∧ a.toE < (t : EReal) := by
  cases a with
  | nan => simp [F.abs]
  | inf s => cases s <;> simp [F.abs, F.lt_def]
  | nzero =>
    simp only [F.abs, fin_lt_fin, isNum_nzero, toE_nzero, true_and]
    constructor
    · intro h
      constructor
      · exact_mod_cast (by linarith : -t < 0)
      · exact_mod_cast h
    · rintro ⟨_, h⟩; exact_mod_cast h
  | fin x =>
    simp only [F.abs, fin_lt_fin, isNum_fin, toE_fin, true_and, EReal.coe_lt_coe_iff]
    exact abs_lt

theorem lt_const_first (g : F) {k : ℝ} (hk : 0 < k) {a b : F} (ha : fin 0 < a) (hab : a ≤ b)
    (h : E.div b g < fin k) : E.div a g < fin k := by
  rcases div_pos_mono L g ha hab with ⟨h1, h2, h3⟩ | ⟨h1, h2, h3, h4⟩ | h1
  · rw [F.lt_def] at *; exact ⟨h1, trivial, lt_of_le_of_lt h3 h.2.2⟩
  · rw [F.lt_def] at *; exact ⟨h1, trivial, lt_of_le_of_lt h3 (by simpa using hk)⟩
  · exact absurd h.1 h1

theorem rnd_zero_toE : (E.rnd 0).toE = 0 := by
  have := L.rnd_nat 0 (by norm_num); simp at this; simp [this]

theorem srLogIn_mono (g : F) {a b : F} (ha : fin 0 < a) (hab : a ≤ b)
    (hn : ¬ srLog E a g) (h : srLogIn E b g) : srLogIn E a g := by
  obtain ⟨t, c, d, ht, hc, -, t0, t1, c0, c1, -⟩ := L.tol_consts
  unfold srLogIn srLog at *
  rw [ht, abs_lt_iff' L, sub_one_isNum_iff L] at h
  rw [ht, abs_lt_iff' L, sub_one_isNum_iff L]
  rcases div_pos_mono L g ha hab with ⟨h1, h2, h3⟩ | ⟨h1, h2, h3, h4⟩ | h1
  · refine ⟨h1, ?_, lt_of_le_of_lt (sub_one_mono L h1 h2 h3) h.2.2⟩
    have : (fin 1).toE ≤ (E.div a g).toE := by
      rw [F.lt_def] at hn; push Not at hn
      exact hn h1 trivial
    have := sub_one_mono L (a := fin 1) trivial h1 this
    rw [sub_one_toE L] at this
    simp [rnd_zero_toE L] at this
    refine lt_of_lt_of_le ?_ this
    exact_mod_cast (by linarith : -t < 0)
  · exfalso; apply hn; rw [F.lt_def]; exact ⟨h1, trivial, lt_of_le_of_lt h3 (by simp)⟩
  · exact absurd h.1 h1

theorem within_or_above {r : F} : (within E r (fin 3) ∨ srAbove E r) ↔
    (E.div r (fin 3)).isNum ∧ ((-(E.tol.val) : ℝ) : EReal) ≤ (E.sub (E.div r (fin 3)) (fin 1)).toE := by
  obtain ⟨t, c, d, ht, hc, -, t0, t1, c0, c1, -⟩ := L.tol_consts
  unfold within srAbove
  rw [ht, abs_le_iff L, sub_one_isNum_iff L, F.lt_def, sub_one_isNum_iff L]
  simp only [isNum_fin, toE_fin, true_and, val_fin]
  constructor
  · rintro (h | h)
    · exact ⟨h.1, h.2.1⟩
    · refine ⟨h.1, le_trans ?_ h.2.le⟩
      exact_mod_cast (by linarith : -t ≤ t)
  · rintro ⟨h1, h2⟩
    rcases le_or_gt (E.sub (E.div r (fin 3)) (fin 1)).toE (t : EReal) with h | h
    · left; exact ⟨h1, h2, h⟩
    · right; exact ⟨h1, h⟩

theorem within_mono {r r' : F} (hn : (E.div r (fin 3)).isNum) (hr : r.isNum) (h0 : fin 0 < r) (hrr : r ≤ r')
    (hlow : within E r (fin 3) ∨ srAbove E r) (h : within E r' (fin 3)) : within E r (fin 3) := by
  obtain ⟨t, c, d, ht, hc, -, t0, t1, c0, c1, -⟩ := L.tol_consts
  rw [within_or_above L, ht] at hlow
  unfold within at *
  rw [ht, abs_le_iff L, sub_one_isNum_iff L] at h
  rw [ht, abs_le_iff L, sub_one_isNum_iff L]
  rcases div_pos_mono L (fin 3) h0 hrr with ⟨h1, h2, h3⟩ | ⟨h1, h2, h3, h4⟩ | h1
  · exact ⟨hn, hlow.2, le_trans (sub_one_mono L h1 h2 h3) h.2.2⟩
  · refine ⟨hn, hlow.2, le_trans (sub_one_mono L (b := fin 0) h1 trivial (by simpa using h3)) ?_⟩
    rw [sub_one_toE L]
    have : (E.rnd ((0:ℝ) - 1)).toE ≤ (E.rnd 0).toE := L.rnd_mono _ _ (by norm_num)
    rw [rnd_zero_toE L] at this
    exact this.trans (by exact_mod_cast t0.le)
  · exact absurd h.1 h1

theorem low_mono {r r' : F} (h0 : fin 0 < r) (hrr : r ≤ r') (hn' : (E.div r' (fin 3)).isNum)
    (hlow : within E r (fin 3) ∨ srAbove E r) : within E r' (fin 3) ∨ srAbove E r' := by
  rw [within_or_above L] at *
  refine ⟨hn', hlow.2.trans ?_⟩
  rcases div_pos_mono L (fin 3) h0 hrr with ⟨h1, h2, h3⟩ | ⟨h1, h2, h3, h4⟩ | h1
  · exact sub_one_mono L h1 h2 h3
  · -- both ≤ 0 although the divisor is positive: the first is then ≤ the second as well
    have h0' := F.le_of_pos h0 hrr
    rcases F.pos_cases h0 with rfl | ⟨x, hx, rfl⟩ <;> rcases F.pos_cases h0' with rfl | ⟨y, hy, rfl⟩
    · exact le_refl _
    · rw [F.le_def] at hrr; simp at hrr
    · simp [FloatEnv.div, infS, Xor, not_lt.2 (show (0:ℝ) ≤ 3 by norm_num)] at h4
    · apply sub_one_mono L h1 h2
      rw [div_fin_fin_pos hx (by norm_num), div_fin_fin_pos hy (by norm_num)]
      exact L.rnd_mono _ _ (div_le_div_of_nonneg_right (by simpa using hrr) (by norm_num))
  · exact absurd hn' h1

/-- division by a larger positive number gives a smaller quotient -/
theorem div_anti {z : ℝ} (hz : 0 < z) {a b : F} (ha : fin 0 < a) (hab : a ≤ b) :
    (E.div (fin z) a).isNum ∧ (E.div (fin z) b).isNum ∧ (E.div (fin z) b).toE ≤ (E.div (fin z) a).toE := by
  have hpos : ∀ x, 0 < x → 0 ≤ (E.rnd x).toE := by
    intro x hx
    have := L.rnd_mono 0 x hx.le
    rwa [rnd_zero_toE L] at this
  have hb := F.le_of_pos ha hab
  rcases F.pos_cases ha with rfl | ⟨x, hx, rfl⟩ <;> rcases F.pos_cases hb with rfl | ⟨y, hy, rfl⟩
  · simp [FloatEnv.div, zero, Xor, not_lt.2 hz.le]
  · rw [F.le_def] at hab; simp at hab
  · rw [div_fin_fin_pos hz hx.ne']
    refine ⟨L.rnd_num _, ?_, ?_⟩
    · simp [FloatEnv.div, zero, Xor, not_lt.2 hz.le]
    · simpa [FloatEnv.div, zero, Xor, not_lt.2 hz.le] using hpos _ (by positivity)
  · rw [div_fin_fin_pos hz hx.ne', div_fin_fin_pos hz hy.ne']
    refine ⟨L.rnd_num _, L.rnd_num _, L.rnd_mono _ _ ?_⟩
    exact div_le_div_of_nonneg_left hz.le hx (by simpa using hab)

/-- the sanity check is implied by the first test of the regular analysis -/
theorem below_srBetter {z : ℝ} (hz : 0 < z) {u2 : F} (h2 : fin 0 < u2) (h : below E u2 (fin z)) : srBetter E (fin z) u2 := by
  obtain ⟨t, c, d, ht, hc, hd, t0, t1, c0, c1, d1, hlow, hhigh⟩ := L.tol_consts
  have hcc := L.rnd_idem _ _ hc
  unfold below at h
  unfold srBetter
  rw [oneMinusTol_eq L ht hc t1] at h
  rw [ht, F.lt_def, sub_one_isNum_iff L]
  rcases F.pos_cases h2 with rfl | ⟨y, hy, rfl⟩
  · exfalso; simp [FloatEnv.div, infS, Xor, not_lt.2 hz.le, F.lt_def] at h
  · rw [div_fin_fin_pos hy hz.ne'] at h
    rw [div_fin_fin_pos hz hy.ne']
    have hlt : y / z < c := by
      by_contra hge
      push Not at hge
      have := L.rnd_mono _ _ hge
      rw [hcc] at this
      exact absurd h.2.2 (not_lt.2 this)
    refine ⟨trivial, L.rnd_num _, lt_of_lt_of_le hhigh ?_⟩
    have hle : 1 / c ≤ z / y := by
      rw [div_le_div_iff₀ c0 hy]; rw [div_lt_iff₀ hz] at hlt; linarith
    have h1 := L.rnd_mono _ _ hle
    rw [hd] at h1
    have h2 := sub_one_mono L (a := fin d) trivial (L.rnd_num (z / y)) h1
    rw [sub_one_toE L] at h2
    exact h2

theorem sr_mono {u1 u2 u2' n : F} (h1 : fin 0 < u1) (h2 : fin 0 ≤ u2) (hz : u2 ≠ nzero) (h : u2 ≤ u2') :
    (analyseSetResizing E u1 u2 n).asU32 ≤ (analyseSetResizing E u1 u2' n).asU32 := by
  obtain ⟨t, c, d, ht, hc, hd, t0, t1, c0, c1, d1, hlow, hhigh⟩ := L.tol_consts
  have hcc := L.rnd_idem _ _ hc
  rw [sr_eq_pick, sr_eq_pick]
  have better0 : srBetter E u1 u2 → pick (srTests E u1 u2 n) = 0 := by
    intro hb; unfold srTests pick; simp [hb]
  rcases nonneg_cases h2 with hpos | hzero | hzero
  · have hpos' := F.le_of_pos hpos h
    rcases F.pos_cases h1 with rfl | ⟨z, hz, rfl⟩
    · rcases F.pos_cases hpos with rfl | ⟨x, hx, rfl⟩
      · rcases F.pos_cases hpos' with rfl | ⟨y, hy, rfl⟩
        · exact le_refl _
        · rw [F.le_def] at h; simp at h
      · have : srBetter E (inf false) (fin x) := by
          unfold srBetter; rw [ht]; simp [FloatEnv.div, infS, Xor, not_lt.2 hx.le, FloatEnv.sub, F.lt_def]
        rw [better0 this]; omega
    · have hn := div_fin_num L hpos hz
      have hn' := div_fin_num L hpos' hz
      have hr : E.div u2 (fin z) ≤ E.div u2' (fin z) := ⟨hn, hn', ratio_mono L h1 hpos h hn hn'⟩
      apply pick_mono
      unfold srTests
      refine ⟨?_, fun hnb => ?_⟩
      · intro hb
        unfold srBetter at *
        rw [ht, F.lt_def, sub_one_isNum_iff L] at *
        obtain ⟨d1, d2, d3⟩ := div_anti L hz hpos h
        exact ⟨trivial, d1, lt_of_lt_of_le hb.2.2 (sub_one_mono L d2 d1 d3)⟩
      have hnbelow : ¬ below E u2 (fin z) := fun hb => hnb (below_srBetter L hz hpos hb)
      have hrp := not_below_pos L hnbelow hn
      have hrp' := F.le_of_pos hrp hr
      refine ⟨tier_second L _ hpos h hnbelow, fun _ => ⟨?_, fun hnl => ⟨?_, fun _ => ⟨?_, fun hmid => ⟨?_, fun _ => trivial⟩⟩⟩⟩⟩
      · exact lt_const_first L _ (by norm_num) hrp hr
      · exact srLogIn_mono L _ hrp hr hnl
      · rintro ⟨ha, hb⟩
        by_contra hcon
        have hor : within E (E.div u2 (fin z)) (fin 3) ∨ srAbove E (E.div u2 (fin z)) := by tauto
        rcases low_mono L hrp hr (div_fin_num L hrp' (by norm_num)) hor with h | h
        · exact ha h
        · exact hb h
      · have hor : within E (E.div u2 (fin z)) (fin 3) ∨ srAbove E (E.div u2 (fin z)) := by tauto
        exact within_mono L (div_fin_num L hrp (by norm_num)) hn hrp hr hor
  · have : srBetter E u1 u2 := by
      subst hzero
      unfold srBetter; rw [ht]
      rcases F.pos_cases h1 with rfl | ⟨z, hz, rfl⟩
      · simp [FloatEnv.div, infS, Xor, FloatEnv.sub, F.lt_def]
      · simp [FloatEnv.div, FloatEnv.divFin, infS, Xor, not_lt.2 hz.le, hz.ne', FloatEnv.sub, F.lt_def]
    rw [better0 this]; omega
  · exact absurd hzero hz

end BigO
