import Verif.Proofs.Chain
import Verif.Spec.ExactFloat
import Verif.Spec.Growth
import Mathlib.Analysis.SpecialFunctions.Log.Monotone
import Mathlib.Analysis.Complex.ExponentialBounds
import Mathlib.Tactic.FieldSimp

set_option linter.unusedSimpArgs false
set_option linter.unusedSectionVars false

namespace BigO
open F

theorem exact_laws {t : ℝ} (h0 : 0 < t) (h1 : t < 1) : FloatLaws (exactEnv t) where
  rnd_num _ := trivial
  rnd_mono x y h := by simpa [exactEnv] using h
  rnd_pos x h := by simpa [exactEnv] using h.le
  rnd_neg x h := by simpa [exactEnv] using h
  rnd_nat n _ := rfl
  rnd_idem x y h := rfl
  rnd_nano := by simp only [exactEnv, toE_fin]; exact_mod_cast (by norm_num : (0:ℝ) < 1 / 10 ^ 9)
  tol_consts := by
    refine ⟨t, 1 - t, 1 / (1 - t), rfl, rfl, rfl, h0, h1, by linarith, by linarith, ?_, ?_, ?_⟩
    · rw [lt_div_iff₀ (by linarith)]; linarith
    · simp [exactEnv]
    · have : t < 1 / (1 - t) - 1 := by
        rw [lt_sub_iff_add_lt, lt_div_iff₀ (by linarith)]; nlinarith
      simp only [exactEnv, toE_fin]
      exact_mod_cast this

section
variable {t : ℝ}

theorem ex_div {r g : ℝ} (hr : 0 ≤ r) (hg : 0 < g) : (exactEnv t).div (fin r) (fin g) = fin (r / g) := by
  rcases hr.lt_or_eq with h | h
  · rw [div_fin_fin_pos h hg.ne']; rfl
  · subst h
    simp [FloatEnv.div, FloatEnv.divFin, hg.ne', zero, Xor, hg.le, not_lt.2 hg.le]

theorem ex_sub (a b : ℝ) : (exactEnv t).sub (fin a) (fin b) = fin (a - b) := by
  show (exactEnv t).rnd0 (a - b) = _
  unfold FloatEnv.rnd0
  split_ifs with h
  · rw [h]
  · rfl

theorem ex_mul {a b : ℝ} (ha : 0 ≤ a) (hb : 0 ≤ b) : (exactEnv t).mul (fin a) (fin b) = fin (a * b) := by
  show (exactEnv t).mulFin (fin a) (fin b) = _
  by_cases h : a * b = 0
  · rw [h]; simp [FloatEnv.mulFin, h, zero, Xor, not_lt.2 ha, not_lt.2 hb]
  · simp [FloatEnv.mulFin, exactEnv, (mul_ne_zero_iff.1 h).1, (mul_ne_zero_iff.1 h).2]

theorem ex_log {x : ℝ} (hx : 0 < x) : (exactEnv t).log2 (fin x) = fin (Real.logb 2 x) := by
  simp [exactEnv, idealLog2, hx.ne', not_lt.2 hx.le]

theorem ex_powi {x : ℝ} {k : ℕ} (hk : k ≠ 0) : (exactEnv t).powi (fin x) k = fin (x ^ k) := by
  simp [exactEnv, idealPowi, hk]

theorem ex_powf {x y : ℝ} (hx : 0 < x) : (exactEnv t).powf (fin x) (fin y) = fin (x ^ y) := by
  simp only [exactEnv, idealPowf, hx.ne', not_lt.2 hx.le, if_false]
  split_ifs with h
  · rw [h]; simp
  · rfl

theorem ex_ofNat (n : ℕ) : (exactEnv t).ofNat n = fin n := by
  simp only [FloatEnv.ofNat, FloatEnv.rnd0]
  split_ifs with h
  · rw [h]
  · rfl

theorem ex_oneMinusTol : oneMinusTol (exactEnv t) = fin (1 - t) := by
  unfold oneMinusTol
  exact ex_sub 1 t

theorem ex_below {r g : ℝ} (hr : 0 ≤ r) (hg : 0 < g) : below (exactEnv t) (fin r) (fin g) ↔ r / g < 1 - t := by
  unfold below
  rw [ex_div hr hg, ex_oneMinusTol, fin_lt_fin]

theorem ex_within {r g : ℝ} (hr : 0 ≤ r) (hg : 0 < g) : within (exactEnv t) (fin r) (fin g) ↔ |r / g - 1| ≤ t := by
  unfold within
  rw [ex_div hr hg, ex_sub]
  show fin _ ≤ fin t ↔ _
  rw [fin_le_fin]

end

/-- tests of a list of tiers on reals -/
def tiers (t r : ℝ) : List ℝ → List Prop → List Prop
  | [], rest => rest
  | g :: gs, rest => (r / g < 1 - t) :: (|r / g - 1| ≤ t) :: tiers t r gs rest

theorem tier_or {t r g : ℝ} (ht : 0 < t) (hg : 0 < g) :
    (r / g < 1 - t ∨ |r / g - 1| ≤ t) ↔ r ≤ (1 + t) * g := by
  rw [← div_le_iff₀ hg, abs_le]
  constructor
  · rintro (h | h) <;> linarith
  · intro h
    by_cases h' : r / g < 1 - t
    · left; exact h'
    · right; constructor <;> linarith

theorem pick_tiers_odd {t r : ℝ} (ht : 0 < t) : ∀ {gs : List ℝ} {rest : List Prop} {k : ℕ}, (∀ g ∈ gs, 0 < g) →
    (hk : k < gs.length) →
    (pick (tiers t r gs rest) ≤ 2 * k + 1 ↔ ∃ i, ∃ h : i < gs.length, i ≤ k ∧ r ≤ (1 + t) * gs[i])
  | [], _, _, _, hk => by simp at hk
  | g :: gs, rest, k, hpos, hk => by
    have hg : 0 < g := hpos g (by simp)
    have hor := tier_or (r := r) ht hg
    unfold tiers pick
    by_cases h1 : r / g < 1 - t
    · simp only [h1, if_true]
      exact ⟨fun _ => ⟨0, by simp, by omega, hor.1 (Or.inl h1)⟩, fun _ => by omega⟩
    · simp only [h1, if_false]
      unfold pick
      by_cases h2 : |r / g - 1| ≤ t
      · simp only [h2, if_true]
        exact ⟨fun _ => ⟨0, by simp, by omega, hor.1 (Or.inr h2)⟩, fun _ => by omega⟩
      · simp only [h2, if_false]
        have hnot : ¬ r ≤ (1 + t) * g := fun h => by rcases hor.2 h with h | h; exact h1 h; exact h2 h
        cases k with
        | zero =>
          constructor
          · intro h; omega
          · rintro ⟨i, hi, hik, h⟩
            have : i = 0 := by omega
            subst this; exact absurd h hnot
        | succ k =>
          have ih := pick_tiers_odd (r := r) ht (gs := gs) (rest := rest) (k := k)
            (fun g hg => hpos g (by simp [hg])) (by simpa using hk)
          constructor
          · intro h
            obtain ⟨i, hi, hik, h⟩ := ih.1 (by omega)
            exact ⟨i + 1, by simpa using hi, by omega, by simpa using h⟩
          · rintro ⟨i, hi, hik, h⟩
            cases i with
            | zero => exact absurd h hnot
            | succ i =>
              have := ih.2 ⟨i, by simpa using hi, by omega, by simpa using h⟩
              omega

theorem pick_tiers_even {t r : ℝ} (ht : 0 < t) : ∀ {gs : List ℝ} {rest : List Prop} {k : ℕ}, (∀ g ∈ gs, 0 < g) →
    (hk : k < gs.length) →
    (pick (tiers t r gs rest) ≤ 2 * k ↔
      (∃ i, ∃ h : i < gs.length, i < k ∧ r ≤ (1 + t) * gs[i]) ∨ r < (1 - t) * gs[k])
  | [], _, _, _, hk => by simp at hk
  | g :: gs, rest, k, hpos, hk => by
    have hg : 0 < g := hpos g (by simp)
    have hor := tier_or (r := r) ht hg
    have hlt : r / g < 1 - t ↔ r < (1 - t) * g := div_lt_iff₀ hg
    unfold tiers pick
    by_cases h1 : r / g < 1 - t
    · simp only [h1, if_true]
      refine ⟨fun _ => ?_, fun _ => by omega⟩
      cases k with
      | zero => right; simpa using hlt.1 h1
      | succ k => left; exact ⟨0, by simp, by omega, hor.1 (Or.inl h1)⟩
    · simp only [h1, if_false]
      unfold pick
      by_cases h2 : |r / g - 1| ≤ t
      · simp only [h2, if_true]
        cases k with
        | zero =>
          simp [← hlt, h1]
        | succ k =>
          exact ⟨fun _ => Or.inl ⟨0, by simp, by omega, hor.1 (Or.inr h2)⟩, fun _ => by omega⟩
      · simp only [h2, if_false]
        have hnot : ¬ r ≤ (1 + t) * g := fun h => by rcases hor.2 h with h | h; exact h1 h; exact h2 h
        cases k with
        | zero =>
          simp [← hlt, h1]
        | succ k =>
          have ih := pick_tiers_even (r := r) ht (gs := gs) (rest := rest) (k := k)
            (fun g hg => hpos g (by simp [hg])) (by simpa using hk)
          constructor
          · intro h
            rcases ih.1 (by omega) with ⟨i, hi, hik, h⟩ | h
            · left; exact ⟨i + 1, by simpa using hi, by omega, by simpa using h⟩
            · right; simpa using h
          · rintro (⟨i, hi, hik, h⟩ | h)
            · cases i with
              | zero => exact absurd h hnot
              | succ i =>
                have := ih.2 (Or.inl ⟨i, by simpa using hi, by omega, by simpa using h⟩)
                omega
            · have := ih.2 (Or.inr (by simpa using h))
              omega

/-- the ideal growth ratios of the seven polynomial tiers -/
noncomputable def ratios (n1 n2 : ℝ) : List ℝ :=
  [1, Real.logb 2 n2 / Real.logb 2 n1, n2 / n1, (n2 * Real.logb 2 n2) / (n1 * Real.logb 2 n1),
   (n2 / n1) ^ 2, (n2 / n1) ^ 3, (n2 / n1) ^ 4]

theorem logb_pos2 {n : ℝ} (h : 2 ≤ n) : 0 < Real.logb 2 n := Real.logb_pos (by norm_num) (by linarith)

theorem ratios_pos {n1 n2 : ℝ} (h1 : 2 ≤ n1) (h2 : 2 ≤ n2) : ∀ g ∈ ratios n1 n2, 0 < g := by
  have l1 := logb_pos2 h1
  have l2 := logb_pos2 h2
  intro g hg
  simp only [ratios, List.mem_cons, List.not_mem_nil, or_false] at hg
  have : 0 < n1 := by linarith
  have : 0 < n2 := by linarith
  rcases hg with rfl | rfl | rfl | rfl | rfl | rfl | rfl <;> positivity

theorem exact_tests {t u1 u2 n1 n2 : ℝ} (hu1 : 0 < u1) (hu2 : 0 ≤ u2) (h1 : 2 ≤ n1) (h2 : 2 ≤ n2) :
    tests (exactEnv t) (fin u1) (fin u2) (fin n1) (fin n2) =
      tiers t (u2 / u1) (ratios n1 n2)
        [u2 / u1 ^ (n2 / n1) < 1 - t, |u2 / u1 ^ (n2 / n1) - 1| ≤ t] := by
  have hp1 : 0 < n1 := by linarith
  have hp2 : 0 < n2 := by linarith
  have l1 := logb_pos2 h1
  have l2 := logb_pos2 h2
  have hr : 0 ≤ u2 / u1 := by positivity
  have hpw : 0 < u1 ^ (n2 / n1) := Real.rpow_pos_of_pos hu1 _
  unfold tests ratios
  simp only [tiers]
  rw [ex_div hu2 hu1, ex_log hp1, ex_log hp2, ex_div l2.le l1, ex_div hp2.le hp1, ex_mul hp2.le l2.le,
    ex_mul hp1.le l1.le, ex_div (by positivity) (by positivity), ex_powi (by norm_num), ex_powi (by norm_num),
    ex_powi (by norm_num), ex_powf hu1]
  simp only [ex_below hu2 hu1, ex_within hu2 hu1, ex_below hu2 hpw, ex_within hu2 hpw]
  rw [ex_below hr (by positivity), ex_within hr (by positivity), ex_below hr (by positivity), ex_within hr (by positivity),
    ex_below hr (by positivity), ex_within hr (by positivity), ex_below hr (by positivity), ex_within hr (by positivity),
    ex_below hr (by positivity), ex_within hr (by positivity), ex_below hr (by positivity), ex_within hr (by positivity)]
  simp

theorem log_ratio_le {n1 n2 : ℝ} (h1 : 3 ≤ n1) (h : n1 ≤ n2) : Real.logb 2 n2 / Real.logb 2 n1 ≤ n2 / n1 := by
  have hp1 : 0 < n1 := by linarith
  have hp2 : 0 < n2 := by linarith
  have he : Real.exp 1 ≤ 3 := by have := Real.exp_one_lt_d9; linarith
  have ha := Real.log_div_self_antitoneOn (a := n1) (b := n2) (by simp; linarith) (by simp; linarith) h
  have l1 : 0 < Real.log n1 := Real.log_pos (by linarith)
  have l2 : (0:ℝ) < Real.log 2 := Real.log_pos (by norm_num)
  unfold Real.logb
  rw [div_div_div_cancel_right₀ l2.ne']
  rw [div_le_div_iff₀ hp2 hp1] at ha
  rw [div_le_div_iff₀ l1 hp1]
  linarith

theorem log_ratio_ge_one {n1 n2 : ℝ} (h1 : 2 ≤ n1) (h : n1 ≤ n2) : 1 ≤ Real.logb 2 n2 / Real.logb 2 n1 := by
  rw [one_le_div (logb_pos2 h1)]
  exact Real.logb_le_logb_of_le (by norm_num) (by linarith) h

/-- set sizes between which logarithms do not grow more than the sizes -/
def SlowLog (n1 n2 : ℝ) : Prop := 2 ≤ n1 ∧ n1 ≤ n2 ∧ Real.logb 2 n2 / Real.logb 2 n1 ≤ n2 / n1

theorem slowLog_of_three {n1 n2 : ℝ} (h1 : 3 ≤ n1) (h : n1 ≤ n2) : SlowLog n1 n2 := ⟨by linarith, h, log_ratio_le h1 h⟩

/-- the ideal ratios are ordered like the classes, for such sizes -/
theorem ratios_sorted_of {n1 n2 : ℝ} (hs : SlowLog n1 n2) : (ratios n1 n2).Pairwise (· ≤ ·) := by
  obtain ⟨h1, h, b⟩ := hs
  have a := log_ratio_ge_one h1 h
  have hp1 : 0 < n1 := by linarith
  have l1 := logb_pos2 (n := n1) (by linarith)
  have e : (n2 * Real.logb 2 n2) / (n1 * Real.logb 2 n1) = (n2 / n1) * (Real.logb 2 n2 / Real.logb 2 n1) := by
    field_simp
  unfold ratios
  rw [e]
  generalize Real.logb 2 n2 / Real.logb 2 n1 = l at *
  generalize n2 / n1 = q at *
  have hq : 1 ≤ q := by linarith
  have c1 : q ≤ q * l := by nlinarith
  have c2 : q * l ≤ q ^ 2 := by nlinarith
  have c3 : q ^ 2 ≤ q ^ 3 := pow_le_pow_right₀ hq (by norm_num)
  have c4 : q ^ 3 ≤ q ^ 4 := pow_le_pow_right₀ hq (by norm_num)
  have hs : [1, l, q, q * l, q ^ 2, q ^ 3, q ^ 4].IsChain (· ≤ ·) := by simp [*]
  exact hs.pairwise

/-- `rank ≤ 2k+1` for sorted ratios is one inequality -/
theorem accept_odd_of {t u1 u2 n1 n2 : ℝ} (ht : 0 < t) (hu1 : 0 < u1) (hu2 : 0 ≤ u2) (hs : SlowLog n1 n2)
    {k : ℕ} (hk : k < (ratios n1 n2).length) :
    (analyseComplexity (exactEnv t) (fin u1) (fin u2) (fin n1) (fin n2)).asU32 ≤ 2 * k + 1 ↔
      u2 / u1 ≤ (1 + t) * (ratios n1 n2)[k] := by
  have h1 := hs.1
  have h := hs.2.1
  rw [analyse_eq_pick, exact_tests hu1 hu2 (by linarith) (by linarith),
    pick_tiers_odd ht (ratios_pos (by linarith) (by linarith)) hk]
  constructor
  · rintro ⟨i, hi, hik, hh⟩
    refine hh.trans ?_
    refine mul_le_mul_of_nonneg_left ?_ (by linarith)
    rcases hik.lt_or_eq with hlt | rfl
    · exact List.pairwise_iff_getElem.1 (ratios_sorted_of hs) i k hi hk hlt
    · exact le_refl _
  · intro hh; exact ⟨k, hk, le_refl _, hh⟩

theorem accept_odd {t u1 u2 n1 n2 : ℝ} (ht : 0 < t) (hu1 : 0 < u1) (hu2 : 0 ≤ u2) (h1 : 3 ≤ n1) (h : n1 ≤ n2)
    {k : ℕ} (hk : k < (ratios n1 n2).length) :
    (analyseComplexity (exactEnv t) (fin u1) (fin u2) (fin n1) (fin n2)).asU32 ≤ 2 * k + 1 ↔
      u2 / u1 ≤ (1 + t) * (ratios n1 n2)[k] :=
  accept_odd_of ht hu1 hu2 (slowLog_of_three h1 h) hk

theorem accept_even_of {t u1 u2 n1 n2 : ℝ} (ht : 0 < t) (hu1 : 0 < u1) (hu2 : 0 ≤ u2) (hs : SlowLog n1 n2)
    {k : ℕ} (hk : k + 1 < (ratios n1 n2).length) :
    (analyseComplexity (exactEnv t) (fin u1) (fin u2) (fin n1) (fin n2)).asU32 ≤ 2 * (k + 1) ↔
      u2 / u1 ≤ (1 + t) * (ratios n1 n2)[k] ∨ u2 / u1 < (1 - t) * (ratios n1 n2)[k + 1] := by
  have h1 := hs.1
  have h := hs.2.1
  rw [analyse_eq_pick, exact_tests hu1 hu2 (by linarith) (by linarith),
    pick_tiers_even ht (ratios_pos (by linarith) (by linarith)) hk]
  refine or_congr ?_ Iff.rfl
  constructor
  · rintro ⟨i, hi, hik, hh⟩
    refine hh.trans ?_
    refine mul_le_mul_of_nonneg_left ?_ (by linarith)
    rcases (Nat.lt_succ_iff.1 hik).lt_or_eq with hlt | rfl
    · exact List.pairwise_iff_getElem.1 (ratios_sorted_of hs) i k hi (by omega) hlt
    · exact le_refl _
  · intro hh; exact ⟨k, by omega, by omega, hh⟩

theorem accept_even {t u1 u2 n1 n2 : ℝ} (ht : 0 < t) (hu1 : 0 < u1) (hu2 : 0 ≤ u2) (h1 : 3 ≤ n1) (h : n1 ≤ n2)
    {k : ℕ} (hk : k + 1 < (ratios n1 n2).length) :
    (analyseComplexity (exactEnv t) (fin u1) (fin u2) (fin n1) (fin n2)).asU32 ≤ 2 * (k + 1) ↔
      u2 / u1 ≤ (1 + t) * (ratios n1 n2)[k] ∨ u2 / u1 < (1 - t) * (ratios n1 n2)[k + 1] :=
  accept_even_of ht hu1 hu2 (slowLog_of_three h1 h) hk

end BigO
