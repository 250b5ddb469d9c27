import Verif.Proofs.ExactLaws
import Verif.Proofs.SetResizing

set_option linter.unusedSimpArgs false
set_option linter.unnecessarySimpa false

namespace BigO
open F

open Classical in
theorem pick_cons (p : Prop) (ps : List Prop) : pick (p :: ps) = if p then 0 else pick ps + 1 := by
  rw [pick]

theorem pick_tiers_rest {t r : ℝ} (ht : 0 < t) : ∀ {gs : List ℝ} {rest : List Prop} {m : ℕ}, (∀ g ∈ gs, 0 < g) →
    (pick (tiers t r gs rest) ≤ 2 * gs.length + m ↔ (∃ g ∈ gs, r ≤ (1 + t) * g) ∨ pick rest ≤ m)
  | [], _, _, _ => by simp [tiers]
  | g :: gs, rest, m, hpos => by
    have hg : 0 < g := hpos g (by simp)
    have hor := tier_or (r := r) ht hg
    have ih := pick_tiers_rest (r := r) ht (gs := gs) (rest := rest) (m := m) (fun g hg => hpos g (by simp [hg]))
    unfold tiers
    rw [pick_cons, pick_cons]
    by_cases h1 : r / g < 1 - t
    · simp only [h1, if_true]
      exact ⟨fun _ => Or.inl ⟨g, by simp, hor.1 (Or.inl h1)⟩, fun _ => by omega⟩
    · simp only [h1, if_false]
      by_cases h2 : |r / g - 1| ≤ t
      · simp only [h2, if_true]
        exact ⟨fun _ => Or.inl ⟨g, by simp, hor.1 (Or.inr h2)⟩, fun _ => by simp; omega⟩
      · simp only [h2, if_false]
        have hnot : ¬ r ≤ (1 + t) * g := fun h => by rcases hor.2 h with h | h; exact h1 h; exact h2 h
        constructor
        · intro h
          rcases ih.1 (by simp at h; omega) with ⟨g', hg', h⟩ | h
          · exact Or.inl ⟨g', by simp [hg'], h⟩
          · exact Or.inr h
        · rintro (⟨g', hg', h⟩ | h)
          · rcases List.mem_cons.1 hg' with rfl | hg'
            · exact absurd h hnot
            · have := ih.2 (Or.inl ⟨g', hg', h⟩); simp; omega
          · have := ih.2 (Or.inr h); simp; omega

/-- acceptance under the exponential limit -/
theorem accept_exp_of {t u1 u2 n1 n2 : ℝ} (ht : 0 < t) (hu1 : 0 < u1) (hu2 : 0 ≤ u2) (hs : SlowLog n1 n2) :
    (analyseComplexity (exactEnv t) (fin u1) (fin u2) (fin n1) (fin n2)).asU32 ≤ 15 ↔
      u2 / u1 ≤ (1 + t) * (n2 / n1) ^ 4 ∨ u2 ≤ (1 + t) * u1 ^ (n2 / n1) := by
  have h1 := hs.1
  have h := hs.2.1
  have hpw : 0 < u1 ^ (n2 / n1) := Real.rpow_pos_of_pos hu1 _
  rw [exact_rank hu1 hu2 (by linarith) (by linarith)]
  have := pick_tiers_rest (r := u2 / u1) ht (rest := [u2 / u1 ^ (n2 / n1) < 1 - t, |u2 / u1 ^ (n2 / n1) - 1| ≤ t]) (m := 1)
    (ratios_pos (n1 := n1) (n2 := n2) (by linarith) (by linarith))
  rw [show (15:ℕ) = 2 * (ratios n1 n2).length + 1 by simp [ratios], this]
  refine or_congr ?_ ?_
  · constructor
    · rintro ⟨g, hg, hle⟩
      refine hle.trans (mul_le_mul_of_nonneg_left ?_ (by linarith))
      obtain ⟨i, hi, rfl⟩ := List.getElem_of_mem hg
      have h6 : (ratios n1 n2)[6]'(by simp [ratios]) = (n2 / n1) ^ 4 := by simp [ratios]
      rw [← h6]
      have hi' : i < 7 := by simpa [ratios] using hi
      rcases (show i < 6 ∨ i = 6 by omega) with hlt | rfl
      · exact List.pairwise_iff_getElem.1 (ratios_sorted_of hs) i 6 hi (by simp [ratios]) hlt
      · exact le_refl _
    · intro hle; exact ⟨(n2 / n1) ^ 4, by simp [ratios], hle⟩
  · rw [← tier_or ht hpw]
    simp only [pick]
    by_cases h1 : u2 / u1 ^ (n2 / n1) < 1 - t <;> by_cases h2 : |u2 / u1 ^ (n2 / n1) - 1| ≤ t <;> simp [h1, h2]

theorem accept_exp {t u1 u2 n1 n2 : ℝ} (ht : 0 < t) (hu1 : 0 < u1) (hu2 : 0 ≤ u2) (h1 : 3 ≤ n1) (h : n1 ≤ n2) :
    (analyseComplexity (exactEnv t) (fin u1) (fin u2) (fin n1) (fin n2)).asU32 ≤ 15 ↔
      u2 / u1 ≤ (1 + t) * (n2 / n1) ^ 4 ∨ u2 ≤ (1 + t) * u1 ^ (n2 / n1) :=
  accept_exp_of ht hu1 hu2 (slowLog_of_three h1 h)

/-! ### set-resizing analysis, exactly -/

/-- `log(3n)/log(n)` -/
noncomputable def L3 (n : ℝ) : ℝ := Real.logb 2 (n * 3) / Real.logb 2 n

theorem L3_gt_one {n : ℝ} (hn : 2 ≤ n) : 1 < L3 n := by
  unfold L3
  rw [one_lt_div (logb_pos2 hn)]
  exact Real.logb_lt_logb (by norm_num) (by linarith) (by linarith)

theorem ex_logTriple {t n : ℝ} (hn : 2 ≤ n) : logTriple (exactEnv t) (fin n) = fin (L3 n) := by
  unfold logTriple L3
  rw [ex_mul (by linarith) (by norm_num), ex_log (by linarith), ex_log (by linarith),
    ex_div (logb_pos2 (by linarith)).le (logb_pos2 hn)]

theorem ex_srBetter {t u1 u2 : ℝ} (hu1 : 0 < u1) (hu2 : 0 ≤ u2) (ht : 0 < t) :
    srBetter (exactEnv t) (fin u1) (fin u2) ↔ (1 + t) * u2 < u1 := by
  unfold srBetter
  rcases hu2.lt_or_eq with h | rfl
  · rw [ex_div hu1.le h, ex_sub]
    show fin t < fin _ ↔ _
    rw [fin_lt_fin, lt_sub_iff_add_lt, lt_div_iff₀ h, add_comm t 1]
  · simp only [FloatEnv.div, FloatEnv.divFin, val_fin, if_true, hu1.ne', if_false, infS]
    simp [Xor, not_lt.2 hu1.le, FloatEnv.sub, exactEnv, F.lt_def, hu1]

theorem sr_exact_tests {t u1 u2 n : ℝ} (ht : 0 < t) (hu1 : 0 < u1) (hu2 : 0 ≤ u2) (hn : 2 ≤ n) :
    srTests (exactEnv t) (fin u1) (fin u2) (fin n) =
      [(1 + t) * u2 < u1, |u2 / u1 - 1| ≤ t, u2 / u1 / L3 n < 1, |u2 / u1 / L3 n - 1| < t,
       ¬ |u2 / u1 / 3 - 1| ≤ t ∧ ¬ t < u2 / u1 / 3 - 1, |u2 / u1 / 3 - 1| ≤ t] := by
  have hr : 0 ≤ u2 / u1 := by positivity
  have hL : 0 < L3 n := by linarith [L3_gt_one hn]
  unfold srTests
  rw [ex_logTriple hn, ex_div hu2 hu1]
  simp only [ex_srBetter hu1 hu2 ht, ex_within hu2 hu1, ex_within hr (show (0:ℝ) < 3 by norm_num)]
  have e1 : srLog (exactEnv t) (fin (u2 / u1)) (fin (L3 n)) ↔ u2 / u1 / L3 n < 1 := by
    unfold srLog; rw [ex_div hr hL, fin_lt_fin]
  have e2 : srLogIn (exactEnv t) (fin (u2 / u1)) (fin (L3 n)) ↔ |u2 / u1 / L3 n - 1| < t := by
    unfold srLogIn; rw [ex_div hr hL, ex_sub]; show fin _ < fin t ↔ _; rw [fin_lt_fin]
  have e3 : srAbove (exactEnv t) (fin (u2 / u1)) ↔ t < u2 / u1 / 3 - 1 := by
    unfold srAbove; rw [ex_div hr (by norm_num), ex_sub]; show fin t < fin _ ↔ _; rw [fin_lt_fin]
  rw [e1, e2, e3]

/-- the five acceptance thresholds of the set-resizing analysis -/
theorem sr_accept {t u1 u2 n : ℝ} (ht : 0 < t) (ht1 : t < 1) (hu1 : 0 < u1) (hu2 : 0 ≤ u2) (hn : 2 ≤ n) :
    let rank := (analyseSetResizing (exactEnv t) (fin u1) (fin u2) (fin n)).asU32
    let r := u2 / u1
    (rank = 0 ↔ (1 + t) * r < 1) ∧
    (rank ≤ 1 ↔ r ≤ 1 + t) ∧
    (rank ≤ 2 ↔ r ≤ 1 + t ∨ r < L3 n) ∧
    (rank ≤ 3 ↔ r ≤ 1 + t ∨ r < (1 + t) * L3 n) ∧
    (rank ≤ 4 ↔ r ≤ 1 + t ∨ r < (1 + t) * L3 n ∨ r < 3 * (1 - t)) ∧
    (rank ≤ 5 ↔ r ≤ 3 * (1 + t) ∨ r < (1 + t) * L3 n) := by
  intro rank r
  have hL1 := L3_gt_one hn
  have hL : 0 < L3 n := by linarith
  have hrank : rank = pick (srTests (exactEnv t) (fin u1) (fin u2) (fin n)) := sr_eq_pick _ _ _ _
  rw [sr_exact_tests ht hu1 hu2 hn] at hrank
  have hr0 : 0 ≤ r := by positivity
  have b0 : (1 + t) * u2 < u1 ↔ (1 + t) * r < 1 := by
    show _ ↔ (1 + t) * (u2 / u1) < 1
    rw [← mul_div_assoc, div_lt_one hu1]
  have b2 : r / L3 n < 1 ↔ r < L3 n := div_lt_one hL
  have b3 : |r / L3 n - 1| < t ↔ (1 - t) * L3 n < r ∧ r < (1 + t) * L3 n := by
    rw [abs_lt, ← lt_div_iff₀ hL, ← div_lt_iff₀ hL]
    constructor
    · rintro ⟨a, b⟩; constructor <;> linarith
    · rintro ⟨a, b⟩; constructor <;> linarith
  have b4 : |r / 3 - 1| ≤ t ↔ 3 * (1 - t) ≤ r ∧ r ≤ 3 * (1 + t) := by
    rw [abs_le]
    constructor
    · rintro ⟨a, b⟩; constructor <;> linarith
    · rintro ⟨a, b⟩; constructor <;> linarith
  have b5 : t < r / 3 - 1 ↔ 3 * (1 + t) < r := by
    constructor <;> intro h <;> linarith
  have b1 : |r - 1| ≤ t ↔ 1 - t ≤ r ∧ r ≤ 1 + t := by
    rw [abs_le]
    constructor
    · rintro ⟨a, b⟩; constructor <;> linarith
    · rintro ⟨a, b⟩; constructor <;> linarith
  change rank = pick [(1 + t) * u2 < u1, |r - 1| ≤ t, r / L3 n < 1, |r / L3 n - 1| < t,
       ¬ |r / 3 - 1| ≤ t ∧ ¬ t < r / 3 - 1, |r / 3 - 1| ≤ t] at hrank
  rw [b0, b1, b2, b3, b4, b5] at hrank
  have k0 : r < 1 - t → (1 + t) * r < 1 := by intro h; nlinarith
  have k1 : (1 + t) * r < 1 → r ≤ 1 + t := by intro h; nlinarith
  have k2 : (1 - t) * L3 n < L3 n := by nlinarith
  have k3 : L3 n < (1 + t) * L3 n := by nlinarith
  have k4 : (1:ℝ) + t ≤ 3 * (1 + t) := by linarith
  generalize L3 n = l at *
  simp only [pick] at hrank
  by_cases c0 : (1 + t) * r < 1
  · simp only [c0, if_true] at hrank
    have c1 := k1 c0
    have : r ≤ 3 * (1 + t) := by linarith
    simp [hrank, c0, c1, this]
  · by_cases c1 : 1 - t ≤ r ∧ r ≤ 1 + t
    · simp only [c0, c1, if_true, if_false] at hrank
      have : r ≤ 3 * (1 + t) := by linarith
      simp [hrank, c0, c1, this]
    · have c1' : ¬ r ≤ 1 + t := by
        intro h; apply c1; refine ⟨?_, h⟩; by_contra hh; exact c0 (k0 (by linarith))
      by_cases c2 : r < l
      · simp only [c0, c1, c2, if_true, if_false] at hrank
        have : r < (1 + t) * l := by linarith
        simp [hrank, c0, c1', c2, this]
      · by_cases c3 : r < (1 + t) * l
        · have : (1 - t) * l < r := by push Not at c2; linarith
          simp only [c0, c1, c2, c3, this, and_self, if_true, if_false] at hrank
          simp [hrank, c0, c1', c2, c3]
        · by_cases c4 : 3 * (1 - t) ≤ r
          · by_cases c5 : r ≤ 3 * (1 + t)
            · simp only [c0, c1, c2, c3, c4, c5, and_self, and_false, if_true, if_false, not_true_eq_false, false_and] at hrank
              simp [hrank, c0, c1', c2, c3, c4, c5]
            · have c6 : 3 * (1 + t) < r := by linarith
              simp only [c0, c1, c2, c3, c4, c5, c6, and_self, and_false, if_true, if_false, not_true_eq_false, not_false_eq_true] at hrank
              simp [hrank, c0, c1', c2, c3, c4, c5]
          · have c5 : ¬ 3 * (1 + t) < r := by push Not at c4 ⊢; nlinarith
            have c6 : r < 3 * (1 - t) := by linarith
            simp only [c0, c1, c2, c3, c4, c5, and_self, and_false, if_true, if_false, not_true_eq_false, not_false_eq_true, false_and] at hrank
            have : r ≤ 3 * (1 + t) := by linarith
            simp [hrank, c0, c1', c2, c3, c6, this]

end BigO
