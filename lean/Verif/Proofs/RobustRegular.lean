import Verif.Proofs.Robust

/-! # The regular analysis computed with small relative errors -/
set_option linter.unusedSectionVars false
namespace BigO
open F

theorem pick_append {ps rest : List Prop} {k : ℕ} (hk : k < ps.length) : pick (ps ++ rest) ≤ k ↔ pick ps ≤ k := by
  induction ps generalizing k with
  | nil => simp at hk
  | cons p ps ih =>
    rw [List.cons_append]
    unfold pick
    by_cases hp : p
    · simp [hp]
    · simp only [hp, if_false]
      cases k with
      | zero => simp
      | succ k =>
        have := ih (k := k) (by simpa using hk)
        omega

theorem tiers_append (t r : ℝ) : ∀ (gs : List ℝ) (rest : List Prop), tiers t r gs rest = tiers t r gs [] ++ rest
  | [], _ => rfl
  | g :: gs, rest => by simp only [tiers, List.cons_append]; rw [tiers_append t r gs rest]

theorem tiers_length (t r : ℝ) : ∀ (gs : List ℝ), (tiers t r gs []).length = 2 * gs.length
  | [] => rfl
  | g :: gs => by simp only [tiers, List.length_cons]; rw [tiers_length t r gs]; ring

/-- the tests of the polynomial tiers -/
noncomputable def polyTests (E : FloatEnv) (u1 u2 n1 n2 : F) : List Prop :=
  let r := E.div u2 u1
  [below E u2 u1, within E u2 u1,
   below E r (E.div (E.log2 n2) (E.log2 n1)), within E r (E.div (E.log2 n2) (E.log2 n1)),
   below E r (E.div n2 n1), within E r (E.div n2 n1),
   below E r (E.div (E.mul n2 (E.log2 n2)) (E.mul n1 (E.log2 n1))),
   within E r (E.div (E.mul n2 (E.log2 n2)) (E.mul n1 (E.log2 n1))),
   below E r (E.powi (E.div n2 n1) 2), within E r (E.powi (E.div n2 n1) 2),
   below E r (E.powi (E.div n2 n1) 3), within E r (E.powi (E.div n2 n1) 3),
   below E r (E.powi (E.div n2 n1) 4), within E r (E.powi (E.div n2 n1) 4)]

theorem tests_poly (E : FloatEnv) (u1 u2 n1 n2 : F) :
    tests E u1 u2 n1 n2 = polyTests E u1 u2 n1 n2 ++ [below E u2 (E.powf u1 (E.div n2 n1)), within E u2 (E.powf u1 (E.div n2 n1))] := rfl

namespace Acc
variable {E : FloatEnv} {κ τ t : ℝ} (A : Acc E κ τ t)
include A

/-- a computed quotient -/
theorem div_near {v w x y : ℝ} {i j a b : ℕ} (hv : Near κ i v x) (hw : Near κ j w y) (hi : i ≤ 16) (hj : j ≤ 16)
    (mx : Mag a x) (my : Mag b y) (hab : a + b + 2 ≤ 1000) :
    ∃ q, E.div (fin v) (fin w) = fin q ∧ Near κ (1 + (i + j)) q (x / y) := by
  have m1 := mx.near hv ((A.pow_le hi).trans (by norm_num))
  have m2 := my.near hw ((A.pow_le hj).trans (by norm_num))
  obtain ⟨q, hq, hn⟩ := A.rnd_near (v / w) ((m1.div m2).mono (by omega))
  refine ⟨q, ?_, hn.trans A.κ1.le (hv.div A.κ1.le hw)⟩
  rw [div_fin_fin_pos hv.1 hw.1.ne', hq]

theorem mul_near {v w x y : ℝ} {i j a b : ℕ} (hv : Near κ i v x) (hw : Near κ j w y) (hi : i ≤ 16) (hj : j ≤ 16)
    (mx : Mag a x) (my : Mag b y) (hab : a + b + 2 ≤ 1000) :
    ∃ q, E.mul (fin v) (fin w) = fin q ∧ Near κ (1 + (i + j)) q (x * y) := by
  have m1 := mx.near hv ((A.pow_le hi).trans (by norm_num))
  have m2 := my.near hw ((A.pow_le hj).trans (by norm_num))
  obtain ⟨q, hq, hn⟩ := A.rnd_near (v * w) ((m1.mul m2).mono (by omega))
  refine ⟨q, ?_, hn.trans A.κ1.le (hv.mul A.κ1.le hw)⟩
  show E.mulFin (fin v) (fin w) = fin q
  have h1 : v * w ≠ 0 := (mul_pos hv.1 hw.1).ne'
  unfold FloatEnv.mulFin
  rw [if_neg (by exact h1)]
  exact hq

omit A in
theorem mag_nat {n : ℕ} (h1 : 1 ≤ n) {a : ℕ} (h2 : n ≤ 2 ^ a) : Mag a (n : ℝ) :=
  Mag.of_le (by exact_mod_cast h1) (by exact_mod_cast h2)

omit A in
theorem mag_log {n : ℕ} (h1 : 2 ≤ n) (h2 : n ≤ 2 ^ 34) : Mag 6 (Real.logb 2 n) := by
  have h1' : (2:ℝ) ≤ n := by exact_mod_cast h1
  have h2' : (n:ℝ) ≤ 2 ^ (34:ℝ) := by
    rw [show (34:ℝ) = ((34:ℕ):ℝ) by norm_num, Real.rpow_natCast]; exact_mod_cast h2
  have a : 1 ≤ Real.logb 2 n := by
    rw [Real.le_logb_iff_rpow_le (by norm_num) (by linarith)]; simpa using h1'
  have b : Real.logb 2 n ≤ 34 := by
    rw [Real.logb_le_iff_le_rpow (by norm_num) (by linarith)]; exact h2'
  exact Mag.of_le a (by norm_num; linarith)

variable {v1 v2 u1 u2 : ℝ} (hu1 : Near κ 2 v1 u1) (hu2 : Near κ 2 v2 u2) (m1 : Mag 64 u1) (m2 : Mag 64 u2)
include hu1 hu2 m1 m2

theorem ratio_near : ∃ ρ, E.div (fin v2) (fin v1) = fin ρ ∧ Near κ 5 ρ (u2 / u1) :=
  A.div_near hu2 hu1 (by norm_num) (by norm_num) m2 m1 (by norm_num)

theorem tier_ratio {g G : ℝ} {b : ℕ} (hg : Near κ 5 g G) (mg : Mag b G) (hb : b ≤ 300) :
    TierAt E κ (E.div (fin v2) (fin v1)) (fin g) (u2 / u1 / G) := by
  obtain ⟨ρ, hρ, hn⟩ := A.ratio_near hu1 hu2 m1 m2
  rw [hρ]
  obtain ⟨q, hq, hqn⟩ := A.div_near hn hg (by norm_num) (by norm_num) (m2.div m1) mg (by omega)
  exact ⟨q, hq, hqn⟩

theorem tier_first' : TierAt E κ (fin v2) (fin v1) (u2 / u1 / 1) := by
  obtain ⟨ρ, hρ, hn⟩ := A.ratio_near hu1 hu2 m1 m2
  rw [div_one]
  exact ⟨ρ, hρ, hn.mono A.κ1.le (by norm_num)⟩

variable {n1 n2 : ℕ} (h1 : 2 ≤ n1) (h1' : n1 ≤ 2 ^ 32) (h2 : 2 ≤ n2) (h2' : n2 ≤ 2 ^ 32)
include h1 h1' h2 h2'

theorem tier_powi (k : ℕ) (hk : 2 ≤ k) (hk' : k ≤ 4) :
    TierAt E κ (E.div (fin v2) (fin v1)) (E.powi (E.div (fin n2) (fin n1)) k) (u2 / u1 / ((n2:ℝ) / n1) ^ k) := by
  have p1 : (0:ℝ) < n1 := by exact_mod_cast (show 0 < n1 by omega)
  have p2 : (0:ℝ) < n2 := by exact_mod_cast (show 0 < n2 by omega)
  have mq := (mag_nat (show 1 ≤ n2 by omega) h2').div (mag_nat (show 1 ≤ n1 by omega) h1')
  obtain ⟨x, hx, hxn⟩ := A.rnd_near ((n2:ℝ) / n1) (mq.mono (by norm_num))
  have hx' : E.div (fin n2) (fin n1) = fin x := by rw [div_fin_fin_pos p2 p1.ne', hx]
  -- a little slack: `x` may exceed 2^64 only if `n2 / n1` is 2^64, which it is not
  have mq' : Mag 62 ((n2:ℝ) / n1) := by
    have a1 : (1:ℝ) ≤ n1 := by exact_mod_cast (show 1 ≤ n1 by omega)
    have a2 : (1:ℝ) ≤ n2 := by exact_mod_cast (show 1 ≤ n2 by omega)
    have b1 : (n1:ℝ) ≤ 2 ^ 32 := by exact_mod_cast h1'
    have b2 : (n2:ℝ) ≤ 2 ^ 32 := by exact_mod_cast h2'
    constructor
    · rw [div_mul_eq_mul_div, le_div_iff₀ p1]; nlinarith
    · rw [div_le_iff₀ p1]; nlinarith
  obtain ⟨y, hy, hyn⟩ := A.powi_near x k ((mq'.near hxn ((A.pow_le (by norm_num)).trans (by norm_num))).mono (by norm_num)) hk hk'
  rw [hx', hy]
  have := (hyn.trans A.κ1.le (hxn.pow A.κ1.le k)).mono A.κ1.le (k := 5) (by omega)
  exact A.tier_ratio hu1 hu2 m1 m2 this ((mq'.pow k).mono (b := 248) (by omega)) (by norm_num)

theorem tier_lin : TierAt E κ (E.div (fin v2) (fin v1)) (E.div (fin n2) (fin n1)) (u2 / u1 / ((n2:ℝ) / n1)) := by
  have p1 : (0:ℝ) < n1 := by exact_mod_cast (show 0 < n1 by omega)
  have p2 : (0:ℝ) < n2 := by exact_mod_cast (show 0 < n2 by omega)
  have mq := (mag_nat (show 1 ≤ n2 by omega) h2').div (mag_nat (show 1 ≤ n1 by omega) h1')
  obtain ⟨x, hx, hxn⟩ := A.rnd_near ((n2:ℝ) / n1) (mq.mono (by norm_num))
  have hx' : E.div (fin n2) (fin n1) = fin x := by rw [div_fin_fin_pos p2 p1.ne', hx]
  rw [hx']
  exact A.tier_ratio hu1 hu2 m1 m2 (hxn.mono A.κ1.le (by norm_num)) mq (by norm_num)

theorem tier_log : TierAt E κ (E.div (fin v2) (fin v1)) (E.div (E.log2 (fin n2)) (E.log2 (fin n1)))
    (u2 / u1 / (Real.logb 2 n2 / Real.logb 2 n1)) := by
  obtain ⟨l1, e1, hl1⟩ := A.log_near n1 h1 (h1'.trans (by norm_num))
  obtain ⟨l2, e2, hl2⟩ := A.log_near n2 h2 (h2'.trans (by norm_num))
  have k1 := mag_log h1 (h1'.trans (by norm_num))
  have k2 := mag_log h2 (h2'.trans (by norm_num))
  rw [e1, e2]
  obtain ⟨x, hx, hxn⟩ := A.div_near hl2 hl1 (by norm_num) (by norm_num) k2 k1 (by norm_num)
  rw [hx]
  exact A.tier_ratio hu1 hu2 m1 m2 (hxn.mono A.κ1.le (by norm_num)) (k2.div k1) (by norm_num)

theorem tier_nlog : TierAt E κ (E.div (fin v2) (fin v1))
    (E.div (E.mul (fin n2) (E.log2 (fin n2))) (E.mul (fin n1) (E.log2 (fin n1))))
    (u2 / u1 / ((n2 * Real.logb 2 n2) / (n1 * Real.logb 2 n1))) := by
  have p1 : (0:ℝ) < n1 := by exact_mod_cast (show 0 < n1 by omega)
  have p2 : (0:ℝ) < n2 := by exact_mod_cast (show 0 < n2 by omega)
  obtain ⟨l1, e1, hl1⟩ := A.log_near n1 h1 (h1'.trans (by norm_num))
  obtain ⟨l2, e2, hl2⟩ := A.log_near n2 h2 (h2'.trans (by norm_num))
  have k1 := mag_log h1 (h1'.trans (by norm_num))
  have k2 := mag_log h2 (h2'.trans (by norm_num))
  have q1 := mag_nat (show 1 ≤ n1 by omega) h1'
  have q2 := mag_nat (show 1 ≤ n2 by omega) h2'
  rw [e1, e2]
  obtain ⟨x1, hx1, hxn1⟩ := A.mul_near (Near.refl p1) hl1 (by norm_num) (by norm_num) q1 k1 (by norm_num)
  obtain ⟨x2, hx2, hxn2⟩ := A.mul_near (Near.refl p2) hl2 (by norm_num) (by norm_num) q2 k2 (by norm_num)
  rw [hx1, hx2]
  obtain ⟨x, hx, hxn⟩ := A.div_near hxn2 hxn1 (by norm_num) (by norm_num) (q2.mul k2) (q1.mul k1) (by norm_num)
  rw [hx]
  exact A.tier_ratio hu1 hu2 m1 m2 (hxn.mono A.κ1.le (by norm_num)) ((q2.mul k2).div (q1.mul k1)) (by norm_num)

variable {δ : ℝ} (hδ1 : κ ^ 16 ≤ 1 + δ) (hδ2 : κ ^ 16 * (1 - δ) ≤ 1)
include hδ1 hδ2

theorem poly_up : Dom (polyTests E (fin v1) (fin v2) (fin n1) (fin n2)) (tiers τ (u2 / u1 * (1 + δ)) (ratios n1 n2) []) := by
  unfold polyTests ratios
  refine A.dom_up hδ1 hδ2 (A.tier_first' hu1 hu2 m1 m2) ?_
  refine A.dom_up hδ1 hδ2 (A.tier_log hu1 hu2 m1 m2 h1 h1' h2 h2') ?_
  refine A.dom_up hδ1 hδ2 (A.tier_lin hu1 hu2 m1 m2 h1 h1' h2 h2') ?_
  refine A.dom_up hδ1 hδ2 (A.tier_nlog hu1 hu2 m1 m2 h1 h1' h2 h2') ?_
  refine A.dom_up hδ1 hδ2 (A.tier_powi hu1 hu2 m1 m2 h1 h1' h2 h2' 2 (by norm_num) (by norm_num)) ?_
  refine A.dom_up hδ1 hδ2 (A.tier_powi hu1 hu2 m1 m2 h1 h1' h2 h2' 3 (by norm_num) (by norm_num)) ?_
  exact A.dom_up hδ1 hδ2 (A.tier_powi hu1 hu2 m1 m2 h1 h1' h2 h2' 4 (by norm_num) (by norm_num)) trivial

theorem poly_down : Dom (tiers τ (u2 / u1 * (1 - δ)) (ratios n1 n2) []) (polyTests E (fin v1) (fin v2) (fin n1) (fin n2)) := by
  unfold polyTests ratios
  refine A.dom_down hδ1 hδ2 (A.tier_first' hu1 hu2 m1 m2) ?_
  refine A.dom_down hδ1 hδ2 (A.tier_log hu1 hu2 m1 m2 h1 h1' h2 h2') ?_
  refine A.dom_down hδ1 hδ2 (A.tier_lin hu1 hu2 m1 m2 h1 h1' h2 h2') ?_
  refine A.dom_down hδ1 hδ2 (A.tier_nlog hu1 hu2 m1 m2 h1 h1' h2 h2') ?_
  refine A.dom_down hδ1 hδ2 (A.tier_powi hu1 hu2 m1 m2 h1 h1' h2 h2' 2 (by norm_num) (by norm_num)) ?_
  refine A.dom_down hδ1 hδ2 (A.tier_powi hu1 hu2 m1 m2 h1 h1' h2 h2' 3 (by norm_num) (by norm_num)) ?_
  exact A.dom_down hδ1 hδ2 (A.tier_powi hu1 hu2 m1 m2 h1 h1' h2 h2' 4 (by norm_num) (by norm_num)) trivial

end Acc

/-- rank of the exact verdict, up to `O(n⁴)` -/
theorem exact_rank_poly {t u1 u2 n1 n2 : ℝ} (hu1 : 0 < u1) (hu2 : 0 ≤ u2) (h1 : 2 ≤ n1) (h2 : 2 ≤ n2) {k : ℕ} (hk : k < 14) :
    (analyseComplexity (exactEnv t) (fin u1) (fin u2) (fin n1) (fin n2)).asU32 ≤ k ↔
      pick (tiers t (u2 / u1) (ratios n1 n2) []) ≤ k := by
  rw [exact_rank hu1 hu2 h1 h2, tiers_append, pick_append]
  rw [tiers_length]; simpa [ratios] using hk

theorem rank_poly (E : FloatEnv) (u1 u2 n1 n2 : F) {k : ℕ} (hk : k < 14) :
    (analyseComplexity E u1 u2 n1 n2).asU32 ≤ k ↔ pick (polyTests E u1 u2 n1 n2) ≤ k := by
  rw [analyse_eq_pick, tests_poly, pick_append]
  simpa [polyTests] using hk

/-- a computed usage: close to the true one, or both zero -/
def NearUsage (κ : ℝ) (v u : ℝ) : Prop := (Near κ 2 v u ∧ Mag 64 u) ∨ (v = 0 ∧ u = 0)

theorem Acc.sandwich {E : FloatEnv} {κ τ t : ℝ} (A : Acc E κ τ t) {δ : ℝ} (hδ1 : κ ^ 16 ≤ 1 + δ) (hδ2 : κ ^ 16 * (1 - δ) ≤ 1)
    (hδ3 : δ ≤ 1) {v1 v2 u1 u2 : ℝ} (hu1 : Near κ 2 v1 u1) (m1 : Mag 64 u1) (hu2 : NearUsage κ v2 u2) {n1 n2 : ℕ}
    (h1 : 2 ≤ n1) (h1' : n1 ≤ 2 ^ 32) (h2 : 2 ≤ n2) (h2' : n2 ≤ 2 ^ 32) {k : ℕ} (hk : k < 14) :
    ((analyseComplexity (exactEnv τ) (fin u1) (fin (u2 * (1 + δ))) (fin n1) (fin n2)).asU32 ≤ k →
      (analyseComplexity E (fin v1) (fin v2) (fin n1) (fin n2)).asU32 ≤ k) ∧
    ((analyseComplexity E (fin v1) (fin v2) (fin n1) (fin n2)).asU32 ≤ k →
      (analyseComplexity (exactEnv τ) (fin u1) (fin (u2 * (1 - δ))) (fin n1) (fin n2)).asU32 ≤ k) := by
  have hn1 : (2:ℝ) ≤ n1 := by exact_mod_cast h1
  have hn2 : (2:ℝ) ≤ n2 := by exact_mod_cast h2
  have hδ0 : 0 ≤ δ := by linarith [A.one_le_pow 16]
  have hp := m1.pos
  rcases hu2 with ⟨hu2, m2⟩ | ⟨rfl, rfl⟩
  · have hp2 := m2.pos
    rw [exact_rank_poly hp (mul_nonneg hp2.le (by linarith)) hn1 hn2 hk,
      exact_rank_poly hp (mul_nonneg hp2.le (by linarith)) hn1 hn2 hk, rank_poly _ _ _ _ _ hk,
      show u2 * (1 + δ) / u1 = u2 / u1 * (1 + δ) by ring, show u2 * (1 - δ) / u1 = u2 / u1 * (1 - δ) by ring]
    exact ⟨(pick_mono (A.poly_up hu1 hu2 m1 m2 h1 h1' h2 h2' hδ1 hδ2)).trans,
      (pick_mono (A.poly_down hu1 hu2 m1 m2 h1 h1' h2 h2' hδ1 hδ2)).trans⟩
  · have hz : ∀ (E : FloatEnv) (L : FloatLaws E) (v : ℝ), 0 < v →
        (analyseComplexity E (fin v) (fin 0) (fin n1) (fin n2)).asU32 = 0 := by
      intro E L v hv
      rw [analyse_eq_pick]
      unfold tests pick
      simp [zero_below L (u1 := fin v) (by simpa using hv) (Or.inl rfl)]
    rw [zero_mul, zero_mul, hz E A.laws v1 hu1.1, hz _ (exact_laws (by linarith [A.τ_ge]) (by linarith [A.τ_le])) u1 hp]
    simp

end BigO
