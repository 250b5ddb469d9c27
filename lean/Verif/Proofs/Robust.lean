import Verif.Proofs.Near
import Verif.Proofs.ExactMore
import Verif.Proofs.ExactLaws

/-! # Verdicts computed with small relative errors -/
set_option linter.unusedSectionVars false
namespace BigO
open F

/-- an arithmetic whose operations are off by at most the factor `κ`, with nominal tolerance `τ` and tolerance constant `t` -/
structure Acc (E : FloatEnv) (κ τ t : ℝ) : Prop where
  laws : FloatLaws E
  κ1 : 1 < κ
  κ2 : κ ^ 16 ≤ 1001 / 1000
  rnd_near : ∀ x, Mag 1000 x → ∃ y, E.rnd x = fin y ∧ Near κ 1 y x
  rnd_near_neg : ∀ x, Mag 1000 x → ∃ y, E.rnd (-x) = fin (-y) ∧ Near κ 1 y x
  log_near : ∀ n : ℕ, 2 ≤ n → n ≤ 2 ^ 34 → ∃ l, E.log2 (fin n) = fin l ∧ Near κ 1 l (Real.logb 2 n)
  powi_near : ∀ (x : ℝ) (k : ℕ), Mag 64 x → 2 ≤ k → k ≤ 4 → ∃ y, E.powi (fin x) k = fin y ∧ Near κ 1 y (x ^ k)
  tol_eq : E.tol = fin t
  tol_near : Near κ 1 t τ
  τ_ge : 1 / 10 ≤ τ
  τ_le : τ ≤ 1 / 4

namespace Acc
variable {E : FloatEnv} {κ τ t : ℝ} (A : Acc E κ τ t)
include A

theorem pow_le' {k : ℕ} (h : k ≤ 16) : κ ^ k ≤ 1001 / 1000 := (pow_le_pow_right₀ A.κ1.le h).trans A.κ2
theorem pow_le {k : ℕ} (h : k ≤ 16) : κ ^ k ≤ 5 / 4 := (A.pow_le' h).trans (by norm_num)
theorem κle : κ ≤ 5 / 4 := by simpa using A.pow_le (k := 1) (by norm_num)
theorem κpos : 0 < κ := by linarith [A.κ1]
theorem tpos : 0 < t := A.tol_near.1
theorem t_le : t ≤ 5 / 16 := by
  have := A.tol_near.2.2.1
  have h := A.κle
  have h2 := A.τ_le
  have h3 := A.τ_ge
  rw [pow_one] at this
  nlinarith
theorem t_ge : 2 / 25 ≤ t := by
  have h4 := A.tol_near.2.2.2
  have h := A.κle
  have h3 := A.τ_ge
  have := A.tpos
  rw [pow_one] at h4
  nlinarith

/-- the computed `q - 1` -/
noncomputable def _root_.BigO.subOne (E : FloatEnv) (q : ℝ) : EReal := (E.rnd0 (q - 1)).toE

theorem subOne_rnd (q : ℝ) : subOne E q = (E.rnd (q - 1)).toE := rnd0_toE A.laws _

theorem mag_tol {s : ℝ} (h1 : 1 / 16 ≤ s) (h2 : s ≤ 1) : Mag 1000 s := by
  refine Mag.mono (a := 4) ⟨by norm_num; linarith, by norm_num; linarith⟩ (by norm_num)

theorem t_div_κ : 1 / 16 ≤ t / κ := by
  rw [le_div_iff₀ A.κpos]; have := A.κle; have := A.t_ge; nlinarith
theorem t_mul_κ2 : t * κ ^ 2 ≤ 1 := by
  have := A.pow_le (k := 2) (by norm_num); have := A.t_le; have := A.tpos; nlinarith [pow_pos A.κpos 2]

theorem one_le_pow (k : ℕ) : 1 ≤ κ ^ k := one_le_pow₀ A.κ1.le

theorem sub_le {q : ℝ} (h : q ≤ 1 + t / κ) : subOne E q ≤ t := by
  obtain ⟨y, hy, hn⟩ := A.rnd_near (t / κ) (A.mag_tol A.t_div_κ (by
    rw [div_le_iff₀ A.κpos]; have := A.t_le; linarith [A.κ1]))
  have := A.laws.rnd_mono (q - 1) (t / κ) (by linarith)
  rw [hy, toE_fin] at this
  rw [A.subOne_rnd]
  refine this.trans ?_
  have h2 := hn.2.2.1
  rw [pow_one, div_mul_cancel₀ _ A.κpos.ne'] at h2
  exact_mod_cast h2

theorem sub_lt {q : ℝ} (h : q ≤ 1 + t / κ ^ 2) : subOne E q < t := by
  have hk2 : 0 < κ ^ 2 := pow_pos A.κpos 2
  have hge : 1 / 16 ≤ t / κ ^ 2 := by
    rw [le_div_iff₀ hk2]; have := A.pow_le (k := 2) (by norm_num); have := A.t_ge; nlinarith
  obtain ⟨y, hy, hn⟩ := A.rnd_near (t / κ ^ 2) (A.mag_tol hge (by
    rw [div_le_iff₀ hk2]; have := A.t_le; linarith [A.one_le_pow 2]))
  have := A.laws.rnd_mono (q - 1) (t / κ ^ 2) (by linarith)
  rw [hy, toE_fin] at this
  rw [A.subOne_rnd]
  refine this.trans_lt ?_
  have h2 := hn.2.2.1
  have e : t / κ ^ 2 * κ ^ 1 = t / κ := by field_simp [A.κpos.ne']
  rw [e] at h2
  have h3 : t / κ < t := div_lt_self A.tpos A.κ1
  exact_mod_cast h2.trans_lt h3

theorem sub_gt {q : ℝ} (h : 1 + t * κ ^ 2 < q) : t < subOne E q := by
  have hge : 1 / 16 ≤ t * κ ^ 2 := by have := A.one_le_pow 2; have := A.t_ge; nlinarith
  obtain ⟨y, hy, hn⟩ := A.rnd_near (t * κ ^ 2) (A.mag_tol hge A.t_mul_κ2)
  have := A.laws.rnd_mono (t * κ ^ 2) (q - 1) (by linarith)
  rw [hy, toE_fin] at this
  rw [A.subOne_rnd]
  refine lt_of_lt_of_le ?_ this
  have h2 := hn.2.2.2
  have h3 : t * κ ≤ y := by
    rw [pow_one, pow_two, ← mul_assoc] at h2
    exact le_of_mul_le_mul_right h2 A.κpos
  have h4 : t < t * κ := lt_mul_of_one_lt_right A.tpos A.κ1
  exact_mod_cast h4.trans_le h3

theorem neg_lt_sub {q : ℝ} (h : q ≤ 1 - t * κ ^ 2) : subOne E q < ((-t : ℝ) : EReal) := by
  have hge : 1 / 16 ≤ t * κ ^ 2 := by have := A.one_le_pow 2; have := A.t_ge; nlinarith
  obtain ⟨y, hy, hn⟩ := A.rnd_near_neg (t * κ ^ 2) (A.mag_tol hge A.t_mul_κ2)
  have := A.laws.rnd_mono (q - 1) (-(t * κ ^ 2)) (by linarith)
  rw [hy, toE_fin] at this
  rw [A.subOne_rnd]
  refine this.trans_lt ?_
  have h2 := hn.2.2.2
  have h3 : t * κ ≤ y := by
    rw [pow_one, pow_two, ← mul_assoc] at h2
    exact le_of_mul_le_mul_right h2 A.κpos
  have h4 : t < t * κ := lt_mul_of_one_lt_right A.tpos A.κ1
  exact_mod_cast (by linarith : -y < -t)

theorem neg_le_sub {q : ℝ} (h : 1 - t / κ ≤ q) : ((-t : ℝ) : EReal) ≤ subOne E q := by
  obtain ⟨y, hy, hn⟩ := A.rnd_near_neg (t / κ) (A.mag_tol A.t_div_κ (by
    rw [div_le_iff₀ A.κpos]; have := A.t_le; linarith [A.κ1]))
  have := A.laws.rnd_mono (-(t / κ)) (q - 1) (by linarith)
  rw [hy, toE_fin] at this
  rw [A.subOne_rnd]
  refine le_trans ?_ this
  have h2 := hn.2.2.1
  rw [pow_one, div_mul_cancel₀ _ A.κpos.ne'] at h2
  exact_mod_cast (by linarith : -t ≤ -y)

/-! ### the tests in terms of the computed quotient -/

theorem within_iff {a g : F} {q : ℝ} (hq : E.div a g = fin q) :
    within E a g ↔ ((-t : ℝ) : EReal) ≤ subOne E q ∧ subOne E q ≤ t := by
  unfold within
  rw [hq, A.tol_eq, abs_le_iff A.laws, sub_one_isNum_iff A.laws]
  simp only [isNum_fin, true_and]
  rfl

/-- the computed `1 - tol` -/
theorem oneMinus : ∃ c, oneMinusTol E = fin c ∧ Near κ 1 c (1 - t) ∧
    ((-t : ℝ) : EReal) ≤ subOne E c := by
  obtain ⟨t', c, d, ht, hc, -, t0, t1, c0, c1, -, hlow, -⟩ := A.laws.tol_consts
  have : t' = t := by rw [A.tol_eq] at ht; injection ht with h; exact h.symm
  subst this
  refine ⟨c, oneMinusTol_eq A.laws ht hc t1, ?_, by rw [A.subOne_rnd]; exact hlow⟩
  obtain ⟨y, hy, hn⟩ := A.rnd_near (1 - t') (A.mag_tol (by linarith [A.t_le]) (by linarith))
  rw [hc] at hy
  injection hy with h
  rw [h]; exact hn

theorem subOne_mono {q q' : ℝ} (h : q ≤ q') : subOne E q ≤ subOne E q' := rnd0_mono A.laws (by linarith)

variable {δ : ℝ} (hδ1 : κ ^ 16 ≤ 1 + δ) (hδ2 : κ ^ 16 * (1 - δ) ≤ 1)
include hδ1 hδ2

/-- chaining inequalities through powers of `κ` -/
theorem scale_up {q x B : ℝ} {i : ℕ} (hn : Near κ 11 q x) (h : x * (1 + δ) ≤ B * κ ^ i) (hi : i ≤ 5) : q ≤ B ∧ (i < 5 → q < B) := by
  obtain ⟨hq, hx, h1, -⟩ := hn
  have hk := pow_pos A.κpos
  have h2 : q * κ ^ 5 ≤ B * κ ^ i := by
    calc q * κ ^ 5 ≤ x * κ ^ 11 * κ ^ 5 := by have := hk 5; gcongr
      _ = x * κ ^ 16 := by ring
      _ ≤ x * (1 + δ) := by gcongr
      _ ≤ _ := h
  have h3 : κ ^ 5 = κ ^ i * κ ^ (5 - i) := by rw [← pow_add]; congr 1; omega
  rw [h3] at h2
  have h4 : q * κ ^ (5 - i) ≤ B := by
    have : q * κ ^ (5 - i) * κ ^ i ≤ B * κ ^ i := by linarith [h2, mul_assoc q (κ ^ (5 - i)) (κ ^ i), mul_comm (κ ^ i) (κ ^ (5 - i)), mul_assoc q (κ ^ i) (κ ^ (5 - i))]
    exact le_of_mul_le_mul_right this (hk i)
  refine ⟨le_trans (le_mul_of_one_le_right hq.le (A.one_le_pow _)) h4, fun hlt => ?_⟩
  have : 1 < κ ^ (5 - i) := one_lt_pow₀ A.κ1 (by omega)
  exact lt_of_lt_of_le (lt_mul_of_one_lt_right hq this) h4

theorem scale_down {q x B : ℝ} {i : ℕ} (hn : Near κ 11 q x) (hB : 0 < B) (h : q ≤ B * κ ^ i) (hi : i < 5) : x * (1 - δ) < B := by
  obtain ⟨hq, hx, -, h1⟩ := hn
  have hk := pow_pos A.κpos
  have h2 : x ≤ B * κ ^ (i + 11) := by
    calc x ≤ q * κ ^ 11 := h1
      _ ≤ B * κ ^ i * κ ^ 11 := by have := hk 11; gcongr
      _ = _ := by ring
  have h3 : κ ^ (i + 11) < κ ^ 16 := pow_lt_pow_right₀ A.κ1 (by omega)
  have h4 : x < B * κ ^ 16 := lt_of_le_of_lt h2 (by gcongr)
  rcases le_or_gt (1 - δ) 0 with h5 | h5
  · exact lt_of_le_of_lt (mul_nonpos_of_nonneg_of_nonpos hx.le h5) hB
  · calc x * (1 - δ) < B * κ ^ 16 * (1 - δ) := by gcongr
      _ = B * (κ ^ 16 * (1 - δ)) := by ring
      _ ≤ B * 1 := by gcongr
      _ = B := mul_one B

omit hδ1 hδ2 in
theorem one_add_le {B : ℝ} (i : ℕ) (h : Near κ i τ B) : 1 + τ ≤ (1 + B) * κ ^ i := (Near.one_add A.κ1.le h).2.2.1

omit hδ1 hδ2 in
theorem near_div : Near κ 2 τ (t / κ) := by
  obtain ⟨h1, h2, h3, h4⟩ := A.tol_near
  rw [pow_one] at h3 h4
  refine ⟨h2, div_pos h1 A.κpos, ?_, ?_⟩
  · rw [div_mul_eq_mul_div, le_div_iff₀ A.κpos, pow_two, ← mul_assoc]
    exact mul_le_mul_of_nonneg_right h4 A.κpos.le
  · refine le_trans (div_le_self h1.le A.κ1.le) (h3.trans ?_)
    rw [pow_two, ← mul_assoc]
    exact le_mul_of_one_le_right (mul_pos h2 A.κpos).le A.κ1.le

omit hδ1 hδ2 in
theorem near_div2 : Near κ 3 τ (t / κ ^ 2) := by
  have h := A.tol_near.symm.div A.κ1.le (c := 1) (d := κ ^ 2) (k := 2)
    ⟨one_pos, pow_pos A.κpos 2, by nlinarith [A.one_le_pow 2], by simp⟩
  simpa using h

omit hδ1 hδ2 in
theorem near_mul : Near κ 3 (t * κ ^ 2) τ := by
  have h := A.tol_near.mul A.κ1.le (c := κ ^ 2) (d := 1) (k := 2)
    ⟨pow_pos A.κpos 2, one_pos, by simp, by nlinarith [A.one_le_pow 2]⟩
  simpa using h

section tier
variable {a g : F} {q x : ℝ} (hq : E.div a g = fin q) (hn : Near κ 11 q x)
include hq hn

theorem up_le (h : x * (1 + δ) ≤ 1 + τ) : q ≤ 1 + t / κ :=
  (A.scale_up hδ1 hδ2 hn (i := 2) (h.trans (A.one_add_le 2 A.near_div)) (by norm_num)).1

theorem up_le2 (h : x * (1 + δ) ≤ 1 + τ) : q ≤ 1 + t / κ ^ 2 :=
  (A.scale_up hδ1 hδ2 hn (i := 3) (h.trans (A.one_add_le 3 A.near_div2)) (by norm_num)).1

theorem down_lt (h : q ≤ 1 + t * κ ^ 2) : x * (1 - δ) < 1 + τ :=
  A.scale_down hδ1 hδ2 hn (by linarith [A.τ_ge]) (h.trans (Near.one_add A.κ1.le A.near_mul).2.2.1) (by norm_num)

theorem below_of (h : x * (1 + δ) < 1 - τ) : below E a g := by
  obtain ⟨c, hc, hcn, -⟩ := A.oneMinus
  have h1 := Near.one_sub A.κ1.le A.κle A.tol_near (by linarith [A.t_le]) (by linarith [A.τ_le])
  have h2 := (h1.symm.trans A.κ1.le hcn.symm).2.2.1
  unfold below
  rw [hq, hc, fin_lt_fin]
  exact (A.scale_up hδ1 hδ2 hn (h.le.trans h2) (by norm_num)).2 (by norm_num)

theorem of_below (h : below E a g) : x * (1 - δ) < 1 - τ := by
  obtain ⟨c, hc, hcn, -⟩ := A.oneMinus
  have h1 := Near.one_sub A.κ1.le A.κle A.tol_near (by linarith [A.t_le]) (by linarith [A.τ_le])
  have h2 := (hcn.trans A.κ1.le h1).2.2.1
  unfold below at h
  rw [hq, hc, fin_lt_fin] at h
  exact A.scale_down hδ1 hδ2 hn (by linarith [A.τ_le]) (h.le.trans h2) (by norm_num)

theorem within_of (h : |x * (1 + δ) - 1| ≤ τ) (hb : ¬ below E a g) : within E a g := by
  rw [A.within_iff hq]
  obtain ⟨c, hc, hcn, hlow⟩ := A.oneMinus
  refine ⟨?_, A.sub_le (A.up_le hδ1 hδ2 hq hn (by linarith [(abs_le.1 h).2]))⟩
  unfold below at hb
  rw [hq, hc, fin_lt_fin] at hb
  exact hlow.trans (A.subOne_mono (by linarith))

theorem le_of_sub_le (h : subOne E q ≤ t) : x * (1 - δ) < 1 + τ := by
  apply A.down_lt hδ1 hδ2 hq hn
  by_contra hh
  exact absurd (A.sub_gt (by linarith)) (not_lt.2 h)

theorem of_within (h : within E a g) (hb : ¬ x * (1 - δ) < 1 - τ) : |x * (1 - δ) - 1| ≤ τ := by
  rw [A.within_iff hq] at h
  have := A.le_of_sub_le hδ1 hδ2 hq hn h.2
  rw [abs_le]
  constructor <;> linarith

end tier

/-- the tests of one tier -/
def _root_.BigO.TierAt (E : FloatEnv) (κ : ℝ) (a g : F) (x : ℝ) : Prop := ∃ q, E.div a g = fin q ∧ Near κ 11 q x

theorem dom_up {a g : F} {r G : ℝ} (hT : TierAt E κ a g (r / G)) {ps qs : List Prop} (h : Dom ps qs) :
    Dom (below E a g :: within E a g :: ps) ((r * (1 + δ) / G < 1 - τ) :: (|r * (1 + δ) / G - 1| ≤ τ) :: qs) := by
  obtain ⟨q, hq, hn⟩ := hT
  have e : r * (1 + δ) / G = r / G * (1 + δ) := by ring
  rw [e]
  exact ⟨A.below_of hδ1 hδ2 hq hn, fun hb => ⟨fun h => A.within_of hδ1 hδ2 hq hn h hb, fun _ => h⟩⟩

theorem dom_down {a g : F} {r G : ℝ} (hT : TierAt E κ a g (r / G)) {ps qs : List Prop} (h : Dom qs ps) :
    Dom ((r * (1 - δ) / G < 1 - τ) :: (|r * (1 - δ) / G - 1| ≤ τ) :: qs) (below E a g :: within E a g :: ps) := by
  obtain ⟨q, hq, hn⟩ := hT
  have e : r * (1 - δ) / G = r / G * (1 - δ) := by ring
  rw [e]
  exact ⟨A.of_below hδ1 hδ2 hq hn, fun hb => ⟨fun h => A.of_within hδ1 hδ2 hq hn h hb, fun _ => h⟩⟩

end Acc
end BigO
