import Verif.Proofs.RobustRegular

/-! # The set-resizing analysis computed with small relative errors -/
set_option linter.unusedSectionVars false
namespace BigO
open F

namespace Acc
variable {E : FloatEnv} {κ τ t : ℝ} (A : Acc E κ τ t)
include A

theorem gt_iff {a g : F} {q : ℝ} (hq : E.div a g = fin q) : E.tol < E.sub (E.div a g) (fin 1) ↔ (t : EReal) < subOne E q := by
  rw [hq, A.tol_eq, F.lt_def]
  have h1 : (E.sub (fin q) (fin 1)).isNum := (sub_one_isNum_iff A.laws).2 trivial
  simp only [isNum_fin, h1, true_and, toE_fin]
  rfl

theorem logIn_iff {a g : F} {q : ℝ} (hq : E.div a g = fin q) :
    srLogIn E a g ↔ ((-t : ℝ) : EReal) < subOne E q ∧ subOne E q < t := by
  unfold srLogIn
  rw [hq, A.tol_eq, abs_lt_iff' A.laws, sub_one_isNum_iff A.laws]
  simp only [isNum_fin, true_and]
  rfl

theorem subOne_one : subOne E 1 = 0 := by
  unfold subOne FloatEnv.rnd0; simp

variable {v1 v2 u1 u2 : ℝ} (hu1 : Near κ 2 v1 u1) (hu2 : Near κ 2 v2 u2) (m1 : Mag 64 u1) (m2 : Mag 64 u2)
include hu1 hu2 m1 m2

theorem logTriple_near {n : ℕ} (h : 2 ≤ n) (h' : n ≤ 2 ^ 32) :
    TierAt E κ (E.div (fin v2) (fin v1)) (logTriple E (fin n)) (u2 / u1 / L3 n) := by
  have p : (0:ℝ) < n := by exact_mod_cast (show 0 < n by omega)
  have e3 : E.mul (fin n) (fin 3) = fin ((n * 3 : ℕ) : ℝ) := by
    show E.mulFin (fin n) (fin 3) = _
    unfold FloatEnv.mulFin
    have hne : (n:ℝ) * 3 ≠ 0 := by positivity
    rw [if_neg (by exact hne)]
    have := A.laws.rnd_nat (n * 3) (by omega)
    rw [Nat.cast_mul] at this ⊢
    exact this
  obtain ⟨l1, e1, hl1⟩ := A.log_near n h (h'.trans (by norm_num))
  obtain ⟨l2, e2, hl2⟩ := A.log_near (n * 3) (by omega) (by omega)
  have k1 := mag_log h (h'.trans (by norm_num))
  have k2 := mag_log (n := n * 3) (by omega) (by omega)
  obtain ⟨x, hx, hxn⟩ := A.div_near hl2 hl1 (by norm_num) (by norm_num) k2 k1 (by norm_num)
  have hlt : logTriple E (fin n) = fin x := by
    unfold logTriple
    rw [e3, e1, e2, hx]
  rw [hlt]
  have := A.tier_ratio hu1 hu2 m1 m2 (hxn.mono A.κ1.le (by norm_num)) (k2.div k1) (by norm_num)
  unfold L3
  rw [Nat.cast_mul] at this
  exact this

theorem three_near : TierAt E κ (E.div (fin v2) (fin v1)) (fin 3) (u2 / u1 / 3) :=
  A.tier_ratio hu1 hu2 m1 m2 (g := 3) (G := 3) (b := 2) ((Near.refl (by norm_num)).mono A.κ1.le (by norm_num))
    (Mag.of_le (by norm_num) (by norm_num)) (by norm_num)

theorem inverse_near : ∃ q, E.div (fin v1) (fin v2) = fin q ∧ Near κ 11 q (u1 / u2) := by
  obtain ⟨q, hq, hn⟩ := A.ratio_near hu2 hu1 m2 m1
  exact ⟨q, hq, hn.mono A.κ1.le (by norm_num)⟩

variable {δ : ℝ} (hδ1 : κ ^ 16 ≤ 1 + δ) (hδ2 : κ ^ 16 * (1 - δ) ≤ 1)
include hδ1 hδ2

omit hu1 hu2 m1 m2 hδ1 hδ2 in
theorem low_gap : 1 - τ ≤ (1 - t * κ ^ 2) * κ ^ 2 := by
  have hk := A.κ1
  have h4 : κ ≤ 1001 / 1000 := by simpa using A.pow_le' (k := 1) (by norm_num)
  have ht : t ≤ τ * κ := by simpa using A.tol_near.2.2.1
  have hτ := A.τ_le
  have hτ0 := A.τ_ge
  have h1 : (1 - τ * κ * κ ^ 2) * κ ^ 2 ≤ (1 - t * κ ^ 2) * κ ^ 2 := by gcongr
  refine le_trans ?_ h1
  obtain ⟨e, rfl⟩ : ∃ e, κ = 1 + e := ⟨κ - 1, by ring⟩
  have e0 : 0 < e := by linarith
  have e1 : e ≤ 1 / 1000 := by linarith
  have hs : (1 + e) ^ 5 ≤ 1 + 6 * e := by
    have : e ^ 2 ≤ e / 1000 := by nlinarith
    have : e ^ 3 ≤ e / 1000 := by nlinarith [sq_nonneg e]
    have : e ^ 4 ≤ e / 1000 := by nlinarith [pow_pos e0 3]
    have : e ^ 5 ≤ e / 1000 := by nlinarith [pow_pos e0 4]
    nlinarith
  have : τ * (1 + e) ^ 5 ≤ τ * (1 + 6 * e) := by gcongr
  have : (1 - τ * (1 + e) * (1 + e) ^ 2) * (1 + e) ^ 2 = (1 + e) ^ 2 - τ * (1 + e) ^ 5 := by ring
  nlinarith

omit hu1 hu2 m1 m2 hδ1 hδ2 in
theorem low_gap' : 1 - t / κ ≤ (1 - τ) * κ ^ 2 := by
  have hk := A.κ1
  have hτ := A.τ_le
  have hτ0 := A.τ_ge
  have ht := A.near_div.2.2.1
  have hk2 : 0 < κ ^ 2 := pow_pos A.κpos 2
  have h4 : κ ^ 2 ≤ 1001 / 1000 := A.pow_le' (k := 2) (by norm_num)
  have h5 := A.one_le_pow 2
  have : τ / κ ^ 2 ≤ t / κ := by rw [div_le_iff₀ hk2]; exact ht
  have h6 : τ * (2 - κ ^ 2) ≤ τ / κ ^ 2 := by
    rw [le_div_iff₀ hk2]
    have : (2 - κ ^ 2) * κ ^ 2 ≤ 1 := by nlinarith
    calc τ * (2 - κ ^ 2) * κ ^ 2 = τ * ((2 - κ ^ 2) * κ ^ 2) := by ring
      _ ≤ τ * 1 := by gcongr
      _ = τ := mul_one _
  nlinarith

omit hu1 hu2 m1 m2 hδ1 hδ2 in
/-- the inverse ratio bounds the ratio from below -/
theorem lower_of_inverse {q q' x : ℝ} (hn : Near κ 11 q x) (hn' : Near κ 11 q' x⁻¹) (h : q' ≤ 1 + t * κ ^ 2) : 1 - t / κ ≤ q := by
  have hk := A.κ1
  have a1 : κ ^ 11 ≤ 1001 / 1000 := A.pow_le' (by norm_num)
  have a3 : κ ^ 3 ≤ 1001 / 1000 := A.pow_le' (by norm_num)
  have a2 : κ ^ 2 ≤ 1001 / 1000 := A.pow_le' (by norm_num)
  have b1 := hn.2.2.2
  have b2 := hn'.2.2.2
  have hτ := A.τ_le
  have hτ0 := A.τ_ge
  have hx := hn.2.1
  have c1 : 1 + t * κ ^ 2 ≤ (1 + τ) * κ ^ 3 := (Near.one_add hk.le A.near_mul).2.2.1
  have hq := hn.1
  have hk3 := pow_pos A.κpos 3
  have hk11 := pow_pos A.κpos 11
  have c2 : 1 ≤ (1 + τ) * κ ^ 3 * κ ^ 11 * x := by
    have : x⁻¹ ≤ (1 + τ) * κ ^ 3 * κ ^ 11 := b2.trans (by gcongr; exact h.trans c1)
    rwa [inv_le_iff_one_le_mul₀ hx] at this
  have c3 : 1 ≤ (1 + τ) * κ ^ 3 * κ ^ 11 * (q * κ ^ 11) := c2.trans (by gcongr)
  have c4 : 1 ≤ (1 + τ) * (1001 / 1000) * (1001 / 1000) * (q * (1001 / 1000)) := c3.trans (by gcongr)
  have ht : τ ≤ t / κ * κ ^ 2 := A.near_div.2.2.1
  have htk : 0 < t / κ := div_pos A.tpos A.κpos
  have : τ ≤ t / κ * (1001 / 1000) := ht.trans (by gcongr)
  by_contra hh
  push Not at hh
  have h7 : q < 1 - τ * (1000 / 1001) := by nlinarith
  nlinarith

theorem sr_up {n : ℕ} (h : 2 ≤ n) (h' : n ≤ 2 ^ 32) : Dom (srTests E (fin v1) (fin v2) (fin n))
    [(1 + τ) * (u2 * (1 + δ)) < u1, |u2 * (1 + δ) / u1 - 1| ≤ τ, u2 * (1 + δ) / u1 / L3 n < 1, |u2 * (1 + δ) / u1 / L3 n - 1| < τ,
       ¬ |u2 * (1 + δ) / u1 / 3 - 1| ≤ τ ∧ ¬ τ < u2 * (1 + δ) / u1 / 3 - 1, |u2 * (1 + δ) / u1 / 3 - 1| ≤ τ] := by
  have hp1 := m1.pos
  have hp2 := m2.pos
  have hk := pow_pos A.κpos
  obtain ⟨q', hq', hn'⟩ := A.inverse_near hu1 hu2 m1 m2
  obtain ⟨q0, hq0, hn0⟩ := A.tier_first' hu1 hu2 m1 m2
  rw [div_one] at hn0
  obtain ⟨ql, hql, hnl⟩ := A.logTriple_near hu1 hu2 m1 m2 h h'
  obtain ⟨q3, hq3, hn3⟩ := A.three_near hu1 hu2 m1 m2
  have e1 : u2 * (1 + δ) / u1 = u2 / u1 * (1 + δ) := by ring
  have e2 : u2 * (1 + δ) / u1 / L3 n = u2 / u1 / L3 n * (1 + δ) := by ring
  have e3 : u2 * (1 + δ) / u1 / 3 = u2 / u1 / 3 * (1 + δ) := by ring
  rw [e2, e3, e1]
  have up3 : ∀ h : |u2 / u1 / 3 * (1 + δ) - 1| ≤ τ, subOne E q3 ≤ t := fun h =>
    A.sub_le (A.up_le hδ1 hδ2 hq3 hn3 (by linarith [(abs_le.1 h).2]))
  unfold srTests
  refine ⟨fun hb => ?_, fun hb => ⟨fun hw => ?_, fun _ => ⟨fun hl => ?_, fun hl => ⟨fun hw => ?_, fun _ => ⟨fun hlow => ?_, fun hlow => ⟨fun hw => ?_, fun _ => trivial⟩⟩⟩⟩⟩⟩
  · unfold srBetter
    rw [A.gt_iff hq']
    apply A.sub_gt
    have c1 : 1 + t * κ ^ 2 ≤ (1 + τ) * κ ^ 3 := (Near.one_add A.κ1.le A.near_mul).2.2.1
    have c2 : (1 + τ) * (1 + δ) < u1 / u2 := by rw [lt_div_iff₀ hp2]; linarith
    have c3 := hn'.2.2.2
    have c4 : (1 + τ) * κ ^ 5 * κ ^ 11 < q' * κ ^ 11 := by
      calc (1 + τ) * κ ^ 5 * κ ^ 11 = (1 + τ) * κ ^ 16 := by ring
        _ ≤ (1 + τ) * (1 + δ) := by have := A.τ_ge; gcongr
        _ < u1 / u2 := c2
        _ ≤ _ := c3
    have c5 : (1 + τ) * κ ^ 5 < q' := lt_of_mul_lt_mul_right c4 (hk 11).le
    have c6 : κ ^ 3 ≤ κ ^ 5 := pow_le_pow_right₀ A.κ1.le (by norm_num)
    have c7 : (1 + τ) * κ ^ 3 ≤ (1 + τ) * κ ^ 5 := by have := A.τ_ge; gcongr
    linarith
  · rw [A.within_iff hq0]
    refine ⟨?_, A.sub_le (A.up_le hδ1 hδ2 hq0 hn0 (by linarith [(abs_le.1 hw).2]))⟩
    apply A.neg_le_sub
    unfold srBetter at hb
    rw [A.gt_iff hq'] at hb
    refine A.lower_of_inverse hn0 (q' := q') (by rw [inv_div]; exact hn') ?_
    by_contra hh
    exact hb (A.sub_gt (by linarith))
  · unfold srLog
    rw [hql, fin_lt_fin]
    exact (A.scale_up hδ1 hδ2 hnl (B := 1) (i := 0) (by simpa using hl.le) (by norm_num)).2 (by norm_num)
  · rw [A.logIn_iff hql]
    unfold srLog at hl
    rw [hql, fin_lt_fin] at hl
    refine ⟨?_, A.sub_lt (A.up_le2 hδ1 hδ2 hql hnl (by linarith [(abs_lt.1 hw).2]))⟩
    refine lt_of_lt_of_le ?_ (A.subOne_mono (show (1:ℝ) ≤ ql by linarith))
    rw [A.subOne_one]
    exact_mod_cast (by linarith [A.tpos] : -t < 0)
  · have hx : u2 / u1 / 3 * (1 + δ) < 1 - τ := by
      obtain ⟨a, b⟩ := hlow
      rw [abs_le] at a
      by_contra hh
      exact a ⟨by linarith, by linarith⟩
    have hs : subOne E q3 < ((-t : ℝ) : EReal) :=
      A.neg_lt_sub (A.scale_up hδ1 hδ2 hn3 (hx.le.trans A.low_gap) (by norm_num)).1
    rw [A.within_iff hq3]
    refine ⟨fun hh => absurd hs (not_lt.2 hh.1), ?_⟩
    unfold srAbove
    rw [A.gt_iff hq3]
    refine not_lt.2 (hs.le.trans ?_)
    exact_mod_cast (by linarith [A.tpos] : -t ≤ t)
  · by_contra hwn
    apply hlow
    refine ⟨hwn, ?_⟩
    unfold srAbove
    rw [A.gt_iff hq3]
    exact not_lt.2 (up3 hw)

theorem sr_down {n : ℕ} (h : 2 ≤ n) (h' : n ≤ 2 ^ 32) : Dom
    [(1 + τ) * (u2 * (1 - δ)) < u1, |u2 * (1 - δ) / u1 - 1| ≤ τ, u2 * (1 - δ) / u1 / L3 n < 1, |u2 * (1 - δ) / u1 / L3 n - 1| < τ,
       ¬ |u2 * (1 - δ) / u1 / 3 - 1| ≤ τ ∧ ¬ τ < u2 * (1 - δ) / u1 / 3 - 1, |u2 * (1 - δ) / u1 / 3 - 1| ≤ τ]
    (srTests E (fin v1) (fin v2) (fin n)) := by
  have hp1 := m1.pos
  have hp2 := m2.pos
  have hk := pow_pos A.κpos
  obtain ⟨q', hq', hn'⟩ := A.inverse_near hu1 hu2 m1 m2
  obtain ⟨q0, hq0, hn0⟩ := A.tier_first' hu1 hu2 m1 m2
  rw [div_one] at hn0
  obtain ⟨ql, hql, hnl⟩ := A.logTriple_near hu1 hu2 m1 m2 h h'
  obtain ⟨q3, hq3, hn3⟩ := A.three_near hu1 hu2 m1 m2
  have e1 : u2 * (1 - δ) / u1 = u2 / u1 * (1 - δ) := by ring
  have e2 : u2 * (1 - δ) / u1 / L3 n = u2 / u1 / L3 n * (1 - δ) := by ring
  have e3 : u2 * (1 - δ) / u1 / 3 = u2 / u1 / 3 * (1 - δ) := by ring
  have hτ := A.τ_le
  have hτ0 := A.τ_ge
  unfold srTests
  refine ⟨fun hb => ?_, fun hb => ⟨fun hw => ?_, fun _ => ⟨fun hl => ?_, fun hl => ⟨fun hw => ?_, fun _ => ⟨fun hlow => ?_, fun hlow => ⟨fun hw => ?_, fun _ => trivial⟩⟩⟩⟩⟩⟩
  · unfold srBetter at hb
    rw [A.gt_iff hq'] at hb
    by_contra hh
    push Not at hh
    refine absurd hb (not_lt.2 (A.sub_le ?_))
    have c1 : u1 / u2 ≤ (1 + τ) * (1 - δ) := by rw [div_le_iff₀ hp2]; linarith
    have c2 : u1 / u2 * κ ^ 16 ≤ 1 + τ := by
      calc u1 / u2 * κ ^ 16 ≤ (1 + τ) * (1 - δ) * κ ^ 16 := by have := hk 16; gcongr
        _ = (1 + τ) * (κ ^ 16 * (1 - δ)) := by ring
        _ ≤ (1 + τ) * 1 := by gcongr
        _ = _ := mul_one _
    have c3 : q' * κ ^ 5 ≤ 1 + τ := by
      calc q' * κ ^ 5 ≤ u1 / u2 * κ ^ 11 * κ ^ 5 := by have := hk 5; gcongr; exact hn'.2.2.1
        _ = u1 / u2 * κ ^ 16 := by ring
        _ ≤ _ := c2
    have c4 := A.one_add_le 2 A.near_div
    have c5 : κ ^ 2 ≤ κ ^ 5 := pow_le_pow_right₀ A.κ1.le (by norm_num)
    have c6 : q' * κ ^ 2 ≤ (1 + t / κ) * κ ^ 2 := by
      refine le_trans ?_ (c3.trans c4)
      have := hn'.1
      gcongr
    exact le_of_mul_le_mul_right c6 (hk 2)
  · rw [A.within_iff hq0] at hw
    have hup := A.le_of_sub_le hδ1 hδ2 hq0 hn0 hw.2
    push Not at hb
    have hlo : 1 ≤ (1 + τ) * (u2 * (1 - δ) / u1) := by
      rw [← mul_div_assoc, le_div_iff₀ hp1]; linarith
    rw [← e1] at hup
    rw [abs_le]
    constructor
    · nlinarith
    · linarith
  · unfold srLog at hl
    rw [hql, fin_lt_fin] at hl
    rw [e2]
    exact A.scale_down hδ1 hδ2 hnl one_pos (i := 0) (by simpa using hl.le) (by norm_num)
  · rw [A.logIn_iff hql] at hw
    have hup := A.le_of_sub_le hδ1 hδ2 hql hnl hw.2.le
    rw [← e2] at hup
    rw [abs_lt]
    constructor <;> linarith
  · obtain ⟨a, b⟩ := hlow
    rw [A.within_iff hq3] at a
    unfold srAbove at b
    rw [A.gt_iff hq3] at b
    push Not at b
    have hs : ¬ ((-t : ℝ) : EReal) ≤ subOne E q3 := fun hh => a ⟨hh, b⟩
    have hq3' : q3 ≤ 1 - t / κ := by
      by_contra hh
      exact hs (A.neg_le_sub (by linarith))
    have hx := A.scale_down hδ1 hδ2 hn3 (B := 1 - τ) (i := 2) (by linarith) (hq3'.trans A.low_gap') (by norm_num)
    rw [← e3] at hx
    refine ⟨fun hh => ?_, fun hh => ?_⟩
    · linarith [(abs_le.1 hh).1]
    · linarith
  · rw [A.within_iff hq3] at hw
    have hup := A.le_of_sub_le hδ1 hδ2 hq3 hn3 hw.2
    rw [← e3] at hup
    by_contra hn
    exact hlow ⟨hn, by linarith⟩

end Acc

theorem Acc.sr_sandwich {E : FloatEnv} {κ τ t : ℝ} (A : Acc E κ τ t) {δ : ℝ} (hδ1 : κ ^ 16 ≤ 1 + δ) (hδ2 : κ ^ 16 * (1 - δ) ≤ 1)
    (hδ3 : δ ≤ 1) {v1 v2 u1 u2 : ℝ} (hu1 : Near κ 2 v1 u1) (m1 : Mag 64 u1) (hu2 : NearUsage κ v2 u2) {n : ℕ}
    (h : 2 ≤ n) (h' : n ≤ 2 ^ 32) :
    (analyseSetResizing (exactEnv τ) (fin u1) (fin (u2 * (1 - δ))) (fin n)).asU32 ≤
      (analyseSetResizing E (fin v1) (fin v2) (fin n)).asU32 ∧
    (analyseSetResizing E (fin v1) (fin v2) (fin n)).asU32 ≤
      (analyseSetResizing (exactEnv τ) (fin u1) (fin (u2 * (1 + δ))) (fin n)).asU32 := by
  have hn : (2:ℝ) ≤ n := by exact_mod_cast h
  have hδ0 : 0 ≤ δ := by linarith [A.one_le_pow 16]
  have hp := m1.pos
  have hτ : 0 < τ := by linarith [A.τ_ge]
  rcases hu2 with ⟨hu2, m2⟩ | ⟨rfl, rfl⟩
  · have hp2 := m2.pos
    rw [sr_eq_pick, sr_eq_pick, sr_eq_pick, sr_exact_tests hτ hp (mul_nonneg hp2.le (by linarith)) hn,
      sr_exact_tests hτ hp (mul_nonneg hp2.le (by linarith)) hn]
    exact ⟨pick_mono (A.sr_down hu1 hu2 m1 m2 hδ1 hδ2 h h'), pick_mono (A.sr_up hu1 hu2 m1 m2 hδ1 hδ2 h h')⟩
  · have hz : ∀ (E : FloatEnv) (t v : ℝ), E.tol = fin t → 0 < v → (analyseSetResizing E (fin v) (fin 0) (fin n)).asU32 = 0 := by
      intro E t v ht hv
      have hd : E.div (fin v) (fin 0) = inf false := by
        simp [FloatEnv.div, FloatEnv.divFin, infS, Xor, not_lt.2 hv.le, hv.ne']
      have hs : E.sub (inf false) (fin 1) = inf false := rfl
      unfold analyseSetResizing
      rw [hd, hs, ht, if_pos (by simp [F.lt_def])]
      rfl
    rw [zero_mul, zero_mul, hz E t v1 A.tol_eq hu1.1, hz _ τ u1 rfl hp]
    simp

end BigO
