import Verif.Proofs.Shipped
import Mathlib.Analysis.Convex.SpecificFunctions.Basic

/-! # The exponential tier of the shipped arithmetic -/
set_option linter.unusedSectionVars false
namespace BigO
open F

theorem Dom.append : ∀ {ps qs ps' qs' : List Prop}, Dom ps qs → Dom ps' qs' → Dom (ps ++ ps') (qs ++ qs')
  | [], [], _, _, _, h => h
  | _ :: _, _ :: _, _, _, h, h' => ⟨h.1, fun hp => (h.2 hp).append h'⟩
  | [], _ :: _, _, _, h, _ => h.elim
  | _ :: _, [], _, _, h, _ => h.elim

/-- accuracy of the conversions: two roundings of binary64 -/
noncomputable def kappa52 : ℝ := 1 + 1 / 2 ^ 52

theorem kappa52_pos : 0 < kappa52 := by unfold kappa52; norm_num
theorem kappa52_one : 1 < kappa52 := by unfold kappa52; norm_num
theorem kappa_pos : 0 < kappa := by unfold kappa; norm_num
theorem kappa_one : 1 ≤ kappa := by unfold kappa; norm_num

theorem two_rpow_le {z : ℝ} (h0 : 0 ≤ z) (h1 : z ≤ 1) : (2:ℝ) ^ z ≤ 1 + z := by
  have h := rpow_one_add_le_one_add_mul_self (s := 1) (p := z) (by norm_num) h0 h1
  rwa [show (1:ℝ) + 1 = 2 by norm_num, mul_one] at h

/-- a tiny power of a number of moderate size -/
theorem rpow_tiny {P r ε : ℝ} (hP : Mag 80 P) (hε0 : 0 ≤ ε) (hε : ε ≤ 1 / 2 ^ 52) (hr : |r| ≤ ε) : P ^ r ≤ kappa ^ 3 := by
  have hp := hP.pos
  have hr1 : r ≤ ε := le_trans (le_abs_self r) hr
  have hr2 : -ε ≤ r := by linarith [neg_abs_le r]
  have e80 : (2:ℝ) ^ (80:ℕ) = 2 ^ (80:ℝ) := by rw [← Real.rpow_natCast]; norm_num
  have h1 : (2:ℝ) ^ (80 * ε) ≤ 1 + 80 * ε := two_rpow_le (by positivity) (by
    calc 80 * ε ≤ 80 * (1 / 2 ^ 52) := by gcongr
      _ ≤ 1 := by norm_num)
  have h2 : 1 + 80 * ε ≤ kappa ^ 3 := by
    calc 1 + 80 * ε ≤ 1 + 80 * (1 / 2 ^ 52) := by gcongr
      _ ≤ kappa ^ 3 := by unfold kappa; norm_num
  refine le_trans ?_ (h1.trans h2)
  rw [Real.rpow_mul (by norm_num), ← e80]
  rcases le_total 1 P with h1 | h1
  · exact (Real.rpow_le_rpow_of_exponent_le h1 hr1).trans (Real.rpow_le_rpow hp.le hP.2 hε0)
  · calc P ^ r ≤ P ^ (-ε) := Real.rpow_le_rpow_of_exponent_ge hp h1 hr2
      _ = (P⁻¹) ^ ε := by rw [Real.rpow_neg hp.le, Real.inv_rpow hp.le]
      _ ≤ _ := Real.rpow_le_rpow (inv_pos.2 hp).le hP.inv.2 hε0

theorem near_one_abs {s : ℝ} (hs : Near kappa52 1 s 1) : |s - 1| ≤ 1 / 2 ^ 52 := by
  obtain ⟨s0, -, s1, s2⟩ := hs
  rw [pow_one, one_mul] at s1
  rw [pow_one] at s2
  unfold kappa52 at s1 s2
  have he : (0:ℝ) < 1 / 2 ^ 52 := by norm_num
  have he1 : (1:ℝ) / 2 ^ 52 ≤ 1 := by norm_num
  generalize (1:ℝ) / 2 ^ 52 = ε at *
  rw [abs_le]
  constructor <;> nlinarith

/-- the exponent's error, relative to a power of moderate size -/
theorem rpow_near_exp {P s : ℝ} (hP : Mag 80 P) (hs : Near kappa52 1 s 1) : Near kappa 3 (P ^ s) P := by
  have hp := hP.pos
  have h1 := near_one_abs hs
  have h2 : |1 - s| ≤ 1 / 2 ^ 52 := by rw [abs_sub_comm]; exact h1
  have he : (0:ℝ) ≤ 1 / 2 ^ 52 := by norm_num
  generalize hε : (1:ℝ) / 2 ^ 52 = ε at *
  have k1 := rpow_tiny hP he hε.symm.le h1
  have k2 := rpow_tiny hP he hε.symm.le h2
  have e : P ^ s = P * P ^ (s - 1) := by
    conv_rhs => rw [← Real.rpow_one P]
    rw [Real.rpow_one P]
    nth_rewrite 2 [← Real.rpow_one P]
    rw [← Real.rpow_add hp]; congr 1; ring
  have e' : P = P ^ s * P ^ (1 - s) := by
    rw [← Real.rpow_add hp, show s + (1 - s) = 1 by ring, Real.rpow_one]
  refine ⟨Real.rpow_pos_of_pos hp _, hp, ?_, ?_⟩
  · rw [e]
    exact mul_le_mul_of_nonneg_left k1 hp.le
  · conv_lhs => rw [e']
    exact mul_le_mul_of_nonneg_left k2 (Real.rpow_pos_of_pos hp _).le

/-- the base's error -/
theorem rpow_near_base {v u y : ℝ} (h : Near kappa52 2 v u) (hy0 : 0 ≤ y) (hy : y ≤ 33) : Near kappa 3 (v ^ y) (u ^ y) := by
  obtain ⟨hv, hu, h1, h2⟩ := h
  have hk : (kappa52 ^ 2) ^ y ≤ kappa ^ 3 := by
    calc (kappa52 ^ 2) ^ y ≤ (kappa52 ^ 2) ^ (33:ℝ) := Real.rpow_le_rpow_of_exponent_le (one_le_pow₀ kappa52_one.le) hy
      _ = (kappa52 ^ 2) ^ (33:ℕ) := by rw [← Real.rpow_natCast]; norm_num
      _ ≤ kappa ^ 3 := by unfold kappa52 kappa; norm_num
  have hk0 : 0 ≤ kappa52 ^ 2 := (pow_pos kappa52_pos 2).le
  have key : ∀ {a b : ℝ}, 0 < a → 0 < b → a ≤ b * kappa52 ^ 2 → a ^ y ≤ b ^ y * kappa ^ 3 := by
    intro a b ha hb hab
    calc a ^ y ≤ (b * kappa52 ^ 2) ^ y := Real.rpow_le_rpow ha.le hab hy0
      _ = b ^ y * (kappa52 ^ 2) ^ y := Real.mul_rpow hb.le hk0
      _ ≤ _ := mul_le_mul_of_nonneg_left hk (Real.rpow_pos_of_pos hb _).le
  exact ⟨Real.rpow_pos_of_pos hv _, Real.rpow_pos_of_pos hu _, key hv hu h1, key hu hv h2⟩

/-- larger than any usage: then `powf` says so -/
theorem powf_large {powf : F → F → F} (H : AccuratePowf powf) {v y : ℝ} (hv : 0 < v) (hy : 0 < y) (h : 2 ^ 78 ≤ v ^ y) :
    powf (fin v) (fin y) = inf false ∨ ∃ w : ℝ, powf (fin v) (fin y) = fin w ∧ 2 ^ 77 ≤ w := by
  rcases le_or_gt (v ^ y) (2 ^ 1000) with h1 | h1
  · right
    obtain ⟨w, e, hw⟩ := H.near v y hv hy (by
      have : (1:ℝ) ≤ 2 ^ 78 * 2 ^ 1000 := one_le_mul_of_one_le_of_one_le (one_le_pow₀ (by norm_num)) (one_le_pow₀ (by norm_num))
      exact this.trans (mul_le_mul_of_nonneg_right h (by positivity))) h1
    refine ⟨w, e, ?_⟩
    have := (near_of_rel (by linarith [show (0:ℝ) < 2 ^ 78 by positivity]) hw).2.2.2
    rw [pow_one] at this
    have hk : kappa ≤ 2 := by unfold kappa; norm_num
    have hw0 : 0 < w := (near_of_rel (by linarith [show (0:ℝ) < 2 ^ 78 by positivity]) hw).1
    nlinarith
  · rcases H.large v y hv hy h1 with h2 | ⟨w, e, hw⟩
    · exact Or.inl h2
    · exact Or.inr ⟨w, e, le_trans (pow_le_pow_right₀ (by norm_num) (by norm_num)) hw⟩

/-- smaller than any usage -/
theorem powf_small {powf : F → F → F} (H : AccuratePowf powf) {v y : ℝ} (hv : 0 < v) (hy : 0 < y) (h : v ^ y * 2 ^ 78 ≤ 1) :
    ∃ w : ℝ, powf (fin v) (fin y) = fin w ∧ 0 ≤ w ∧ w * 2 ^ 77 ≤ 1 := by
  have hpos : 0 < v ^ y := Real.rpow_pos_of_pos hv y
  rcases le_or_gt 1 (v ^ y * 2 ^ 1000) with h1 | h1
  · obtain ⟨w, e, hw⟩ := H.near v y hv hy h1 (by
      have h2 : v ^ y ≤ v ^ y * 2 ^ 78 := le_mul_of_one_le_right hpos.le (one_le_pow₀ (by norm_num))
      have h3 : (1:ℝ) ≤ 2 ^ 1000 := one_le_pow₀ (by norm_num)
      exact h2.trans (h.trans h3))
    have hn := near_of_rel hpos hw
    refine ⟨w, e, hn.1.le, ?_⟩
    have := hn.2.2.1
    rw [pow_one] at this
    have hk : kappa ≤ 2 := by unfold kappa; norm_num
    nlinarith
  · obtain ⟨w, e, h0, hw⟩ := H.small v y hv hy h1
    refine ⟨w, e, h0, le_trans ?_ hw⟩
    exact mul_le_mul_of_nonneg_left (pow_le_pow_right₀ (by norm_num) (by norm_num)) h0

/-- the three situations of the exponential tier -/
inductive ExpTier (E : FloatEnv) (a g : F) (u P δ τ : ℝ) : Prop
  | near (h : TierAt E kappa a g (u / P)) : ExpTier E a g u P δ τ
  | far (h : below E a g) (h1 : u * (1 + δ) / P < 1 - τ) (h2 : u * (1 - δ) / P < 1 - τ) : ExpTier E a g u P δ τ
  | close (h : ¬ below E a g) (h' : ¬ within E a g) (h1 : 1 + τ < u * (1 + δ) / P) (h2 : 1 + τ < u * (1 - δ) / P) : ExpTier E a g u P δ τ

theorem ExpTier.up {E : FloatEnv} {τ t : ℝ} (A : Acc E kappa τ t) {a g : F} {u P δ : ℝ} (hδ1 : kappa ^ 16 ≤ 1 + δ) (hδ2 : kappa ^ 16 * (1 - δ) ≤ 1)
    (h : ExpTier E a g u P δ τ) : Dom [below E a g, within E a g] [u * (1 + δ) / P < 1 - τ, |u * (1 + δ) / P - 1| ≤ τ] := by
  rcases h with h | ⟨h, h1, h2⟩ | ⟨h, h', h1, h2⟩
  · exact A.dom_up hδ1 hδ2 h trivial
  · exact ⟨fun _ => h, fun hn => absurd h hn⟩
  · have := A.τ_ge
    refine ⟨fun hh => ?_, fun _ => ⟨fun hh => ?_, fun _ => trivial⟩⟩
    · linarith
    · have := (abs_le.1 hh).2; linarith

theorem ExpTier.down {E : FloatEnv} {τ t : ℝ} (A : Acc E kappa τ t) {a g : F} {u P δ : ℝ} (hδ1 : kappa ^ 16 ≤ 1 + δ) (hδ2 : kappa ^ 16 * (1 - δ) ≤ 1)
    (h : ExpTier E a g u P δ τ) : Dom [u * (1 - δ) / P < 1 - τ, |u * (1 - δ) / P - 1| ≤ τ] [below E a g, within E a g] := by
  rcases h with h | ⟨h, h1, h2⟩ | ⟨h, h', h1, h2⟩
  · exact A.dom_down hδ1 hδ2 h trivial
  · exact ⟨fun _ => h2, fun hn => absurd h2 hn⟩
  · exact ⟨fun hh => absurd hh h, fun _ => ⟨fun hh => absurd hh h', fun _ => trivial⟩⟩

/-- a computed quotient that is far below 1 -/
theorem below_of_small {E : FloatEnv} {τ t : ℝ} (A : Acc E kappa τ t) {v w : ℝ} (hv : 0 < v) (hw : 0 < w) (h : v / w ≤ 1 / 4) :
    below E (fin v) (fin w) := by
  obtain ⟨c, hc, hcn, -⟩ := A.oneMinus
  unfold below
  rw [hc, div_fin_fin_pos hv hw.ne', F.lt_def]
  refine ⟨A.laws.rnd_num _, trivial, ?_⟩
  obtain ⟨y, hy, hyn⟩ := A.rnd_near (1 / 4) (Mag.mono (a := 4) ⟨by norm_num, by norm_num⟩ (by norm_num))
  have := A.laws.rnd_mono _ _ h
  rw [hy, toE_fin] at this
  refine lt_of_le_of_lt this ?_
  rw [toE_fin]
  have hk : kappa ≤ 5 / 4 := by unfold kappa; norm_num
  have h1 := hyn.2.2.1
  have h2 := hcn.2.2.2
  have h3 := A.t_le
  have h4 := hcn.1
  rw [pow_one] at h1 h2
  have : y < c := by nlinarith
  exact_mod_cast this

/-- a computed quotient that is far above 1 -/
theorem beyond_of_large {E : FloatEnv} {τ t : ℝ} (A : Acc E kappa τ t) {v w : ℝ} (hv : 0 < v) (hw : 0 ≤ w) (h : 4 * w ≤ v) :
    ¬ below E (fin v) (fin w) ∧ ¬ within E (fin v) (fin w) := by
  obtain ⟨c, hc, hcn, -⟩ := A.oneMinus
  have hk : kappa ≤ 5 / 4 := by unfold kappa; norm_num
  have hc1 : c ≤ 5 / 4 := by
    have h1 := hcn.2.2.1
    have := A.tpos
    have := A.t_le
    rw [pow_one] at h1
    nlinarith [kappa_pos]
  have infinite : E.div (fin v) (fin w) = inf false → ¬ below E (fin v) (fin w) ∧ ¬ within E (fin v) (fin w) := by
    intro e
    unfold below within
    rw [e, hc, A.tol_eq]
    constructor
    · simp [F.lt_def, toE]
    · simp [FloatEnv.sub, F.abs, F.le_def, toE]
  rcases hw.lt_or_eq with hw | rfl
  · have hq : 4 ≤ v / w := by rwa [le_div_iff₀ hw]
    obtain ⟨y, hy, hyn⟩ := A.rnd_near 4 (Mag.mono (a := 4) ⟨by norm_num, by norm_num⟩ (by norm_num))
    have hm := A.laws.rnd_mono _ _ hq
    rw [hy, toE_fin] at hm
    have h2 := hyn.2.2.2
    rw [pow_one] at h2
    have hy3 : 3 ≤ y := by nlinarith [hyn.1]
    have he := div_fin_fin_pos (E := E) hv hw.ne'
    have hpos := A.laws.rnd_pos (v / w) (by positivity)
    have hnum := A.laws.rnd_num (v / w)
    cases hr : E.rnd (v / w) with
    | nan => rw [hr] at hnum; exact hnum.elim
    | nzero => rw [hr] at hpos; exact absurd trivial hpos
    | inf s =>
      rw [hr] at hpos
      cases s
      · exact infinite (he.trans hr)
      · exact absurd rfl hpos
    | fin q =>
      rw [hr, toE_fin] at hm
      have hq3 : (3:ℝ) ≤ q := hy3.trans (by exact_mod_cast hm)
      have he' := he.trans hr
      constructor
      · unfold below
        rw [he', hc, fin_lt_fin]
        linarith
      · rw [A.within_iff he']
        rintro ⟨-, h⟩
        refine absurd (A.sub_gt ?_) (not_lt.2 h)
        have := A.t_mul_κ2
        linarith
  · apply infinite
    simp [FloatEnv.div, FloatEnv.divFin, hv.ne', infS, Xor, F.neg, not_lt.2 hv.le]

/-- the exponential tier of the shipped arithmetic -/
theorem exp_tier {E : FloatEnv} {τ t : ℝ} (A : Acc E kappa τ t) (H : AccuratePowf E.powf) {v1 v2 u1 u2 x y δ : ℝ} (hδ0 : 0 ≤ δ) (hδ : δ ≤ 1 / 2)
    (hu1 : Near kappa52 2 v1 u1) (hu2 : Near kappa 2 v2 u2) (m2 : Mag 64 u2) (hx : 1 ≤ x) (hx' : x ≤ 32) (hy : Near kappa52 1 y x) :
    ExpTier E (fin v2) (E.powf (fin v1) (fin y)) u2 (u1 ^ x) δ τ := by
  have hv1 := hu1.1
  have hp1 := hu1.2.1
  have hy0 := hy.1
  have hx0 : 0 < x := by linarith
  have m2' := m2.near hu2 (by unfold kappa; norm_num)
  have hy33 : y ≤ 33 := by
    have h1 := hy.2.2.1
    rw [pow_one] at h1
    have hk : kappa52 ≤ 33 / 32 := by unfold kappa52; norm_num
    nlinarith
  have hs : Near kappa52 1 (y / x) 1 := by
    have := hy.div kappa52_one.le (Near.refl (κ := kappa52) hx0)
    rwa [div_self hx0.ne', add_zero] at this
  have hP : 0 < u1 ^ x := Real.rpow_pos_of_pos hp1 x
  have hpow : u1 ^ y = (u1 ^ x) ^ (y / x) := by rw [← Real.rpow_mul hp1.le, mul_div_cancel₀ _ hx0.ne']
  have hbase := rpow_near_base hu1 hy0.le hy33
  rw [hpow] at hbase
  generalize u1 ^ x = P at *
  have hk3 : kappa ^ 3 ≤ 2 := by unfold kappa; norm_num
  have hs0 := hs.1
  have sabs := abs_le.1 (near_one_abs hs)
  have hs1 : 79 / 80 ≤ y / x := by
    have : (1:ℝ) / 2 ^ 52 ≤ 1 / 80 := by norm_num
    linarith [sabs.1]
  have τ1 := A.τ_ge
  have τ2 := A.τ_le
  by_cases hbig : 2 ^ 80 < P
  · have h79 : (2:ℝ) ^ 79 ≤ P ^ (y / x) := by
      have e : (2:ℝ) ^ 79 = ((2:ℝ) ^ 80) ^ (79 / 80 : ℝ) := by
        rw [← Real.rpow_natCast, ← Real.rpow_natCast, ← Real.rpow_mul (by norm_num)]; norm_num
      rw [e]
      have h1 : (1:ℝ) ≤ P := le_trans (one_le_pow₀ (by norm_num)) hbig.le
      exact (Real.rpow_le_rpow (by positivity) hbig.le (by norm_num)).trans (Real.rpow_le_rpow_of_exponent_le h1 hs1)
    have h78 : (2:ℝ) ^ 78 ≤ v1 ^ y := by
      have h1 := hbase.2.2.2
      have h2 := hbase.1
      nlinarith
    refine .far ?_ ?_ ?_
    · rcases powf_large H hv1 hy0 h78 with e | ⟨w, e, hw⟩
      · rw [e]; exact finite_below_inf A.laws
      · rw [e]
        have hw0 : 0 < w := lt_of_lt_of_le (by positivity) hw
        refine below_of_small A hu2.1 hw0 ?_
        rw [div_le_iff₀ hw0]
        have h1 := m2'.2
        norm_num at h1 hw ⊢
        linarith
    · rw [div_lt_iff₀ hP]
      have h1 := m2.2
      have h0 := m2.pos
      norm_num at h1 hbig
      nlinarith
    · rw [div_lt_iff₀ hP]
      have h1 := m2.2
      have h0 := m2.pos
      norm_num at h1 hbig
      nlinarith
  by_cases hsmall : P * 2 ^ 80 < 1
  · have hinv : 2 ^ 80 < P⁻¹ := by rw [lt_inv_comm₀ (by positivity) hP, ← one_div, lt_div_iff₀ (by positivity)]; exact hsmall
    have h79 : P ^ (y / x) * 2 ^ 79 ≤ 1 := by
      have e : (2:ℝ) ^ 79 = ((2:ℝ) ^ 80) ^ (79 / 80 : ℝ) := by
        rw [← Real.rpow_natCast, ← Real.rpow_natCast, ← Real.rpow_mul (by norm_num)]; norm_num
      have h1 : (1:ℝ) ≤ P⁻¹ := le_trans (one_le_pow₀ (by norm_num)) hinv.le
      have h2 : (2:ℝ) ^ 79 ≤ (P⁻¹) ^ (y / x) := by
        rw [e]
        exact (Real.rpow_le_rpow (by positivity) hinv.le (by norm_num)).trans (Real.rpow_le_rpow_of_exponent_le h1 hs1)
      rw [Real.inv_rpow hP.le] at h2
      have h3 : 0 < P ^ (y / x) := Real.rpow_pos_of_pos hP _
      calc P ^ (y / x) * 2 ^ 79 ≤ P ^ (y / x) * (P ^ (y / x))⁻¹ := mul_le_mul_of_nonneg_left h2 h3.le
        _ = 1 := mul_inv_cancel₀ h3.ne'
    have h78 : v1 ^ y * 2 ^ 78 ≤ 1 := by
      have h1 := hbase.2.2.1
      have h2 := hbase.2.1
      nlinarith
    obtain ⟨w, e, hw0, hw⟩ := powf_small H hv1 hy0 h78
    rw [e]
    have h1 := m2'.1
    obtain ⟨b1, b2⟩ := beyond_of_large A hu2.1 hw0 (by norm_num at h1 hw; linarith)
    have h2 := m2.1
    refine .close b1 b2 ?_ ?_
    · rw [lt_div_iff₀ hP]
      norm_num at h2 hsmall
      nlinarith
    · rw [lt_div_iff₀ hP]
      norm_num at h2 hsmall
      nlinarith
  · have mP : Mag 80 P := ⟨not_lt.1 hsmall, not_lt.1 hbig⟩
    have hn : Near kappa 6 (v1 ^ y) P := hbase.trans kappa_one (rpow_near_exp mP hs)
    have mv := mP.near hn (by unfold kappa; norm_num)
    have mv' := mv.mono (show 81 ≤ 1000 by norm_num)
    obtain ⟨w, e, hw⟩ := H.near v1 y hv1 hy0 mv'.1 mv'.2
    have hwn := (near_of_rel mv.pos hw).trans kappa_one hn
    rw [e]
    obtain ⟨q, hq, hqn⟩ := A.div_near hu2 hwn (by norm_num) (by norm_num) m2 mP (by norm_num)
    exact .near ⟨q, hq, hqn.mono kappa_one (by norm_num)⟩

/-! ### accuracy of single operations -/

theorem mag_round52 {x : ℝ} (h : Mag 1000 x) : Near kappa52 1 (binary64.roundMag x) x := by
  obtain ⟨h1, -⟩ := mag_normal h
  have hr := Format.roundMag_rel (f := binary64) h1
  refine Near.of_rel (ε := 1 / 2 ^ 53) h.pos (by positivity) (by norm_num [kappa52]) (by norm_num [kappa52]) ?_
  refine hr.trans_eq ?_
  rw [show (2:ℝ) ^ (-(binary64.prec : ℤ)) = 1 / 2 ^ 53 by
    rw [zpow_neg, one_div]; congr 1]

theorem acc52 (powf : F → F → F) (tol : ℝ) (ht : tol = 1 / 10 ∨ tol = 1 / 4) :
    ∃ t, Acc (shippedEnv idealLog2 idealPowi powf tol) kappa52 tol t := by
  have hL : FloatLaws (shippedEnv idealLog2 idealPowi powf tol) := by
    rcases ht with rfl | rfl
    · exact C17_laws_10 _ _ powf
    · exact C17_laws_25 _ _ powf
  have hm : Mag 1000 tol := Mag.mono (a := 4) (by rcases ht with rfl | rfl <;> constructor <;> norm_num) (by norm_num)
  obtain ⟨a, b, -⟩ := mag_round hm
  refine ⟨binary64.roundMag tol, hL, kappa52_one, ?_, ?_, ?_, ?_, ?_, ?_, mag_round52 hm, ?_, ?_⟩
  · norm_num [kappa52]
  · intro x hx
    obtain ⟨a, b, -⟩ := mag_round hx
    exact ⟨_, Format.round_of_mag hx.pos rfl a b, mag_round52 hx⟩
  · intro x hx
    obtain ⟨a, b, -⟩ := mag_round hx
    exact ⟨_, Format.round_neg_of_mag hx.pos rfl a b, mag_round52 hx⟩
  · intro n h1 h2
    have hn : (0:ℝ) < n := by exact_mod_cast (show 0 < n by omega)
    refine ⟨Real.logb 2 n, ?_, (Near.refl (logb_pos2 (by exact_mod_cast h1))).mono kappa52_one.le (by norm_num)⟩
    show idealLog2 (fin n) = _
    simp only [idealLog2, hn.ne', not_lt.2 hn.le, if_false]
  · intro x k hx h1 h2
    refine ⟨x ^ k, ?_, (Near.refl (pow_pos hx.pos k)).mono kappa52_one.le (by norm_num)⟩
    show idealPowi (fin x) k = _
    simp only [idealPowi, show k ≠ 0 by omega, if_false]
  · exact Format.round_of_mag hm.pos rfl a b
  · rcases ht with rfl | rfl <;> norm_num
  · rcases ht with rfl | rfl <;> norm_num

/-! ### the verdict up to `OkN` -/

theorem Acc.sandwich_exp {E : FloatEnv} {τ t : ℝ} (A : Acc E kappa τ t) (H : AccuratePowf E.powf) {δ : ℝ} (hδ1 : kappa ^ 16 ≤ 1 + δ)
    (hδ2 : kappa ^ 16 * (1 - δ) ≤ 1) (hδ3 : δ ≤ 1 / 2) {v1 v2 u1 u2 : ℝ} (hf : Near kappa52 2 v1 u1) (hu1 : Near kappa 2 v1 u1)
    (m1 : Mag 64 u1) (hu2 : NearUsage kappa v2 u2) {n1 n2 : ℕ} (h1 : 2 ≤ n1) (h12 : n1 ≤ n2) (h2' : n2 ≤ 2 ^ 32) (h32 : n2 ≤ 32 * n1)
    {y : ℝ} (hy : E.div (fin n2) (fin n1) = fin y) (hyn : Near kappa52 1 y ((n2 : ℝ) / n1)) (k : ℕ) :
    ((analyseComplexity (exactEnv τ) (fin u1) (fin (u2 * (1 + δ))) (fin n1) (fin n2)).asU32 ≤ k →
      (analyseComplexity E (fin v1) (fin v2) (fin n1) (fin n2)).asU32 ≤ k) ∧
    ((analyseComplexity E (fin v1) (fin v2) (fin n1) (fin n2)).asU32 ≤ k →
      (analyseComplexity (exactEnv τ) (fin u1) (fin (u2 * (1 - δ))) (fin n1) (fin n2)).asU32 ≤ k) := by
  have hn1 : (2:ℝ) ≤ n1 := by exact_mod_cast h1
  have h12' : (n1:ℝ) ≤ n2 := by exact_mod_cast h12
  have hn2 : (2:ℝ) ≤ n2 := hn1.trans h12'
  have h32' : (n2:ℝ) ≤ 32 * n1 := by exact_mod_cast h32
  have hδ0 : 0 ≤ δ := by linarith [A.one_le_pow 16]
  have hp := m1.pos
  rcases hu2 with ⟨hu2, m2⟩ | ⟨rfl, rfl⟩
  · have hp2 := m2.pos
    rw [exact_rank hp (mul_nonneg hp2.le (by linarith)) hn1 hn2, exact_rank hp (mul_nonneg hp2.le (by linarith)) hn1 hn2,
      analyse_eq_pick, tests_poly, hy, tiers_append, tiers_append τ (u2 * (1 - δ) / u1),
      show u2 * (1 + δ) / u1 = u2 / u1 * (1 + δ) by ring, show u2 * (1 - δ) / u1 = u2 / u1 * (1 - δ) by ring]
    have T := exp_tier A H hδ0 hδ3 hf hu2 m2 (x := (n2:ℝ) / n1) (by rw [le_div_iff₀ (by linarith)]; linarith)
      (by rw [div_le_iff₀ (by linarith)]; linarith) hyn
    exact ⟨(pick_mono ((A.poly_up hu1 hu2 m1 m2 h1 (h12.trans h2') (h1.trans h12) h2' hδ1 hδ2).append (T.up A hδ1 hδ2))).trans,
      (pick_mono ((A.poly_down hu1 hu2 m1 m2 h1 (h12.trans h2') (h1.trans h12) h2' hδ1 hδ2).append (T.down A hδ1 hδ2))).trans⟩
  · have hz : ∀ (E : FloatEnv) (L : FloatLaws E) (v : ℝ), 0 < v →
        (analyseComplexity E (fin v) (fin 0) (fin n1) (fin n2)).asU32 = 0 := by
      intro E L v hv
      rw [analyse_eq_pick]
      unfold tests pick
      simp [zero_below L (u1 := fin v) (by simpa using hv) (Or.inl rfl)]
    rw [zero_mul, zero_mul, hz E A.laws v1 hu1.1, hz _ (exact_laws (by linarith [A.τ_ge]) (by linarith [A.τ_le])) u1 hp]
    simp

/-- the exact `powf` is accurate -/
theorem ideal_powf : AccuratePowf idealPowf := by
  have e : ∀ x y : ℝ, 0 < x → 0 < y → idealPowf (fin x) (fin y) = fin (x ^ y) := by
    intro x y hx hy
    simp [idealPowf, hx.ne', hy.ne', not_lt.2 hx.le]
  constructor
  · intro x y hx hy _ _
    refine ⟨_, e x y hx hy, ?_⟩
    rw [sub_self, abs_zero]
    exact div_nonneg (Real.rpow_pos_of_pos hx y).le (by positivity)
  · intro x y hx hy h
    exact Or.inr ⟨_, e x y hx hy, le_trans (pow_le_pow_right₀ (by norm_num) (by norm_num)) h.le⟩
  · intro x y hx hy h
    have hp := Real.rpow_pos_of_pos hx y
    refine ⟨_, e x y hx hy, hp.le, le_trans ?_ h.le⟩
    exact mul_le_mul_of_nonneg_left (pow_le_pow_right₀ (by norm_num) (by norm_num)) hp.le

end BigO
