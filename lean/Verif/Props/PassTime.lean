import Verif.Proofs.Shipped
import Verif.Spec.DisplaySpec
import Verif.Model.Display

/-!
# C48: the reported time of an iterator pass

It is the mean of the times of its threads, computed in `f64` and rounded to a nanosecond.
-/
namespace BigO
open F

/-- the mean of some durations, in nanoseconds -/
noncomputable def meanTime (ds : List Duration) : ℝ := (ds.sum : ℝ) / ds.length

theorem sum_bounds (ds : List Nat) (lo hi : Nat) (h : ∀ d ∈ ds, lo ≤ d ∧ d ≤ hi) :
    lo * ds.length ≤ ds.sum ∧ ds.sum ≤ hi * ds.length := by
  induction ds with
  | nil => simp
  | cons d ds ih =>
    have h1 := h d (by simp)
    have h2 := ih (fun x hx => h x (by simp [hx]))
    simp only [List.sum_cons, List.length_cons, Nat.mul_succ]
    omega

theorem meanTime_bounds (ds : List Duration) (hne : ds ≠ []) (lo hi : Duration) (h : ∀ d ∈ ds, lo ≤ d ∧ d ≤ hi) :
    (lo : ℝ) ≤ meanTime ds ∧ meanTime ds ≤ hi := by
  obtain ⟨h1, h2⟩ := sum_bounds ds lo hi h
  have hl : (0:ℝ) < ds.length := by
    have : 0 < ds.length := List.length_pos_iff.2 hne
    exact_mod_cast this
  unfold meanTime
  rw [le_div_iff₀ hl, div_le_iff₀ hl]
  exact ⟨by exact_mod_cast h1, by exact_mod_cast h2⟩

theorem meanTime_nonneg (ds : List Duration) : 0 ≤ meanTime ds := by unfold meanTime; positivity

theorem plausible_mean (ds : List Duration) (hp : ∀ d ∈ ds, PlausibleTime d) : meanTime ds ≤ 2 ^ 53 * 10 ^ 9 := by
  rcases eq_or_ne ds [] with rfl | hne
  · unfold meanTime; simp
  have h := (meanTime_bounds ds hne 0 (2 ^ 53 * 10 ^ 9) (fun d hd => by
    have h1 : d / 10 ^ 9 < 2 ^ 53 := hp d hd
    exact ⟨Nat.zero_le d, ((Nat.div_lt_iff_lt_mul (show 0 < 10 ^ 9 by norm_num)).1 h1).le⟩)).2
  refine h.trans (le_of_eq ?_)
  norm_num

/-- rounding to nanoseconds a number of seconds close to `μ` nanoseconds -/
theorem fromSecs_near {z μ e : ℝ} (hz : 0 ≤ z) (h : |z * 10 ^ 9 - μ| ≤ e) (he : e ≤ 2 ^ 53 * 10 ^ 9) (hμ : μ ≤ 2 ^ 53 * 10 ^ 9) :
    ∃ x : ℕ, fromSecsF64 (fin z) = .ok x ∧ |(x : ℝ) - μ| ≤ 1 / 2 + e := by
  have hz64 : z < 2 ^ 64 := by
    have := (abs_le.1 h).2
    have e9 : (10:ℝ) ^ 9 = 1000000000 := by norm_num
    have e53 : (2:ℝ) ^ 53 = 9007199254740992 := by norm_num
    have e64 : (2:ℝ) ^ 64 = 18446744073709551616 := by norm_num
    rw [e9, e53] at *
    rw [e64]
    linarith
  refine ⟨halfEven (z * 10 ^ 9), ?_, ?_⟩
  · show (if 0 ≤ z ∧ z < 2 ^ 64 then _ else _) = _
    rw [if_pos ⟨hz, hz64⟩]
  · have h1 := abs_le.1 (halfEven_near (z := z * 10 ^ 9) (by positivity))
    have h2 := abs_le.1 h
    rw [abs_le]
    constructor <;> linarith [h1.1, h1.2, h2.1, h2.2]

/-! ## exact arithmetic -/

theorem ex_add (t : ℝ) (a b : ℝ) : (exactEnv t).addNonneg (fin a) (fin b) = fin (a + b) := by
  show (exactEnv t).rnd0 (a + b) = _
  unfold FloatEnv.rnd0
  split_ifs with h
  · rw [h]
  · rfl

theorem ex_elapsed (t : ℝ) (n : ℕ) (hn : 0 < n) (ds : List Duration) :
    elapsedSecondsAverage (exactEnv t) n ds = fin ((ds.sum : ℝ) / n / 10 ^ 9) := by
  have hn' : (0:ℝ) < n := by exact_mod_cast hn
  have : ∀ a : ℝ, ds.foldl (fun acc d => (exactEnv t).addNonneg acc ((exactEnv t).div (asSecsF64 (exactEnv t) d) ((exactEnv t).ofNat n))) (fin a) =
      fin (a + (ds.sum : ℝ) / n / 10 ^ 9) := by
    induction ds with
    | nil => intro a; simp
    | cons d ds ih =>
      intro a
      rw [List.foldl_cons, ex_asSecs, ex_ofNat, ex_div (by positivity) hn', ex_add]
      rw [ex_ofNat] at ih
      rw [ih, List.sum_cons, Nat.cast_add]
      congr 1
      field_simp
      ring
  unfold elapsedSecondsAverage
  rw [this, zero_add]

/-- **C48** (exact arithmetic): the reported time of a pass is the mean of the threads' times up to half a nanosecond. -/
theorem C48_mean (t : ℝ) (ds : List Duration) (hne : ds ≠ []) (hp : ∀ d ∈ ds, PlausibleTime d) :
    ∃ x : ℕ, passTime (exactEnv t) ds = .ok x ∧ |(x : ℝ) - meanTime ds| ≤ 1 / 2 := by
  unfold passTime
  rw [ex_elapsed t _ (List.length_pos_iff.2 hne)]
  obtain ⟨x, h1, h2⟩ := fromSecs_near (z := (ds.sum : ℝ) / ds.length / 10 ^ 9) (μ := meanTime ds) (e := 0) (by positivity)
    (by unfold meanTime; rw [div_mul_cancel₀ _ (by norm_num)]; simp) (by norm_num) (plausible_mean ds hp)
  exact ⟨x, h1, by simpa using h2⟩

/-! ## the shipped arithmetic -/

/-- accuracy factor of one operation in binary64 -/
noncomputable def kappaFine : ℝ := 1 + 1 / 2 ^ 52

theorem mag_round_fine {x : ℝ} (h : Mag 1000 x) : Near kappaFine 1 (binary64.roundMag x) x := by
  obtain ⟨h1, -⟩ := mag_normal h
  have hx := h.pos
  have hr := Format.roundMag_rel (f := binary64) h1
  refine Near.of_rel (ε := 1 / 2 ^ 53) hx (by positivity) (by norm_num) (by norm_num [kappaFine]) (hr.trans ?_)
  refine mul_le_mul_of_nonneg_left (le_of_eq ?_) hx.le
  show (2:ℝ) ^ (-53:ℤ) = _
  rw [zpow_neg]; norm_num

theorem fine_round {x : ℝ} (hx : Mag 1000 x) : ∃ y, binary64.round x = fin y ∧ Near kappaFine 1 y x := by
  obtain ⟨a, b, -⟩ := mag_round hx
  exact ⟨_, Format.round_of_mag hx.pos rfl a b, mag_round_fine hx⟩

theorem fine_acc : ∃ t, Acc (shippedEnv idealLog2 idealPowi idealPowf (1 / 10)) kappaFine (1 / 10) t := by
  have hL : FloatLaws (shippedEnv idealLog2 idealPowi idealPowf (1 / 10)) := C17_laws_10 _ _ _
  have hm : Mag 1000 (1 / 10 : ℝ) := Mag.mono (a := 4) (by constructor <;> norm_num) (by norm_num)
  have κ1 : 1 ≤ kappaFine := by norm_num [kappaFine]
  obtain ⟨a, b, -⟩ := mag_round hm
  refine ⟨binary64.roundMag (1 / 10), hL, ?_, ?_, ?_, ?_, ?_, ?_, ?_, mag_round_fine hm, ?_, ?_⟩
  · norm_num [kappaFine]
  · norm_num [kappaFine]
  · intro x hx; exact fine_round hx
  · intro x hx
    obtain ⟨a, b, -⟩ := mag_round hx
    exact ⟨_, Format.round_neg_of_mag hx.pos rfl a b, mag_round_fine hx⟩
  · intro n h1 h2
    have hn : (2:ℝ) ≤ n := by exact_mod_cast h1
    refine ⟨Real.logb 2 n, ?_, (Near.refl (logb_pos2 hn)).mono κ1 (by norm_num)⟩
    show idealLog2 (fin n) = _
    simp [idealLog2, show ¬ ((n:ℝ) = 0) by linarith, show ¬ ((n:ℝ) < 0) by linarith]
  · intro x k hx h1 h2
    refine ⟨x ^ k, ?_, (Near.refl (pow_pos hx.pos k)).mono κ1 (by norm_num)⟩
    show idealPowi (fin x) k = _
    simp [idealPowi, show ¬ (k = 0) by omega]
  · exact Format.round_of_mag hm.pos rfl a b
  · norm_num
  · norm_num

/-- close to `u` after `k` roundings, or both zero -/
def Accrued (κ : ℝ) (k : ℕ) (v u : ℝ) : Prop := (Near κ k v u ∧ Mag 100 u) ∨ (v = 0 ∧ u = 0)

theorem kappaFine_pow {m : ℕ} (hm : m ≤ 2 ^ 32) : kappaFine ^ m ≤ 1 + m / 2 ^ 51 := by
  induction m with
  | zero => simp
  | succ m ih =>
    have h1 := ih (by omega)
    have hm' : (m:ℝ) ≤ 2 ^ 32 := by exact_mod_cast (by omega : m ≤ 2 ^ 32)
    rw [pow_succ]
    have h0 : (0:ℝ) ≤ m := Nat.cast_nonneg m
    calc kappaFine ^ m * kappaFine ≤ (1 + m / 2 ^ 51) * kappaFine := by
          apply mul_le_mul_of_nonneg_right h1; norm_num [kappaFine]
      _ = 1 + m / 2 ^ 51 + (1 + m / 2 ^ 51) / 2 ^ 52 := by unfold kappaFine; ring
      _ ≤ 1 + m / 2 ^ 51 + 2 / 2 ^ 52 := by
          have : (m:ℝ) / 2 ^ 51 ≤ 1 := by
            rw [div_le_one (by norm_num)]; exact hm'.trans (by norm_num)
          gcongr
          linarith
      _ = 1 + ((m + 1 : ℕ) : ℝ) / 2 ^ 51 := by push_cast; ring

section
variable {E : FloatEnv} {κ τ t : ℝ} (A : Acc E κ τ t)
include A

theorem thread_near {d n : ℕ} (hd : PlausibleTime d) (hn : 1 ≤ n) (hn' : n ≤ 2 ^ 32) :
    ∃ v, E.div (asSecsF64 E d) (E.ofNat n) = fin v ∧ Accrued κ 3 v ((d : ℝ) / n / 10 ^ 9) := by
  have hnpos : (0:ℝ) < n := by exact_mod_cast hn
  obtain ⟨v, hv, hvn⟩ := A.secs_near (d := d) hd
  rw [hv, A.ofNat_exact (n := n) (hn'.trans (by norm_num))]
  rcases hvn with ⟨h, m⟩ | ⟨h, h'⟩
  · have m' : Mag 96 ((d : ℝ) / 10 ^ 9 / n) := m.div (Acc.mag_nat hn hn')
    have hq : Near κ 2 (v / n) ((d : ℝ) / 10 ^ 9 / n) := h.div A.κ1.le (Near.refl hnpos)
    have mq := m'.near hq ((A.pow_le (by norm_num)).trans (by norm_num))
    obtain ⟨y, hy, hyn⟩ := A.rnd_near _ (mq.mono (by norm_num))
    refine ⟨y, by rw [div_fin_fin_pos h.1 hnpos.ne', hy], Or.inl ⟨?_, ?_⟩⟩
    · rw [div_right_comm]; exact hyn.trans A.κ1.le hq
    · rw [div_right_comm]; exact m'.mono (by norm_num)
  · subst h
    refine ⟨0, ?_, Or.inr ⟨rfl, ?_⟩⟩
    · simp [FloatEnv.div, FloatEnv.divFin, F.val, hnpos.ne', F.zero, F.neg, Xor, not_lt.2 hnpos.le]
    · rw [div_right_comm, h', zero_div]

theorem add_accrued {k : ℕ} {v u w x : ℝ} (hκ : κ ^ k ≤ 2) (hk : 3 ≤ k) (h : Accrued κ k v u) (h' : Accrued κ 3 w x) (hm : u + x ≤ 2 ^ 100) :
    ∃ y, E.addNonneg (fin v) (fin w) = fin y ∧ Accrued κ (k + 1) y (u + x) := by
  have κ1 := A.κ1.le
  have e : E.addNonneg (fin v) (fin w) = E.rnd0 (v + w) := rfl
  have main : Near κ k (v + w) (u + x) → Mag 100 (u + x) → ∃ y, E.rnd0 (v + w) = fin y ∧ Accrued κ (k + 1) y (u + x) := by
    intro hn m
    have mq := m.near hn hκ
    obtain ⟨y, hy, hyn⟩ := A.rnd_near _ (mq.mono (by norm_num))
    refine ⟨y, ?_, Or.inl ⟨?_, m⟩⟩
    · unfold FloatEnv.rnd0; rw [if_neg mq.pos.ne', hy]
    · rw [add_comm]; exact hyn.trans κ1 hn
  rw [e]
  rcases h with ⟨h, m⟩ | ⟨rfl, rfl⟩
  · rcases h' with ⟨h', m'⟩ | ⟨rfl, rfl⟩
    · refine main (h.add (h'.mono κ1 hk)) ⟨?_, hm⟩
      have := m.1
      have := m'.pos
      have p : (0:ℝ) < 2 ^ 100 := by positivity
      rw [add_mul]
      nlinarith
    · simpa using main (by simpa using h) (by simpa using m)
  · rcases h' with ⟨h', m'⟩ | ⟨rfl, rfl⟩
    · simpa using main (by simpa using h'.mono κ1 hk) (by simpa using m')
    · exact ⟨0, by simp [FloatEnv.rnd0], Or.inr ⟨rfl, by simp⟩⟩

theorem fold_accrued {n : ℕ} (hn : 1 ≤ n) (hn' : n ≤ 2 ^ 32) : ∀ (ds : List Duration) (k : ℕ) (v u : ℝ), 3 ≤ k → κ ^ (k + ds.length) ≤ 2 →
    (∀ d ∈ ds, PlausibleTime d) → Accrued κ k v u → 0 ≤ u → u + (ds.sum : ℝ) / n / 10 ^ 9 ≤ 2 ^ 100 →
    ∃ y, ds.foldl (fun acc d => E.addNonneg acc (E.div (asSecsF64 E d) (E.ofNat n))) (fin v) = fin y ∧
      Accrued κ (k + ds.length) y (u + (ds.sum : ℝ) / n / 10 ^ 9)
  | [], k, v, u, _, _, _, h, _, _ => ⟨v, rfl, by simpa using h⟩
  | d :: ds, k, v, u, hk, hκ, hp, h, h0, hm => by
    obtain ⟨w, hw, hwn⟩ := thread_near A (hp d (by simp)) hn hn'
    have e : u + ((d :: ds).sum : ℝ) / n / 10 ^ 9 = (u + (d : ℝ) / n / 10 ^ 9) + (ds.sum : ℝ) / n / 10 ^ 9 := by
      rw [List.sum_cons, Nat.cast_add]; ring
    rw [e] at hm ⊢
    have hpos : (0:ℝ) ≤ (ds.sum : ℝ) / n / 10 ^ 9 := by positivity
    have hκ' : κ ^ k ≤ 2 := (pow_le_pow_right₀ A.κ1.le (by omega)).trans hκ
    obtain ⟨y, hy, hyn⟩ := add_accrued A hκ' hk h hwn ((le_add_of_nonneg_right hpos).trans hm)
    rw [List.foldl_cons, hw, hy]
    have e2 : k + (d :: ds).length = (k + 1) + ds.length := by simp [List.length_cons]; omega
    rw [e2] at hκ ⊢
    exact fold_accrued hn hn' ds (k + 1) y _ (by omega) hκ (fun x hx => hp x (by simp [hx])) hyn (by positivity) hm

end

/-- the computed average, in nanoseconds, before it is rounded -/
theorem shipped_elapsed (log2 : F → F) (powi : F → ℕ → F) (powf : F → F → F) (tol : F) (ds : List Duration) (hne : ds ≠ [])
    (hlen : ds.length ≤ 2 ^ 31) (hp : ∀ d ∈ ds, PlausibleTime d) :
    ∃ z, elapsedSecondsAverage (binary64Env log2 powi powf tol) ds.length ds = fin z ∧ 0 ≤ z ∧
      |z * 10 ^ 9 - meanTime ds| ≤ meanTime ds * ((ds.length + 3) / 2 ^ 51) := by
  obtain ⟨t, A⟩ := fine_acc
  have hpos : 1 ≤ ds.length := List.length_pos_iff.2 hne
  have hmean := plausible_mean ds hp
  have hkp : kappaFine ^ (3 + ds.length) ≤ 1 + (3 + ds.length : ℕ) / 2 ^ 51 := kappaFine_pow (by omega)
  have hsmall : ((3 + ds.length : ℕ) : ℝ) / 2 ^ 51 ≤ 1 := by
    rw [div_le_one (by norm_num)]
    have : 3 + ds.length ≤ 2 ^ 51 := by omega
    exact_mod_cast this
  obtain ⟨z, hz, hzn⟩ := fold_accrued A hpos (hlen.trans (by norm_num)) ds 3 0 0 le_rfl (by linarith) hp (Or.inr ⟨rfl, rfl⟩) le_rfl (by
    have : (ds.sum : ℝ) / ds.length / 10 ^ 9 ≤ 2 ^ 53 := by
      rw [div_le_iff₀ (by norm_num)]; exact hmean
    rw [zero_add]
    exact this.trans (by norm_num))
  refine ⟨z, hz, ?_⟩
  rw [zero_add] at hzn
  have e : (ds.sum : ℝ) / ds.length / 10 ^ 9 * 10 ^ 9 = meanTime ds := div_mul_cancel₀ _ (by norm_num)
  have hcast : ((3 + ds.length : ℕ) : ℝ) = ds.length + 3 := by push_cast; ring
  rcases hzn with ⟨⟨z0, u0, h1, h2⟩, -⟩ | ⟨rfl, h0⟩
  · refine ⟨z0.le, ?_⟩
    rw [hcast] at hkp hsmall
    set m : ℝ := (ds.length + 3) / 2 ^ 51
    have m0 : 0 ≤ m := by positivity
    have g1 : z * 10 ^ 9 ≤ meanTime ds * (1 + m) := by
      rw [← e]
      calc z * 10 ^ 9 ≤ ((ds.sum : ℝ) / ds.length / 10 ^ 9 * kappaFine ^ (3 + ds.length)) * 10 ^ 9 := by gcongr
        _ ≤ ((ds.sum : ℝ) / ds.length / 10 ^ 9 * (1 + m)) * 10 ^ 9 := by gcongr
        _ = _ := by ring
    have g2 : meanTime ds ≤ z * 10 ^ 9 * (1 + m) := by
      rw [← e]
      calc (ds.sum : ℝ) / ds.length / 10 ^ 9 * 10 ^ 9 ≤ (z * kappaFine ^ (3 + ds.length)) * 10 ^ 9 := by gcongr
        _ ≤ (z * (1 + m)) * 10 ^ 9 := by gcongr
        _ = _ := by ring
    have hμ := meanTime_nonneg ds
    have hZ : 0 ≤ z * 10 ^ 9 := by positivity
    generalize z * 10 ^ 9 = Z at *
    rw [abs_le]
    constructor
    · -- μ ≤ Z (1 + m), hence Z ≥ μ (1 - m)
      by_contra hc
      push Not at hc
      have : Z < meanTime ds * (1 - m) := by linarith
      have : Z * (1 + m) < meanTime ds * (1 - m) * (1 + m) := mul_lt_mul_of_pos_right this (by linarith)
      nlinarith [mul_nonneg hμ (sq_nonneg m)]
    · linarith
  · have : meanTime ds = 0 := by rw [← e, h0, zero_mul]
    rw [this]
    simp

/-- **C48** (shipped arithmetic): for at most 2^31 threads the reported time of a pass differs from the mean of the threads' times
by at most half a nanosecond plus `threads + 3` parts in 2^51 of it. -/
theorem C48_mean_shipped (log2 : F → F) (powi : F → ℕ → F) (powf : F → F → F) (tol : F) (ds : List Duration) (hne : ds ≠ [])
    (hlen : ds.length ≤ 2 ^ 31) (hp : ∀ d ∈ ds, PlausibleTime d) :
    ∃ x : ℕ, passTime (binary64Env log2 powi powf tol) ds = .ok x ∧
      |(x : ℝ) - meanTime ds| ≤ 1 / 2 + meanTime ds * ((ds.length + 3) / 2 ^ 51) := by
  obtain ⟨z, hz, z0, he⟩ := shipped_elapsed log2 powi powf tol ds hne hlen hp
  unfold passTime
  rw [hz]
  have hmean := plausible_mean ds hp
  refine fromSecs_near z0 he ?_ hmean
  refine (mul_le_of_le_one_right (meanTime_nonneg ds) ?_).trans hmean
  rw [div_le_one (by norm_num)]
  have : ds.length + 3 ≤ 2 ^ 51 := by omega
  exact_mod_cast this

/-- **C48** (bounds, shipped arithmetic): if every thread took between `lo` and `hi`, so did the pass: for any durations and numbers
of threads with `(threads + 3) * hi < 2^50` (a thousand threads running for 18 minutes each, or eight threads running for a day). -/
theorem C48_between (log2 : F → F) (powi : F → ℕ → F) (powf : F → F → F) (tol : F) (ds : List Duration) (hne : ds ≠ [])
    (lo hi : Duration) (h : ∀ d ∈ ds, lo ≤ d ∧ d ≤ hi) (hsmall : (ds.length + 3) * hi < 2 ^ 50) (hlen : ds.length ≤ 2 ^ 31) :
    ∃ x : ℕ, passTime (binary64Env log2 powi powf tol) ds = .ok x ∧ lo ≤ x ∧ x ≤ hi := by
  have hhi : hi < 2 ^ 50 := lt_of_le_of_lt (Nat.le_mul_of_pos_left hi (by omega)) hsmall
  have hp : ∀ d ∈ ds, PlausibleTime d := by
    intro d hd
    have := (h d hd).2
    show d / 10 ^ 9 < 2 ^ 53
    exact lt_of_le_of_lt (Nat.div_le_self _ _) (lt_of_le_of_lt this (hhi.trans (by norm_num)))
  obtain ⟨x, hx, he⟩ := C48_mean_shipped log2 powi powf tol ds hne hlen hp
  obtain ⟨b1, b2⟩ := meanTime_bounds ds hne lo hi h
  have hμ := meanTime_nonneg ds
  have hlt : meanTime ds * ((ds.length + 3) / 2 ^ 51) < 1 / 2 := by
    have c : (((ds.length + 3) * hi : ℕ) : ℝ) < ((2 ^ 50 : ℕ) : ℝ) := by exact_mod_cast hsmall
    have c50 : ((2 ^ 50 : ℕ) : ℝ) = 2 ^ 51 / 2 := by norm_num
    rw [c50] at c
    push_cast at c
    have p51 : (0:ℝ) < 2 ^ 51 := by positivity
    rw [mul_div_assoc', div_lt_iff₀ p51]
    have : meanTime ds * (ds.length + 3) ≤ (ds.length + 3) * hi := by
      rw [mul_comm]; gcongr
    linarith
  rw [abs_le] at he
  refine ⟨x, hx, ?_, ?_⟩
  · have : (lo : ℝ) < x + 1 := by linarith [he.1]
    have : lo < x + 1 := by exact_mod_cast this
    exact Nat.lt_succ_iff.1 this
  · have : (x : ℝ) < hi + 1 := by linarith [he.2]
    have : x < hi + 1 := by exact_mod_cast this
    exact Nat.lt_succ_iff.1 this

/-- **C48** (one thread, shipped arithmetic): the time of the pass is the time of the thread, if that is less than three days. -/
theorem C48_single_thread (log2 : F → F) (powi : F → ℕ → F) (powf : F → F → F) (tol : F) (d : Duration) (hd : d < 2 ^ 48) :
    passTime (binary64Env log2 powi powf tol) [d] = .ok d := by
  obtain ⟨x, hx, h1, h2⟩ := C48_between log2 powi powf tol [d] (by simp) d d (by simp) (by
    have h4 : 4 * d < 4 * 2 ^ 48 := Nat.mul_lt_mul_of_pos_left hd (by norm_num)
    exact h4.trans_eq (by norm_num)) (by simp)
  rw [hx, Nat.le_antisymm h2 h1]

/-- **C81** (time per element, shipped arithmetic): the duration shown per element is the elapsed time over the number of elements,
up to half a nanosecond and 3 parts in 2^51. -/
theorem C81_time_per_element_shipped (log2 : F → F) (powi : F → ℕ → F) (powf : F → F → F) (tol : F) (d : Duration) (hd : PlausibleTime d)
    (n : ℕ) (hn : 1 ≤ n) (hn' : n ≤ 2 ^ 32) :
    ∃ x : ℕ, timePerElement (binary64Env log2 powi powf tol) d n = .ok x ∧
      |(x : ℝ) - (d : ℝ) / n| ≤ 1 / 2 + (d : ℝ) / n * (3 / 2 ^ 51) := by
  obtain ⟨t, A⟩ := fine_acc
  obtain ⟨z, hz, hzn⟩ := thread_near A hd hn hn'
  have hz' : (binary64Env log2 powi powf tol).div (asSecsF64 (binary64Env log2 powi powf tol) d)
      ((binary64Env log2 powi powf tol).ofNat n) = fin z := hz
  unfold timePerElement
  rw [hz']
  have hnpos : (0:ℝ) < n := by exact_mod_cast hn
  have hμ : (0:ℝ) ≤ (d : ℝ) / n := by positivity
  have hd' : (d : ℝ) / n ≤ 2 ^ 53 * 10 ^ 9 := by
    refine (div_le_self (Nat.cast_nonneg _) (by exact_mod_cast hn)).trans ?_
    have h1 : d / 10 ^ 9 < 2 ^ 53 := hd
    have h2 := ((Nat.div_lt_iff_lt_mul (show 0 < 10 ^ 9 by norm_num)).1 h1).le
    have h3 : (d : ℝ) ≤ ((2 ^ 53 * 10 ^ 9 : ℕ) : ℝ) := by exact_mod_cast h2
    refine h3.trans (le_of_eq ?_)
    norm_num
  have key : 0 ≤ z ∧ |z * 10 ^ 9 - (d : ℝ) / n| ≤ (d : ℝ) / n * (3 / 2 ^ 51) := by
    have e : (d : ℝ) / n / 10 ^ 9 * 10 ^ 9 = (d : ℝ) / n := div_mul_cancel₀ _ (by norm_num)
    rcases hzn with ⟨⟨z0, u0, h1, h2⟩, -⟩ | ⟨rfl, h0⟩
    · refine ⟨z0.le, ?_⟩
      have hk := kappaFine_pow (m := 3) (by norm_num)
      have g1 : z * 10 ^ 9 ≤ (d : ℝ) / n * (1 + 3 / 2 ^ 51) := by
        calc z * 10 ^ 9 ≤ ((d : ℝ) / n / 10 ^ 9 * kappaFine ^ 3) * 10 ^ 9 := by gcongr
          _ = ((d : ℝ) / n / 10 ^ 9 * 10 ^ 9) * kappaFine ^ 3 := by ring
          _ ≤ _ := by rw [e]; exact mul_le_mul_of_nonneg_left (hk.trans (by norm_num)) hμ
      have g2 : (d : ℝ) / n ≤ z * 10 ^ 9 * (1 + 3 / 2 ^ 51) := by
        calc (d : ℝ) / n = (d : ℝ) / n / 10 ^ 9 * 10 ^ 9 := e.symm
          _ ≤ (z * kappaFine ^ 3) * 10 ^ 9 := by gcongr
          _ = z * 10 ^ 9 * kappaFine ^ 3 := by ring
          _ ≤ _ := mul_le_mul_of_nonneg_left (hk.trans (by norm_num)) (by positivity)
      have hZ : 0 ≤ z * 10 ^ 9 := by positivity
      generalize z * 10 ^ 9 = Z at *
      generalize (d : ℝ) / n = μ at *
      rw [abs_le]
      constructor
      · by_contra hc
        push Not at hc
        have h3 : Z < μ * (1 - 3 / 2 ^ 51) := by linarith
        have h4 : Z * (1 + 3 / 2 ^ 51) < μ * (1 - 3 / 2 ^ 51) * (1 + 3 / 2 ^ 51) := mul_lt_mul_of_pos_right h3 (by norm_num)
        have h5 : μ * (1 - 3 / 2 ^ 51) * (1 + 3 / 2 ^ 51) ≤ μ := by
          rw [mul_assoc]; exact mul_le_of_le_one_right hμ (by norm_num)
        linarith
      · linarith
    · have h1 : (d : ℝ) / n = 0 := by rw [← e, h0, zero_mul]
      rw [h1]; simp
  exact fromSecs_near key.1 key.2 ((mul_le_of_le_one_right hμ (by norm_num)).trans hd') hd'

/-! ## Concrete cases -/

-- three threads, exactly 21 nanoseconds on average
example (t : ℝ) : passTime (exactEnv t) [10, 20, 33] = .ok 21 := by
  unfold passTime
  rw [ex_elapsed t _ (by decide)]
  show (if _ then _ else _) = _
  rw [if_pos (by norm_num)]
  congr 1
  exact halfEven_eq (by norm_num) (by norm_num)
-- an exact half goes to the even nanosecond
example (t : ℝ) : passTime (exactEnv t) [10, 11] = .ok 10 := by
  unfold passTime
  rw [ex_elapsed t _ (by decide)]
  show (if _ then _ else _) = _
  rw [if_pos (by norm_num)]
  congr 1
  have e : (([10, 11].sum : ℕ) : ℝ) / ([10, 11].length : ℕ) / 10 ^ 9 * 10 ^ 9 = 10 + 1 / 2 := by norm_num
  have f : ⌊(10:ℝ) + 1 / 2⌋₊ = 10 := by rw [Nat.floor_eq_iff (by norm_num)]; norm_num
  rw [e]
  unfold halfEven
  rw [f, if_neg (by norm_num), if_neg (by norm_num), if_pos (by decide)]
-- two threads, one and two seconds: exactly one second and a half in f64
example (log2 : F → F) (powi : F → ℕ → F) (powf : F → F → F) (tol : F) :
    ∃ x : ℕ, passTime (binary64Env log2 powi powf tol) [1000000000, 2000000000] = .ok x ∧ 1000000000 ≤ x ∧ x ≤ 2000000000 :=
  C48_between log2 powi powf tol _ (by simp) _ _ (by simp) (by simp) (by simp)

end BigO
