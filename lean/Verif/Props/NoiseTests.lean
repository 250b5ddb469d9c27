import Verif.Props.Noise

/-!
# C99: measurement noise in whole asynchronous and CRUD tests
-/
namespace BigO

/-- noise that stays below the margin keeps the growth of the measurements within the tolerance -/
theorem noisy_within {tol δ g x1 x2 u1 u2 : ℝ} (ht : 0 < tol) (hδ0 : 0 ≤ δ) (hδ : δ + 1 / 2 ^ 40 ≤ tol / (2 + tol)) (hx1 : 0 < x1) (hx2 : 0 < x2)
    (hq : x2 / x1 ≤ g) (w1 : WithinError δ x1 u1) (w2 : WithinError δ x2 u2) : u2 * abitMore / u1 < (1 + tol) * g := by
  unfold abitMore
  have hk : tol / (2 + tol) < 1 := by rw [div_lt_one (by linarith)]; linarith
  have he : (0:ℝ) < 1 / 2 ^ 40 := by positivity
  generalize (1:ℝ) / 2 ^ 40 = ε at *
  have hδ1 : δ < 1 := by linarith
  obtain ⟨hu1, -, hi⟩ := noisy_quotient hδ1 hx1 hx2 w1 w2
  have hm : (1 + δ) / (1 - δ) * (1 + ε) < 1 + tol := by
    rw [div_mul_eq_mul_div, div_lt_iff₀ (by linarith)]
    rw [le_div_iff₀ (by linarith)] at hδ
    nlinarith
  have hx : 0 < x2 / x1 := by positivity
  calc u2 * (1 + ε) / u1 = u2 / u1 * (1 + ε) := by ring
    _ ≤ (1 + δ) / (1 - δ) * (x2 / x1) * (1 + ε) := by gcongr
    _ = (1 + δ) / (1 - δ) * (1 + ε) * (x2 / x1) := by ring
    _ < (1 + tol) * (x2 / x1) := by gcongr
    _ ≤ (1 + tol) * g := by gcongr

/-- a cost that grows too much is measured to grow too much -/
theorem noisy_beyond {tol δ g x1 x2 u1 u2 : ℝ} (hδ0 : 0 ≤ δ) (hδ : δ < 1) (hx1 : 0 < x1) (hx2 : 0 < x2)
    (hq : (1 + tol) * ((1 + δ) / (1 - δ)) * g < x2 / x1 * abitLess) (w1 : WithinError δ x1 u1) (w2 : WithinError δ x2 u2) :
    (1 + tol) * g < u2 * abitLess / u1 := by
  obtain ⟨hu1, lo, -⟩ := noisy_quotient hδ hx1 hx2 w1 w2
  have hd : 0 < 1 - δ := by linarith
  have hd' : 0 < 1 + δ := by linarith
  have hless : 0 < abitLess := by unfold abitLess; norm_num
  have hfin : (1 - δ) / (1 + δ) * (x2 / x1 * abitLess) ≤ u2 * abitLess / u1 := by
    calc (1 - δ) / (1 + δ) * (x2 / x1 * abitLess) = (1 - δ) / (1 + δ) * (x2 / x1) * abitLess := by ring
      _ ≤ u2 / u1 * abitLess := by gcongr
      _ = u2 * abitLess / u1 := by ring
  refine lt_of_lt_of_le ?_ hfin
  rw [div_mul_eq_mul_div, lt_div_iff₀ hd']
  rw [mul_div_assoc', div_mul_eq_mul_div, div_lt_iff₀ hd] at hq
  linarith

theorem margin_lt_one {tol δ : ℝ} (ht : 0 < tol) (hδ : δ + 1 / 2 ^ 40 ≤ tol / (2 + tol)) : δ < 1 := by
  have hk : tol / (2 + tol) < 1 := by rw [div_lt_one (by linarith)]; linarith
  have he : (0:ℝ) < 1 / 2 ^ 40 := by positivity
  linarith

theorem NoisyPasses.comparable {δ t1 t2 s1 s2 : ℝ} {p1 p2 : PassResult → Prop} (h : NoisyPasses δ t1 t2 s1 s2 p1 p2) (hδ : δ < 1)
    {m1 m2 : PassResult} (h1 : p1 m1) (h2 : p2 m2) (r1 : PlausibleReading m1.space) (r2 : PlausibleReading m2.space)
    (d1 : PlausibleTime m1.time) (d2 : PlausibleTime m2.time) : Comparable m1 m2 :=
  comparable_of r1 r2 d1 d2 (noisy_quotient hδ h.time1 h.time2 (h.error1 _ h1).1 (h.error2 _ h2).1).1
    (noisy_quotient hδ h.space1 h.space2 (h.error1 _ h1).2 (h.error2 _ h2).2).1

theorem polynomial_of_growth {c : Complexity} {f : ℝ → ℝ} (h : growth c = some f) : c.asU32 ≤ Complexity.oN4.asU32 := by
  cases c <;> simp [growth] at h <;> simp [Complexity.asU32]

/-! ## asynchronous tests -/

section async
variable {D B : Type} {log2 : F → F} {powi : F → ℕ → F} {powf : F → F → F} (H : AccurateLibrary log2 powi) {tol : ℝ}
  (ht : tol = 1 / 10 ∨ tol = 1 / 4) (env : AEnv) (hE : env.f64 = shippedEnv log2 powi powf tol) (b : Builder D B)
  (hn : SaneSizes b.n1 b.n2)
include H ht hE hn

/-- **C99** (asynchronous tests): if time and bytes ideally grow no more than the limits' classes (of those limits that are set), and noise
stays below `tol / (2 + tol)` (minus one part in 2^40 for the arithmetic), the test succeeds at the first attempt. -/
theorem C99_async_accepted (t : List (AEv D)) (hb : ABenign b) (δ t1 t2 s1 s2 : ℝ) (hδ0 : 0 ≤ δ) (hδ : δ + 1 / 2 ^ 40 ≤ tol / (2 + tol))
    (hN : NoisyPasses δ t1 t2 s1 s2 (AsyncPass b.fn1) (AsyncPass b.fn2))
    (hT : ∀ c, b.tmax = some c → ∃ f, growth c = some f ∧ t2 / t1 ≤ grows f b.n1 b.n2)
    (hS : ∀ c, b.smax = some c → ∃ f, growth c = some f ∧ s2 / s1 ≤ grows f b.n1 b.n2) :
    (testAsync env b t).1 = .ok () ∧
      ∃ (a : ARound D) (ext : List (AEv D)), (testAsync env b t).2 = t ++ ext ∧ a.Follows b ∧ actsOf ext = a.acts := by
  have htol : 0 < tol := by rcases ht with rfl | rfl <;> norm_num
  have hδ1 := margin_lt_one htol hδ
  refine C85_async_accepts H ht env hE b hn (fun c e => Or.inl (polynomial_of_growth (hT c e).choose_spec.1))
    (fun c e => Or.inl (polynomial_of_growth (hS c e).choose_spec.1)) t hb ?_
  intro f1 f2 h1 h2 i1 i2 ⟨m1, d1⟩ ⟨m2, d2⟩ e1 e2 q1 q2
  have p1 : AsyncPass b.fn1 m1 := ⟨f1, h1, i1, d1, e1, q1⟩
  have p2 : AsyncPass b.fn2 m2 := ⟨f2, h2, i2, d2, e2, q2⟩
  obtain ⟨m1', d1', k1, r1, z1⟩ := hb.fns f1 (by simp [e1]) h1 i1
  obtain ⟨m2', d2', k2, r2, z2⟩ := hb.fns f2 (by simp [e2]) h2 i2
  rw [q1] at k1; cases k1
  rw [q2] at k2; cases k2
  refine ⟨hN.comparable hδ1 p1 p2 r1 r2 z1 z2, ?_, ?_⟩
  · intro l e
    obtain ⟨f, hf, hg⟩ := hT l e
    rw [meets_named hf]
    exact (noisy_within htol hδ0 hδ hN.time1 hN.time2 hg (hN.error1 _ p1).1 (hN.error2 _ p2).1).le
  · intro l e
    obtain ⟨f, hf, hg⟩ := hS l e
    rw [meets_named hf]
    exact (noisy_within htol hδ0 hδ hN.space1 hN.space2 hg (hN.error1 _ p1).2 (hN.error2 _ p2).2).le

/-- **C99** (asynchronous tests): if time, or bytes, ideally grows more than `(1 + tol)(1 + δ)/(1 - δ)` times as much as its limit (and one
part in 2^40), the test fails, however often it retries. -/
theorem C99_async_rejected (t : List (AEv D)) (hb : ABenign b) (hpt : LimitCovered powf b.n1 b.n2 b.tmax) (hps : LimitCovered powf b.n1 b.n2 b.smax) (δ t1 t2 s1 s2 : ℝ)
    (hδ0 : 0 ≤ δ) (hδ : δ < 1) (hN : NoisyPasses δ t1 t2 s1 s2 (AsyncPass b.fn1) (AsyncPass b.fn2)) (c : Complexity) (f : ℝ → ℝ)
    (hf : growth c = some f)
    (hbad : b.tmax = some c ∧ (1 + tol) * ((1 + δ) / (1 - δ)) * grows f b.n1 b.n2 < t2 / t1 * abitLess ∨
      b.smax = some c ∧ (1 + tol) * ((1 + δ) / (1 - δ)) * grows f b.n1 b.n2 < s2 / s1 * abitLess) :
    ∃ e, (testAsync env b t).1 = .error e := by
  refine C85_async_rejects H ht env hE b hn hpt hps t ?_
  intro f1 f2 h1 h2 i1 i2 ⟨m1, d1⟩ ⟨m2, d2⟩ e1 e2 q1 q2
  have p1 : AsyncPass b.fn1 m1 := ⟨f1, h1, i1, d1, e1, q1⟩
  have p2 : AsyncPass b.fn2 m2 := ⟨f2, h2, i2, d2, e2, q2⟩
  obtain ⟨m1', d1', k1, r1, z1⟩ := hb.fns f1 (by simp [e1]) h1 i1
  obtain ⟨m2', d2', k2, r2, z2⟩ := hb.fns f2 (by simp [e2]) h2 i2
  rw [q1] at k1; cases k1
  rw [q2] at k2; cases k2
  refine ⟨hN.comparable hδ p1 p2 r1 r2 z1 z2, fun hcon => ?_⟩
  rcases hbad with ⟨e, hg⟩ | ⟨e, hg⟩
  · have hm := hcon.time _ e
    rw [meets_named hf] at hm
    exact absurd hm (not_le.2 (noisy_beyond hδ0 hδ hN.time1 hN.time2 hg (hN.error1 _ p1).1 (hN.error2 _ p2).1))
  · have hm := hcon.space _ e
    rw [meets_named hf] at hm
    exact absurd hm (not_le.2 (noisy_beyond hδ0 hδ hN.space1 hN.space2 hg (hN.error1 _ p1).2 (hN.error2 _ p2).2))

end async

/-! ## CRUD tests -/

/-- the limit of an operation asks that a measured growth is (about) at most `1 + tol` times the ideal one -/
theorem log_growth {n : ℕ} (hn : 2 ≤ n) : 1 ≤ Real.logb 2 ((n : ℝ) * 3) / Real.logb 2 n ∧ Real.logb 2 ((n : ℝ) * 3) / Real.logb 2 n < 3 := by
  have h2 : (2:ℝ) ≤ n := by exact_mod_cast hn
  have hl : 1 ≤ Real.logb 2 (n:ℝ) := by
    rw [Real.le_logb_iff_rpow_le (by norm_num) (by linarith)]; simpa using h2
  have h3 : Real.logb 2 ((n:ℝ) * 3) = Real.logb 2 n + Real.logb 2 3 := Real.logb_mul (by linarith) (by norm_num)
  have l3 : 0 < Real.logb 2 3 := Real.logb_pos (by norm_num) (by norm_num)
  have l3' : Real.logb 2 3 < 2 := by
    rw [Real.logb_lt_iff_lt_rpow (by norm_num) (by norm_num)]; norm_num
  constructor
  · rw [le_div_iff₀ (by linarith)]; linarith
  · rw [div_lt_iff₀ (by linarith)]; linarith

section crud
variable {log2 : F → F} {powi : F → ℕ → F} {powf : F → F → F} (H : AccurateLibrary log2 powi) {tol : ℝ}
  (ht : tol = 1 / 10 ∨ tol = 1 / 4) (env : CrudEnv) (hE : env.f64 = shippedEnv log2 powi powf tol)

theorem meets_resizing {tol n u1 u2 g : ℝ} {c : Complexity} (h : u2 / u1 < (1 + tol) * g)
    (hg : c = .o1 ∧ g = 1 ∨ c = .oLogN ∧ g = Real.logb 2 (n * 3) / Real.logb 2 n ∨ c = .oN ∧ g = 3) : MeetsResizingLimit tol n u1 u2 c := by
  rcases hg with ⟨rfl, rfl⟩ | ⟨rfl, rfl⟩ | ⟨rfl, rfl⟩ <;> simp only [MeetsResizingLimit]
  · linarith
  · exact Or.inr h
  · left; linarith

theorem not_meets_resizing {tol : ℝ} {n : ℕ} {u1 u2 g : ℝ} {c : Complexity} (ht : 0 < tol) (hn : 2 ≤ n) (h : (1 + tol) * g < u2 / u1)
    (hg : c = .o1 ∧ g = 1 ∨ c = .oLogN ∧ g = Real.logb 2 ((n : ℝ) * 3) / Real.logb 2 n ∨ c = .oN ∧ g = 3) :
    ¬ MeetsResizingLimit tol n u1 u2 c := by
  obtain ⟨l1, l3⟩ := log_growth hn
  have e : 0 < 1 + tol := by linarith
  rcases hg with ⟨rfl, rfl⟩ | ⟨rfl, rfl⟩ | ⟨rfl, rfl⟩ <;> simp only [MeetsResizingLimit, not_or, not_le, not_lt]
  · linarith
  · have := mul_le_mul_of_nonneg_left l1 e.le
    exact ⟨by linarith, h.le⟩
  · have := mul_lt_mul_of_pos_left l3 e
    exact ⟨by linarith, by linarith⟩

theorem opGrowth_resizing {cfg : CrudCfg} {op : Op} (ho : op = .create ∨ op = .delete) {c : Complexity} {g : ℝ} (h : opGrowth cfg op c = some g) :
    c = .o1 ∧ g = 1 ∨ c = .oLogN ∧ g = Real.logb 2 (((cfg.op op).iters : ℝ) * 3) / Real.logb 2 (cfg.op op).iters ∨ c = .oN ∧ g = 3 := by
  rcases ho with rfl | rfl <;> cases c <;> simp [opGrowth, grows] at h ⊢ <;> exact h.symm

theorem opGrowth_constant {cfg : CrudCfg} {op : Op} (ho : op = .read ∨ op = .update) {c : Complexity} {g : ℝ} (h : opGrowth cfg op c = some g) :
    ∃ f, growth c = some f ∧ g = grows f (cfg.op .create).iters (2 * (cfg.op .create).iters : ℕ) := by
  rcases ho with rfl | rfl <;> (simp only [opGrowth, Option.map_eq_some_iff] at h; obtain ⟨f, hf, e⟩ := h; exact ⟨f, hf, e.symm⟩)

include H ht hE in
/-- **C99** (CRUD tests): if, for every requested operation, time and bytes ideally grow between the passes no more than its limits' classes,
and noise stays below `tol / (2 + tol)` (minus one part in 2^40), the test succeeds at its first attempt. -/
theorem C99_crud_accepted (cfg : CrudCfg) (hb : BenignCrud env) (hf : Fits cfg) (hs : ∀ op, 0 < (cfg.op op).iters → SaneOp powf cfg op)
    (max : ℕ) (hmax : 1 ≤ max) (t : List Ev) (δ : ℝ) (hδ0 : 0 ≤ δ) (hδ : δ + 1 / 2 ^ 40 ≤ tol / (2 + tol))
    (hN : ∀ op, 0 < (cfg.op op).iters → ∃ t1 t2 s1 s2 gt gs, NoisyPasses δ t1 t2 s1 s2 (CrudPass env cfg op .pass1 0) (CrudPass env cfg op .pass2 1) ∧
      opGrowth cfg op (cfg.op op).tmax = some gt ∧ opGrowth cfg op (cfg.op op).smax = some gs ∧ t2 / t1 ≤ gt ∧ s2 / s1 ≤ gs) :
    (testCrud env cfg max t).1 = .ok () ∧ Accepted env cfg t 0 := by
  have htol : 0 < tol := by rcases ht with rfl | rfl <;> norm_num
  have hδ1 := margin_lt_one htol hδ
  refine C85_crud_accepts H ht env hE cfg hb hf hs max hmax t ?_
  rintro op hi m1 m2 ⟨p1, p2⟩
  obtain ⟨t1, t2, s1, s2, gt, gs, hp, ht', hs', qt, qs⟩ := hN op hi
  have p1' : CrudPass env cfg op .pass1 0 m1 := p1
  have p2' : CrudPass env cfg op .pass2 1 m2 := p2
  obtain ⟨tr1, x1, k1⟩ := p1
  obtain ⟨tr2, x2, k2⟩ := p2
  obtain ⟨m1', x1', k1', r1, z1⟩ := hb.2 tr1 .pass1 op (opRange cfg op 0).1 (opRange cfg op 0).2 (cfg.op op).threads
  obtain ⟨m2', x2', k2', r2, z2⟩ := hb.2 tr2 .pass2 op (opRange cfg op 1).1 (opRange cfg op 1).2 (cfg.op op).threads
  rw [k1] at k1'; cases k1'
  rw [k2] at k2'; cases k2'
  refine ⟨hp.comparable hδ1 p1' p2' r1 r2 z1 z2, ?_⟩
  have T := noisy_within htol hδ0 hδ hp.time1 hp.time2 qt (hp.error1 _ p1').1 (hp.error2 _ p2').1
  have S := noisy_within htol hδ0 hδ hp.space1 hp.space2 qs (hp.error1 _ p1').2 (hp.error2 _ p2').2
  have resizing : op = .create ∨ op = .delete → ConformsResizing tol abitMore (cfg.op op).iters (cfg.op op).tmax (cfg.op op).smax m1 m2 := fun ho =>
    ⟨meets_resizing T (opGrowth_resizing ho ht'), meets_resizing S (opGrowth_resizing ho hs')⟩
  have constant : op = .read ∨ op = .update → Conforms tol abitMore (cfg.op .create).iters (2 * (cfg.op .create).iters) (some (cfg.op op).tmax)
      (some (cfg.op op).smax) m1 m2 := fun ho => by
    obtain ⟨f, hf, rfl⟩ := opGrowth_constant ho ht'
    obtain ⟨g, hg, rfl⟩ := opGrowth_constant ho hs'
    exact ⟨fun l e => by cases e; rw [meets_named hf]; exact T.le, fun l e => by cases e; rw [meets_named hg]; exact S.le⟩
  cases op
  · exact resizing (Or.inl rfl)
  · exact constant (Or.inl rfl)
  · exact constant (Or.inr rfl)
  · exact resizing (Or.inr rfl)

include H ht hE in
/-- **C99** (CRUD tests): if the time, or the bytes, of one operation (of at least 30 elements) ideally grows, between its passes, more than
`(1 + tol)(1 + δ)/(1 - δ)` times as much as its limit (and one part in 2^40), with the requested counts and with those of any retry, the test
fails, however often it retries. -/
theorem C99_crud_rejected (cfg : CrudCfg) (hb : BenignCrud env) (hr : RoomForRetries cfg) (max : ℕ) (hmax : 1 ≤ max) (t : List Ev) (op : Op)
    (h30 : 30 ≤ (cfg.op op).iters) (hc30 : op = .read ∨ op = .update → 30 ≤ (cfg.op .create).iters ∧
      ∀ n, Covered powf n (2 * n) (cfg.op op).tmax ∧ Covered powf n (2 * n) (cfg.op op).smax) (δ : ℝ) (hδ0 : 0 ≤ δ) (hδ : δ < 1)
    (hN : ∀ cfg', RetryOf cfg cfg' → ∃ t1 t2 s1 s2 g, NoisyPasses δ t1 t2 s1 s2 (CrudPass env cfg' op .pass1 0) (CrudPass env cfg' op .pass2 1) ∧
      (opGrowth cfg' op (cfg.op op).tmax = some g ∧ (1 + tol) * ((1 + δ) / (1 - δ)) * g < t2 / t1 * abitLess ∨
        opGrowth cfg' op (cfg.op op).smax = some g ∧ (1 + tol) * ((1 + δ) / (1 - δ)) * g < s2 / s1 * abitLess)) :
    (testCrud env cfg max t).1 ≠ .ok () := by
  have htol : 0 < tol := by rcases ht with rfl | rfl <;> norm_num
  refine C85_crud_rejects H ht env hE cfg hr max hmax t op h30 hc30 ?_
  rintro cfg' hc m1 m2 ⟨p1, p2⟩
  obtain ⟨t1, t2, s1, s2, g, hp, hbad⟩ := hN cfg' hc
  have p1' : CrudPass env cfg' op .pass1 0 m1 := p1
  have p2' : CrudPass env cfg' op .pass2 1 m2 := p2
  obtain ⟨tr1, x1, k1⟩ := p1
  obtain ⟨tr2, x2, k2⟩ := p2
  obtain ⟨m1', x1', k1', r1, z1⟩ := hb.2 tr1 .pass1 op (opRange cfg' op 0).1 (opRange cfg' op 0).2 (cfg'.op op).threads
  obtain ⟨m2', x2', k2', r2, z2⟩ := hb.2 tr2 .pass2 op (opRange cfg' op 1).1 (opRange cfg' op 1).2 (cfg'.op op).threads
  rw [k1] at k1'; cases k1'
  rw [k2] at k2'; cases k2'
  refine ⟨hp.comparable hδ p1' p2' r1 r2 z1 z2, fun hcon => ?_⟩
  rw [← hc.tmax, ← hc.smax] at hbad
  have h2 : 2 ≤ (cfg'.op op).iters := by have := hc.atLeast op; omega
  have resizing : op = .create ∨ op = .delete → ¬ ConformsResizing tol abitLess (cfg'.op op).iters (cfg'.op op).tmax (cfg'.op op).smax m1 m2 := by
    intro ho hcon
    rcases hbad with ⟨e, hg⟩ | ⟨e, hg⟩
    · exact not_meets_resizing htol h2 (noisy_beyond hδ0 hδ hp.time1 hp.time2 hg (hp.error1 _ p1').1 (hp.error2 _ p2').1) (opGrowth_resizing ho e) hcon.time
    · exact not_meets_resizing htol h2 (noisy_beyond hδ0 hδ hp.space1 hp.space2 hg (hp.error1 _ p1').2 (hp.error2 _ p2').2) (opGrowth_resizing ho e) hcon.space
  have constant : op = .read ∨ op = .update → ¬ Conforms tol abitLess (cfg'.op .create).iters (2 * (cfg'.op .create).iters) (some (cfg'.op op).tmax)
      (some (cfg'.op op).smax) m1 m2 := by
    intro ho hcon
    rcases hbad with ⟨e, hg⟩ | ⟨e, hg⟩
    · obtain ⟨f, hf, rfl⟩ := opGrowth_constant ho e
      have hm := hcon.time _ rfl
      rw [meets_named hf] at hm
      exact absurd hm (not_le.2 (noisy_beyond hδ0 hδ hp.time1 hp.time2 hg (hp.error1 _ p1').1 (hp.error2 _ p2').1))
    · obtain ⟨f, hf, rfl⟩ := opGrowth_constant ho e
      have hm := hcon.space _ rfl
      rw [meets_named hf] at hm
      exact absurd hm (not_le.2 (noisy_beyond hδ0 hδ hp.space1 hp.space2 hg (hp.error1 _ p1').2 (hp.error2 _ p2').2))
  cases op
  · exact resizing (Or.inl rfl) hcon
  · exact constant (Or.inl rfl) hcon
  · exact constant (Or.inr rfl) hcon
  · exact resizing (Or.inr rfl) hcon

end crud

/-! ## concrete cases -/

/-- an asynchronous test of the quadratic algorithm whose second pass is measured 8% too slow -/
def noisyBuilder (tmax : Complexity) : Builder Unit Unit :=
  ⟨"noisy", none, none, none, 1000, some fun _ _ => .ok (noisyPass false, ()), none, 2000, some fun _ _ => .ok (noisyPass true, ()), none,
    some tmax, none, none, []⟩

theorem noisyBuilder_benign (c : Complexity) : ABenign (noisyBuilder c) := by
  refine ⟨?_, ?_, rfl, rfl, by norm_num [noisyBuilder], by norm_num [noisyBuilder]⟩
  · rintro f (h | h | h | h) hh i <;> cases h <;>
      exact ⟨_, _, rfl, ⟨by decide, by decide, by decide, by decide⟩, by unfold PlausibleTime; decide⟩
  · rintro c (h | h) <;> cases h

theorem noisyBuilder_noise (c : Complexity) :
    NoisyPasses (8 / 100) (1 / 1000) (4 / 1000) 100 400 (AsyncPass (noisyBuilder c).fn1) (AsyncPass (noisyBuilder c).fn2) := by
  refine ⟨by norm_num, by norm_num, by norm_num, by norm_num, ?_, ?_⟩
  · rintro m ⟨f, h, i, d, e, q⟩
    cases e; cases q
    constructor <;> simp only [WithinError, seconds, bytesUsed, noisyPass, Bool.false_eq_true, if_false] <;> norm_num [abs_le]
  · rintro m ⟨f, h, i, d, e, q⟩
    cases e; cases q
    constructor <;> simp only [WithinError, seconds, bytesUsed, noisyPass, if_true] <;> norm_num [abs_le]

example (T : TextEnv) : (testAsync ⟨.checked, shippedEnv idealLog2 idealPowi (fun x _ => x) (1 / 4), T, fun _ => ""⟩ (noisyBuilder .oN2) []).1 = .ok () :=
  (C99_async_accepted ideal_library (Or.inr rfl) _ rfl (noisyBuilder .oN2) noisy_sizes [] (noisyBuilder_benign _) (8 / 100) _ _ _ _ (by norm_num)
    (by norm_num) (noisyBuilder_noise _) (by rintro c ⟨⟩; exact ⟨_, rfl, by norm_num [grows, noisyBuilder]⟩) (by rintro c ⟨⟩)).1

example (T : TextEnv) : ∃ e, (testAsync ⟨.checked, shippedEnv idealLog2 idealPowi (fun x _ => x) (1 / 4), T, fun _ => ""⟩ (noisyBuilder .oN) []).1 = .error e :=
  C99_async_rejected ideal_library (Or.inr rfl) _ rfl (noisyBuilder .oN) noisy_sizes [] (noisyBuilder_benign _)
    (by rintro c ⟨⟩; simp [Covered, Complexity.asU32]) (by rintro c ⟨⟩) (8 / 100) _ _ _ _ (by norm_num) (by norm_num) (noisyBuilder_noise _) .oN _ rfl
    (Or.inl ⟨rfl, by unfold grows abitLess; norm_num [noisyBuilder]⟩)

theorem doubling_noise (T : TextEnv) (cfg : CrudCfg) (op : Op) :
    NoisyPasses (2 / 100) (102 / 100000) (197 / 100000) 100 200 (CrudPass (doublingEnv T) cfg op .pass1 0) (CrudPass (doublingEnv T) cfg op .pass2 1) := by
  refine ⟨by norm_num, by norm_num, by norm_num, by norm_num, ?_, ?_⟩
  · rintro m ⟨t, x, q⟩
    cases q
    constructor <;> simp only [WithinError, seconds, bytesUsed, reduceCtorEq, if_false] <;> norm_num [abs_le]
  · rintro m ⟨t, x, q⟩
    cases q
    constructor <;> simp only [WithinError, seconds, bytesUsed, if_true] <;> norm_num [abs_le]

theorem doubling_benign (T : TextEnv) : BenignCrud (doublingEnv T) := by
  refine ⟨fun _ _ => rfl, fun tr ph op a b th => ⟨_, _, rfl, ?_, ?_⟩⟩
  · cases ph <;> exact ⟨by decide, by decide, by decide, by decide⟩
  · cases ph <;> (unfold PlausibleTime; decide)

example (T : TextEnv) : (testCrud (doublingEnv T) (doublingCfg .oN) 3 []).1 = .ok () := by
  refine (C99_crud_accepted ideal_library (Or.inl rfl) (doublingEnv T) rfl (doublingCfg .oN) (doubling_benign T) (doubling_fits _).1 ?_ 3
    (by norm_num) [] (2 / 100) (by norm_num) (by norm_num) ?_).1
  · intro op h
    cases op <;> simp [SaneOp, Covered, doublingCfg, Complexity.asU32] at h ⊢
  · intro op h
    refine ⟨_, _, _, _, if op = .create then 3 else 2, if op = .create then 3 else 2, doubling_noise T _ op, ?_, ?_, ?_, ?_⟩ <;>
      cases op <;> simp [doublingCfg, opGrowth, growth, grows] at h ⊢ <;> norm_num

example (T : TextEnv) (max : ℕ) (h : 1 ≤ max) : (testCrud (doublingEnv T) (doublingCfg .o1) max []).1 ≠ .ok () := by
  refine C99_crud_rejected ideal_library (Or.inl rfl) (doublingEnv T) rfl (doublingCfg .o1) (doubling_benign T) (doubling_fits _).2 max h [] .create
    (by decide) (by rintro (h | h) <;> cases h) (2 / 100) (by norm_num) (by norm_num) ?_
  intro cfg' hr
  exact ⟨_, _, _, _, 1, doubling_noise T _ .create, Or.inl ⟨rfl, by unfold abitLess; norm_num⟩⟩

end BigO
