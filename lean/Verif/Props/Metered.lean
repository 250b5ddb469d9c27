import Verif.Props.MeteredAll

/-!
# C108: from heap calls and clock readings to the outcome of whole tests

Only what happens in the run matters (C109), so the conditions are about the histories that are part of it.
-/
namespace BigO

/-- **C108** (a pass): what is measured of a pass is the time it took, and bytes of live blocks: those live before and after it, and the
extremes; so the bytes it is found to use are those it needs. -/
theorem C108_pass {α : Type} {p : Profile} {N : Nat} (hN : 0 < N) (hN32 : N < 2 ^ 32) (before : List AllocEv) (d : Deed) (r : α)
    (h : OrdinaryDoing p N ⟨before, d⟩) :
    ∃ m, meter p N before (.ok (d, r)) = .ok (⟨d.time, m⟩, r) ∧ PlausibleReading m ∧ bytesUsed m = heapNeed before d.heap ∧
      m.usedBefore = (liveBlocks [] before).sum ∧ m.usedAfter = (liveBlocks [] (before ++ d.heap)).sum :=
  metered_pass hN hN32 before d r h

/-! ## histories of a run -/

open Classical in
/-- `h` if it is part of the run -/
noncomputable def inRun {ε : Type} (tr t h : List ε) : List ε := if h <+: tr then h else t

theorem inRun_prefix {ε : Type} {tr t : List ε} (ht : t <+: tr) (h : List ε) : inRun tr t h <+: tr := by
  unfold inRun; split_ifs with hh
  · exact hh
  · exact ht

theorem inRun_eq {ε : Type} {tr t h : List ε} (hh : h <+: tr) : inRun tr t h = h := by unfold inRun; rw [if_pos hh]

/-! ## regular algorithms -/

section regular
variable {log2 : F → F} {powi : F → ℕ → F} {powf : F → F → F} (H : AccurateLibrary log2 powi) {tol : ℝ}
  (ht : tol = 1 / 10 ∨ tol = 1 / 4) {N : Nat} (hN : 0 < N) (hN32 : N < 2 ^ 32)
  (env : RegEnv) (hE : env.f64 = shippedEnv log2 powi powf tol) (before : List RegEv → List AllocEv)
  (doing : List RegEv → RegCall → Rs (Deed × Nat)) (cfg : RegCfg)
  (hn : SaneSizes cfg.n1 cfg.n2) (hl : LimitCovered powf cfg.n1 cfg.n2 (some cfg.tmax)) (hs : LimitCovered powf cfg.n1 cfg.n2 (some cfg.smax))
  (t : List RegEv) (hrun : ∀ h c, h <+: (testAlgorithm env cfg t).2 → env.run h c = meter env.profile N (before h) (doing h c))
  (hord : ∀ h c d r, h <+: (testAlgorithm env cfg t).2 → doing h c = .ok (d, r) → OrdinaryDoing env.profile N ⟨before h, d⟩)

/-- closures that do, at any time, what they do at some time of the run -/
noncomputable def RegEnv.clamp (env : RegEnv) (cfg : RegCfg) (t : List RegEv) : RegEnv :=
  { env with run := fun h c => env.run (inRun (testAlgorithm env cfg t).2 t h) c }

theorem clamp_regular : testAlgorithm (env.clamp cfg t) cfg t = testAlgorithm env cfg t :=
  C109_regular env cfg t _ fun pre c r _ he => by
    rw [inRun_eq ((List.prefix_append _ _).trans he)]

theorem reg_start : t <+: (testAlgorithm env cfg t).2 := (testAlgorithm_local env env.run cfg t).1

include H ht hN hN32 hE hrun hord hn hl hs

/-- **C108** (regular algorithms, accepted): if the closures do not panic, and the times they take and the bytes they need in any two passes
conform to the limits with a margin of one part in 2^40, then the test succeeds after one round, whatever else the process does with
the heap. -/
theorem C108_regular_accepts (hn32 : cfg.n2 < 2 ^ 32) (hok : ∀ h c, h <+: (testAlgorithm env cfg t).2 → ∃ d r, doing h c = .ok (d, r))
    (hgood : ∀ h1 h2 d1 d2 r1 r2, h1 <+: (testAlgorithm env cfg t).2 → h2 <+: (testAlgorithm env cfg t).2 →
      doing h1 .pass1 = .ok (d1, r1) → doing h2 .pass2 = .ok (d2, r2) → Doing.Noticeable ⟨before h1, d1⟩ ∧
      DoConform tol abitMore cfg.n1 cfg.n2 (some cfg.tmax) (some cfg.smax) ⟨before h1, d1⟩ ⟨before h2, d2⟩) :
    (testAlgorithm env cfg t).1 = .ok () ∧
      ∃ (a : Attempt) (ext : List RegEv), (testAlgorithm env cfg t).2 = t ++ ext ∧ regCallsOf ext = a.calls := by
  have hp := inRun_prefix (reg_start env cfg t)
  have := metered_regular_accepts H ht hN hN32 (env.clamp cfg t) hE (fun h => before (inRun (testAlgorithm env cfg t).2 t h))
    (fun h c => doing (inRun (testAlgorithm env cfg t).2 t h) c) (fun h c => hrun _ _ (hp h)) (fun h c d r => hord _ _ _ _ (hp h)) cfg hn hl hs t hn32
    (fun h c => hok _ _ (hp h)) (fun h1 h2 d1 d2 r1 r2 => hgood _ _ _ _ _ _ (hp h1) (hp h2))
  rw [clamp_regular] at this
  exact this

/-- **C108** (regular algorithms, rejected): if the times taken and the bytes needed in two passes never conform to the limits, not even if
one part in 2^40 is forgiven, then the test fails, whatever happens and however often it retries. -/
theorem C108_regular_rejects
    (hbad : ∀ h1 h2 d1 d2 r1 r2, h1 <+: (testAlgorithm env cfg t).2 → h2 <+: (testAlgorithm env cfg t).2 →
      doing h1 .pass1 = .ok (d1, r1) → doing h2 .pass2 = .ok (d2, r2) → Doing.Noticeable ⟨before h1, d1⟩ ∧
      ¬ DoConform tol abitLess cfg.n1 cfg.n2 (some cfg.tmax) (some cfg.smax) ⟨before h1, d1⟩ ⟨before h2, d2⟩) :
    ∃ e, (testAlgorithm env cfg t).1 = .error e := by
  have hp := inRun_prefix (reg_start env cfg t)
  have := metered_regular_rejects H ht hN hN32 (env.clamp cfg t) hE (fun h => before (inRun (testAlgorithm env cfg t).2 t h))
    (fun h c => doing (inRun (testAlgorithm env cfg t).2 t h) c) (fun h c => hrun _ _ (hp h)) (fun h c d r => hord _ _ _ _ (hp h)) cfg hn hl hs t
    (fun h1 h2 d1 d2 r1 r2 => hbad _ _ _ _ _ _ (hp h1) (hp h2))
  rw [clamp_regular] at this
  exact this

/-- **C108** (regular algorithms, soundness): if the test succeeds, then there were two passes in it whose times and bytes conform to the
limits (up to one part in 2^40), provided the first one took some time and some bytes. -/
theorem C108_regular_sound (h : (testAlgorithm env cfg t).1 = .ok ()) :
    ∃ h1 h2 d1 d2 r1 r2, h1 <+: (testAlgorithm env cfg t).2 ∧ h2 <+: (testAlgorithm env cfg t).2 ∧
      doing h1 .pass1 = .ok (d1, r1) ∧ doing h2 .pass2 = .ok (d2, r2) ∧
      (Doing.Noticeable ⟨before h1, d1⟩ →
        DoConform tol abitLess cfg.n1 cfg.n2 (some cfg.tmax) (some cfg.smax) ⟨before h1, d1⟩ ⟨before h2, d2⟩) := by
  have hp := inRun_prefix (reg_start env cfg t)
  obtain ⟨h1, h2, d1, d2, r1, r2, g⟩ := metered_regular_sound H ht hN hN32 (env.clamp cfg t) hE (fun h => before (inRun (testAlgorithm env cfg t).2 t h))
    (fun h c => doing (inRun (testAlgorithm env cfg t).2 t h) c) (fun h c => hrun _ _ (hp h)) (fun h c d r => hord _ _ _ _ (hp h)) cfg hn hl hs t
    (by rw [clamp_regular]; exact h)
  exact ⟨_, _, d1, d2, r1, r2, hp h1, hp h2, g⟩

end regular

/-! ## asynchronous algorithms -/

section async
variable {D B : Type} {log2 : F → F} {powi : F → ℕ → F} {powf : F → F → F} (H : AccurateLibrary log2 powi) {tol : ℝ}
  (ht : tol = 1 / 10 ∨ tol = 1 / 4) {N : Nat} (hN : 0 < N) (hN32 : N < 2 ^ 32)
  (env : AEnv) (hE : env.f64 = shippedEnv log2 powi powf tol) (before : List (AEv D) → List AllocEv)
  (doing : AStep → List (AEv D) → Option D → Rs (Deed × D)) (b : Builder D B)
  (hn : SaneSizes b.n1 b.n2) (hl : LimitCovered powf b.n1 b.n2 b.tmax) (hs : LimitCovered powf b.n1 b.n2 b.smax)
  (t : List (AEv D))
  (hrun : ∀ s f, b.fn s = some f → ∀ h i, h <+: (testAsync env b t).2 → f h i = meter env.profile N (before h) (doing s h i))
  (hord : ∀ s h i d r, h <+: (testAsync env b t).2 → doing s h i = .ok (d, r) → OrdinaryDoing env.profile N ⟨before h, d⟩)

/-- closures that do, at any time, what they do at some time of the run -/
noncomputable def Builder.clamp (b : Builder D B) (env : AEnv) (t : List (AEv D)) : Builder D B :=
  { b with
    resetFn := b.resetFn.map fun f h => f (inRun (testAsync env b t).2 t h)
    warmupFn := b.warmupFn.map fun f h => f (inRun (testAsync env b t).2 t h)
    fn1 := b.fn1.map fun f h => f (inRun (testAsync env b t).2 t h)
    fn2 := b.fn2.map fun f h => f (inRun (testAsync env b t).2 t h)
    check1 := b.check1.map fun c h => c (inRun (testAsync env b t).2 t h)
    check2 := b.check2.map fun c h => c (inRun (testAsync env b t).2 t h) }

theorem clamp_fn (s : AStep) : (b.clamp env t).fn s = (b.fn s).map fun f h => f (inRun (testAsync env b t).2 t h) := by cases s <;> rfl

theorem clamp_check (second : Bool) : (b.clamp env t).checkOf second = (b.checkOf second).map fun c h => c (inRun (testAsync env b t).2 t h) := by
  cases second <;> rfl

theorem clamp_async : testAsync env (b.clamp env t) t = testAsync env b t := by
  refine C109_async env b (b.clamp env t) ⟨rfl, rfl, rfl, rfl, rfl, rfl, ?_, ?_, ?_, ?_, ?_, ?_⟩ t ?_ ?_
  · exact Option.isSome_map ..
  · exact Option.isSome_map ..
  · exact Option.isSome_map ..
  · exact Option.isSome_map ..
  · exact Option.isSome_map ..
  · exact Option.isSome_map ..
  · intro pre s i r f f' _ he hf hf'
    rw [clamp_fn, hf] at hf'
    cases hf'
    exact congrArg (fun h => f h i) (inRun_eq ((List.prefix_append _ _).trans he))
  · intro pre second d r c c' _ he hc hc'
    rw [clamp_check, hc] at hc'
    cases hc'
    exact congrArg (fun h => c h d) (inRun_eq ((List.prefix_append _ _).trans he))

theorem clamp_follows {a : ARound D} (h : a.Follows (b.clamp env t)) : a.Follows b := by
  have e1 : (b.clamp env t).resetFn.isSome = b.resetFn.isSome := Option.isSome_map ..
  have e2 : (b.clamp env t).warmupFn.isSome = b.warmupFn.isSome := Option.isSome_map ..
  have e3 : (b.clamp env t).check1.isSome = b.check1.isSome := Option.isSome_map ..
  have e4 : (b.clamp env t).check2.isSome = b.check2.isSome := Option.isSome_map ..
  unfold ARound.Follows plan prelude passesPlan at h ⊢
  rw [e1, e2, e3, e4] at h
  exact h

theorem async_start : t <+: (testAsync env b t).2 :=
  (testAsync_local env (b' := b) ⟨rfl, rfl, rfl, rfl, rfl, rfl, rfl, rfl, rfl, rfl, rfl, rfl⟩ t).1

include hrun in
theorem clamp_runs (hp : ∀ h, inRun (testAsync env b t).2 t h <+: (testAsync env b t).2) (s : AStep) (f : AFn D) (hf : (b.clamp env t).fn s = some f)
    (h : List (AEv D)) (i : Option D) : f h i = meter env.profile N (before (inRun (testAsync env b t).2 t h)) (doing s (inRun (testAsync env b t).2 t h) i) := by
  rw [clamp_fn] at hf
  obtain ⟨g, hg, rfl⟩ := Option.map_eq_some_iff.1 hf
  exact hrun s g hg _ i (hp h)

include H ht hN hN32 hE hrun hord hn hl hs

/-- **C108** (asynchronous algorithms, accepted): if both passes are set, the closures do not panic, the assertions hold, and the times taken
and bytes needed in any two passes conform to the limits with a margin of one part in 2^40, then the test succeeds after one attempt. -/
theorem C108_async_accepts (hn32 : b.n2 < 2 ^ 32) (h1 : b.fn1.isSome) (h2 : b.fn2.isSome)
    (hok : ∀ s h i, h <+: (testAsync env b t).2 → ∃ d r, doing s h i = .ok (d, r))
    (hchk : ∀ c, (b.check1 = some c ∨ b.check2 = some c) → ∀ h d, h <+: (testAsync env b t).2 → c h d = .ok ())
    (hgood : ∀ h1 h2 i1 i2 d1 d2 r1 r2, h1 <+: (testAsync env b t).2 → h2 <+: (testAsync env b t).2 →
      doing .pass1 h1 i1 = .ok (d1, r1) → doing .pass2 h2 i2 = .ok (d2, r2) →
      Doing.Noticeable ⟨before h1, d1⟩ ∧ DoConform tol abitMore b.n1 b.n2 b.tmax b.smax ⟨before h1, d1⟩ ⟨before h2, d2⟩) :
    (testAsync env b t).1 = .ok () ∧
      ∃ (a : ARound D) (ext : List (AEv D)), (testAsync env b t).2 = t ++ ext ∧ a.Follows b ∧ actsOf ext = a.acts := by
  have hp := inRun_prefix (async_start env b t)
  obtain ⟨g1, a, ext, g2, g3, g4⟩ := metered_async_accepts H ht hN hN32 env hE (fun h => before (inRun (testAsync env b t).2 t h))
    (fun s h i => doing s (inRun (testAsync env b t).2 t h) i) (b.clamp env t) (clamp_runs env before doing b t hrun hp)
    (fun s h i d r => hord _ _ _ _ _ (hp h)) hn hl hs t hn32 ((Option.isSome_map ..).trans h1) ((Option.isSome_map ..).trans h2)
    (fun s h i => hok s _ i (hp h)) (fun c hc h d => by
      rcases hc with hc | hc
      · obtain ⟨c', hc', rfl⟩ := Option.map_eq_some_iff.1 hc
        exact hchk c' (Or.inl hc') _ d (hp h)
      · obtain ⟨c', hc', rfl⟩ := Option.map_eq_some_iff.1 hc
        exact hchk c' (Or.inr hc') _ d (hp h))
    (fun h1 h2 i1 i2 d1 d2 r1 r2 => hgood _ _ _ _ _ _ _ _ (hp h1) (hp h2))
  rw [clamp_async] at g1 g2
  exact ⟨g1, a, ext, g2, clamp_follows env b t g3, g4⟩

/-- **C108** (asynchronous algorithms, rejected): if the times taken and the bytes needed in two passes never conform to the limits that are
set, not even if one part in 2^40 is forgiven, then the test fails. -/
theorem C108_async_rejects
    (hbad : ∀ h1 h2 i1 i2 d1 d2 r1 r2, h1 <+: (testAsync env b t).2 → h2 <+: (testAsync env b t).2 →
      doing .pass1 h1 i1 = .ok (d1, r1) → doing .pass2 h2 i2 = .ok (d2, r2) →
      Doing.Noticeable ⟨before h1, d1⟩ ∧ ¬ DoConform tol abitLess b.n1 b.n2 b.tmax b.smax ⟨before h1, d1⟩ ⟨before h2, d2⟩) :
    ∃ e, (testAsync env b t).1 = .error e := by
  have hp := inRun_prefix (async_start env b t)
  have := metered_async_rejects H ht hN hN32 env hE (fun h => before (inRun (testAsync env b t).2 t h))
    (fun s h i => doing s (inRun (testAsync env b t).2 t h) i) (b.clamp env t) (clamp_runs env before doing b t hrun hp)
    (fun s h i d r => hord _ _ _ _ _ (hp h)) hn hl hs t
    (fun h1 h2 i1 i2 d1 d2 r1 r2 => hbad _ _ _ _ _ _ _ _ (hp h1) (hp h2))
  rw [clamp_async] at this
  exact this

/-- **C108** (asynchronous algorithms, soundness): if the test succeeds, then there were two passes in it whose times and bytes conform to
the limits that are set (up to one part in 2^40), provided the first one took some time and some bytes. -/
theorem C108_async_sound (h : (testAsync env b t).1 = .ok ()) :
    ∃ h1 h2 i1 i2 d1 d2 r1 r2, h1 <+: (testAsync env b t).2 ∧ h2 <+: (testAsync env b t).2 ∧
      doing .pass1 h1 i1 = .ok (d1, r1) ∧ doing .pass2 h2 i2 = .ok (d2, r2) ∧
      (Doing.Noticeable ⟨before h1, d1⟩ →
        DoConform tol abitLess b.n1 b.n2 b.tmax b.smax ⟨before h1, d1⟩ ⟨before h2, d2⟩) := by
  have hp := inRun_prefix (async_start env b t)
  obtain ⟨h1, h2, i1, i2, d1, d2, r1, r2, g⟩ := metered_async_sound H ht hN hN32 env hE (fun h => before (inRun (testAsync env b t).2 t h))
    (fun s h i => doing s (inRun (testAsync env b t).2 t h) i) (b.clamp env t) (clamp_runs env before doing b t hrun hp)
    (fun s h i d r => hord _ _ _ _ _ (hp h)) hn hl hs t (by rw [clamp_async]; exact h)
  exact ⟨_, _, i1, i2, d1, d2, r1, r2, hp h1, hp h2, g⟩

end async

/-! ## CRUD algorithms -/

section crud
variable {log2 : F → F} {powi : F → ℕ → F} {powf : F → F → F} (H : AccurateLibrary log2 powi) {tol : ℝ}
  (ht : tol = 1 / 10 ∨ tol = 1 / 4) {N : Nat} (hN : 0 < N) (hN32 : N < 2 ^ 32)
  (env : CrudEnv) (hE : env.f64 = shippedEnv log2 powi powf tol) (before : List Ev → List AllocEv)
  (doing : List Ev → Phase → Op → Nat → Nat → Nat → Rs (Deed × Nat)) (cfg : CrudCfg) (max : ℕ) (hmax : 1 ≤ max) (t : List Ev)
  (hrun : ∀ h ph op x y th, h <+: (testCrud env cfg max t).2 → env.measure h ph op x y th = meter env.profile N (before h) (doing h ph op x y th))
  (hord : ∀ h ph op x y th d r, h <+: (testCrud env cfg max t).2 → doing h ph op x y th = .ok (d, r) → OrdinaryDoing env.profile N ⟨before h, d⟩)

/-- closures that do, at any time, what they do at some time of the run -/
noncomputable def CrudEnv.clamp (env : CrudEnv) (cfg : CrudCfg) (max : ℕ) (t : List Ev) : CrudEnv :=
  env.withClosures (fun h => env.measure (inRun (testCrud env cfg max t).2 t h)) env.warmupTime
    (fun h => env.resetFn (inRun (testCrud env cfg max t).2 t h))

theorem clamp_crud : testCrud (env.clamp cfg max t) cfg max t = testCrud env cfg max t := by
  refine C109_crud env cfg t _ _ _ max ?_ ?_ fun _ _ _ _ => rfl
  · intro pre ph op a b th _ he
    rw [inRun_eq ((List.prefix_append _ _).trans he)]
  · intro pre n _ he
    rw [inRun_eq ((List.prefix_append _ _).trans he)]

theorem crud_start : t <+: (testCrud env cfg max t).2 :=
  (testLoop_local env env.measure env.warmupTime env.resetFn cfg max max 0 [] t).1

theorem canDo_clamp {tr : List Ev} (hp : ∀ h, inRun tr t h <+: tr) {cfg' : CrudCfg} {op : Op} {x1 x2 : Doing}
    (h : CanDo (fun _ => True) (fun h => before (inRun tr t h)) (fun h => doing (inRun tr t h)) cfg' op x1 x2) :
    CanDo (· <+: tr) before doing cfg' op x1 x2 := by
  obtain ⟨⟨t1, r1, -, a1, b1⟩, ⟨t2, r2, -, a2, b2⟩⟩ := h
  exact ⟨⟨_, r1, hp t1, a1, b1⟩, ⟨_, r2, hp t2, a2, b2⟩⟩

include H ht hN hN32 hE hrun hord hmax

/-- **C108** (CRUD algorithms, accepted): if the closures and the reset do not panic, and the times taken and the bytes needed in any two
passes of every requested operation conform to its limits with a margin of one part in 2^40, then the test succeeds. -/
theorem C108_crud_accepts (hf : Fits cfg) (hs : ∀ op, 0 < (cfg.op op).iters → SaneOp powf cfg op)
    (hreset : ∀ h n, h <+: (testCrud env cfg max t).2 → env.resetFn h n = .ok ())
    (hok : ∀ h ph op x y th, h <+: (testCrud env cfg max t).2 → ∃ d r, doing h ph op x y th = .ok (d, r))
    (hgood : ∀ op, 0 < (cfg.op op).iters → ∀ x1 x2, CanDo (· <+: (testCrud env cfg max t).2) before doing cfg op x1 x2 →
      x1.Noticeable ∧ OpDoConform tol abitMore cfg op x1 x2) :
    (testCrud env cfg max t).1 = .ok () := by
  have hp := inRun_prefix (crud_start env cfg max t)
  have := metered_crud_accepts H ht hN hN32 (env.clamp cfg max t) hE (fun h => before (inRun (testCrud env cfg max t).2 t h))
    (fun h => doing (inRun (testCrud env cfg max t).2 t h)) (fun h _ _ _ _ _ => hrun _ _ _ _ _ _ (hp h))
    (fun h _ _ _ _ _ _ _ => hord _ _ _ _ _ _ _ _ (hp h)) cfg hf hs max hmax t (fun h n => hreset _ n (hp h))
    (fun h _ _ _ _ _ => hok _ _ _ _ _ _ (hp h)) (fun op hi x1 x2 hc => hgood op hi x1 x2 (canDo_clamp before doing t hp hc))
  rw [clamp_crud] at this
  exact this.1

/-- **C108** (CRUD algorithms, rejected): if the times taken and the bytes needed in two passes of an operation, with the requested element
counts or those of a retry, never conform to its limits, then the test fails however often it retries. -/
theorem C108_crud_rejects (hr : RoomForRetries cfg) (op : Op)
    (h30 : 30 ≤ (cfg.op op).iters) (hc30 : op = .read ∨ op = .update → 30 ≤ (cfg.op .create).iters ∧
      ∀ n, Covered powf n (2 * n) (cfg.op op).tmax ∧ Covered powf n (2 * n) (cfg.op op).smax)
    (hbad : ∀ cfg', RetryOf cfg cfg' → ∀ x1 x2, CanDo (· <+: (testCrud env cfg max t).2) before doing cfg' op x1 x2 →
      x1.Noticeable ∧ ¬ OpDoConform tol abitLess cfg' op x1 x2) :
    (testCrud env cfg max t).1 ≠ .ok () := by
  have hp := inRun_prefix (crud_start env cfg max t)
  have := metered_crud_rejects H ht hN hN32 (env.clamp cfg max t) hE (fun h => before (inRun (testCrud env cfg max t).2 t h))
    (fun h => doing (inRun (testCrud env cfg max t).2 t h)) (fun h _ _ _ _ _ => hrun _ _ _ _ _ _ (hp h))
    (fun h _ _ _ _ _ _ _ => hord _ _ _ _ _ _ _ _ (hp h)) cfg hr max hmax t op h30 hc30
    (fun cfg' h x1 x2 hc => hbad cfg' h x1 x2 (canDo_clamp before doing t hp hc))
  rw [clamp_crud] at this
  exact this

/-- **C108** (CRUD algorithms, soundness): if the test succeeds, it made an attempt in which, for every operation, there were two passes
whose times and bytes conform to its limits (up to one part in 2^40), provided the first one took some time and some bytes. -/
theorem C108_crud_sound (hr : RoomForRetries cfg) (h : (testCrud env cfg max t).1 = .ok ()) :
    ∃ k cfg', k < max ∧ RetryOf cfg cfg' ∧ ∀ op, 0 < (cfg'.op op).iters → SaneOp powf cfg' op →
      ∃ x1 x2, CanDo (· <+: (testCrud env cfg max t).2) before doing cfg' op x1 x2 ∧ (x1.Noticeable → OpDoConform tol abitLess cfg' op x1 x2) := by
  have hp := inRun_prefix (crud_start env cfg max t)
  obtain ⟨k, cfg', hk, h1, h2⟩ := metered_crud_sound H ht hN hN32 (env.clamp cfg max t) hE (fun h => before (inRun (testCrud env cfg max t).2 t h))
    (fun h => doing (inRun (testCrud env cfg max t).2 t h)) (fun h _ _ _ _ _ => hrun _ _ _ _ _ _ (hp h))
    (fun h _ _ _ _ _ _ _ => hord _ _ _ _ _ _ _ _ (hp h)) cfg hr max hmax t (by rw [clamp_crud]; exact h)
  refine ⟨k, cfg', hk, h1, fun op hi hs => ?_⟩
  obtain ⟨x1, x2, hc, g⟩ := h2 op hi hs
  exact ⟨x1, x2, canDo_clamp before doing t hp hc, g⟩

end crud
end BigO
