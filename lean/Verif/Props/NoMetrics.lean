import Verif.Spec.NoMetricsSpec
import Verif.Props.WholeTest
import Verif.Props.EndToEnd
import Verif.Proofs.AllocSub

/-!
# C107: tests of algorithms of which no memory use is seen
-/
namespace BigO

/-! ## what a pass reports -/

theorem liveTrace_quiet : ∀ (live : List Nat) (es : List AllocEv), callsOf es = [] → ∀ x ∈ liveTrace live es, x = live.sum
  | _, [], _, x, hx => by simpa [liveTrace] using hx
  | live, .savePoint :: es, h, x, hx => by
    rcases List.mem_cons.1 hx with rfl | hx
    · rfl
    · exact liveTrace_quiet live es h x hx
  | _, .call _ :: _, h, _, _ => by simp [callsOf] at h

theorem liveBlocks_quiet : ∀ (live : List Nat) (es : List AllocEv), callsOf es = [] → liveBlocks live es = live
  | _, [], _ => rfl
  | live, .savePoint :: es, h => liveBlocks_quiet live es h
  | _, .call _ :: _, h => by simp [callsOf] at h

theorem liveBlocks_then : ∀ (live : List Nat) (a b : List AllocEv), liveBlocks live (a ++ b) = liveBlocks (liveBlocks live a) b
  | _, [], _ => rfl
  | live, .savePoint :: a, b => liveBlocks_then live a b
  | live, .call c :: a, b => liveBlocks_then (liveAfter live c) a b

theorem respects_quiet : ∀ (live : List Nat) (es : List AllocEv), callsOf es = [] → Respects live es
  | _, [], _ => trivial
  | live, .savePoint :: es, h => respects_quiet live es h
  | _, .call _ :: _, h => by simp [callsOf] at h

/-- **C107** (an algorithm that does not call the heap): its pass reports the same number of bytes throughout. -/
theorem C107_quiet_pass {p : Profile} {N : Nat} (hN : 0 < N) (hN32 : N < 2 ^ 32) (pre body : List AllocEv)
    (ho : OrdinaryPass p N pre body) (hq : callsOf body = []) :
    ∃ s, (AllocSys.new.run p N pre).pass p N body =
      (s, .ok ⟨(liveBlocks [] pre).sum, (liveBlocks [] pre).sum, (liveBlocks [] pre).sum, (liveBlocks [] pre).sum⟩) := by
  obtain ⟨m, e, h1, h2, h3, h4⟩ := C84_pass_reports_live_bytes hN hN32 pre body ho
  have q := liveTrace_quiet (liveBlocks [] pre) body hq
  have h2' : m.usedAfter = (liveBlocks [] pre).sum := by
    rw [h2, liveBlocks_then, liveBlocks_quiet _ _ hq]
  have hm : m = ⟨(liveBlocks [] pre).sum, (liveBlocks [] pre).sum, (liveBlocks [] pre).sum, (liveBlocks [] pre).sum⟩ := by
    obtain ⟨a, b, c, d⟩ := m
    simp only at h1 h2' h3 h4
    rw [h1, h2', q _ h3.1, q _ h4.1]
  rw [hm] at e
  exact ⟨_, e⟩

/-- **C107** (the metrics allocator is not installed): if the allocator never sees a call, then every pass reports zero bytes. -/
theorem C107_unmetered_pass {p : Profile} {N : Nat} (hN : 0 < N) (hN32 : N < 2 ^ 32) (pre body : List AllocEv)
    (hq : callsOf (pre ++ body) = []) (hfew : savePoints pre + 1 + savePoints body < 2 ^ 32) (hnest : savePoints body ≤ N) :
    ∃ s, (AllocSys.new.run p N pre).pass p N body = (s, .ok ⟨0, 0, 0, 0⟩) := by
  have hq' := hq
  rw [callsOf_append] at hq'
  obtain ⟨q1, q2⟩ := List.append_eq_nil_iff.1 hq'
  have hl : liveBlocks [] pre = [] := liveBlocks_quiet _ _ q1
  have ho : OrdinaryPass p N pre body := by
    refine ⟨respects_quiet _ _ hq, ?_, ?_, ?_, hfew, hnest⟩
    · rw [hq]; simp
    · intro x hx
      rw [liveTrace_quiet _ _ q2 x hx, hl]
      simp
    · intro k _
      unfold total
      rw [q2, hq]
      simp
  obtain ⟨s, h⟩ := C107_quiet_pass hN hN32 pre body ho q2
  rw [hl] at h
  exact ⟨s, h⟩

/-! ## verdicts -/

/-- without memory use, the space verdict is "worse than exponential", and "between O(log n) and O(n)" for a resized set -/
theorem C107_space_verdict (E : FloatEnv) (p : Profile) (m1 m2 : PassResult) (h1 : Unseen m1) (h2 : Unseen m2) :
    (∀ n1 n2, ZeroPower E n1 n2 → analyseSpace E p ⟨n1, n2⟩ ⟨m1.space, m2.space⟩ = .ok .worseThanExponential) ∧
    (∀ a b rep, ZeroPower E (min a b) (max a b) →
      analyseSpaceConstantSet E p ⟨a, b, rep⟩ ⟨m1.space, m2.space⟩ = .ok .worseThanExponential) ∧
    (∀ n, analyseSpaceSetResizing E p ⟨n⟩ ⟨m1.space, m2.space⟩ = .ok .betweenOLogNAndON) := by
  have s1 : usizeSub p m1.space.maxUsed m1.space.usedBefore = .ok 0 := by rw [h1, no_under le_rfl, Nat.sub_self]
  have s2 : usizeSub p m2.space.maxUsed m2.space.usedBefore = .ok 0 := by rw [h2, no_under le_rfl, Nat.sub_self]
  have e0 : E.ofNat 0 = F.fin 0 := by simp [FloatEnv.ofNat, FloatEnv.rnd0]
  have hres : ∀ n, analyseSetResizing E (F.fin 0) (F.fin 0) n = .betweenOLogNAndON := by
    intro n
    have hd : E.div (F.fin 0) (F.fin 0) = F.nan := by simp [FloatEnv.div, FloatEnv.divFin]
    have hn : ∀ g, E.div F.nan g = F.nan := fun g => rfl
    have hs : E.sub F.nan (F.fin 1) = F.nan := rfl
    have ha : F.abs F.nan = F.nan := rfl
    unfold analyseSetResizing
    simp [hd, hn, hs, ha]
  refine ⟨fun n1 n2 hp => ?_, fun a b rep hp => ?_, fun n => ?_⟩
  · unfold analyseSpace
    simp only [s1, s2, bind, Except.bind, pure, Except.pure, e0]
    exact congrArg _ (C08_zero_usage_is_worst E _ _ hp).1
  · unfold analyseSpaceConstantSet
    simp only [s1, s2, bind, Except.bind, pure, Except.pure, e0]
    exact congrArg _ (C08_zero_usage_is_worst E _ _ hp).1
  · unfold analyseSpaceSetResizing
    simp only [s1, s2, bind, Except.bind, pure, Except.pure, e0]
    exact congrArg _ (hres _)

theorem anySpace_iff (l : Complexity) : AnySpace l ↔ Complexity.asU32 .worseThanExponential ≤ l.asU32 :=
  ⟨fun h => h _, fun h c => le_trans (by cases c <;> decide) h⟩

/-- only one limit accepts anything -/
theorem anySpace_only (l : Complexity) : AnySpace l ↔ l = .worseThanExponential := by
  rw [anySpace_iff]; cases l <;> decide

/-! ## regular algorithms -/

theorem unseen_attempt {env : RegEnv} {cfg : RegCfg} (hu : ∀ h c x, env.run h c = .ok x → Unseen x.1) (hp : ZeroPower env.f64 cfg.n1 cfg.n2)
    {ext : List RegEv} (hsrc : Sourced env ext) {a : Attempt} (hsub : ∀ ev ∈ a.calls, ev ∈ ext) :
    a.space env cfg = .ok .worseThanExponential := by
  obtain ⟨g1, r1, e1⟩ := hsrc.2 .pass1 a.m1 (hsub _ (by simp [Attempt.calls]))
  obtain ⟨g2, r2, e2⟩ := hsrc.2 .pass2 a.m2 (hsub _ (by simp [Attempt.calls]))
  exact (C107_space_verdict env.f64 env.profile a.m1 a.m2 (hu _ _ _ e1) (hu _ _ _ e2)).1 _ _ hp

/-- **C107** fails (regular algorithms): if no memory use is seen and the limit on space is not the loosest one, then the test never
succeeds, however fast the algorithm is. -/
theorem C107_regular_rejects (env : RegEnv) (cfg : RegCfg) (hu : ∀ h c x, env.run h c = .ok x → Unseen x.1)
    (hp : ZeroPower env.f64 cfg.n1 cfg.n2) (hl : ¬ AnySpace cfg.smax) (t : List RegEv) : ∃ e, (testAlgorithm env cfg t).1 = .error e := by
  obtain ⟨as, last, ext, h1, hsrc, h4, h5, h6⟩ := test_history (env := env) cfg t
  rcases h6 with ⟨-, -, a, rfl, -, ⟨c, hc, hle⟩, -⟩ | ⟨-, ⟨m, hm⟩, -⟩ | ⟨-, -, m, hm⟩ | ⟨-, -, h⟩
  · exfalso
    have hsub : ∀ ev ∈ a.calls, ev ∈ ext := by
      intro ev hev
      have : ev ∈ regCallsOf ext := by rw [h4]; exact List.mem_append_right _ hev
      exact (List.mem_filter.1 this).1
    rw [unseen_attempt hu hp hsrc hsub] at hc
    cases hc
    exact hl ((anySpace_iff _).2 hle)
  · exact ⟨_, hm⟩
  · exact ⟨_, hm⟩
  · exact h

/-- **C107** (regular algorithms, partial; missing: any other limit on space, for which it is false): if no memory use is seen and the
limit on space is the loosest one, the test is decided by the time complexity alone: it succeeds iff the last of its attempts is
within the limit on time, all earlier ones are beyond it, and it fails only after all retries. -/
theorem C107_regular_partial (env : RegEnv) (L : FloatLaws env.f64) (hb : Benign env) (cfg : RegCfg) (h1 : 0 < cfg.n1)
    (h1' : cfg.n1 < 2 ^ 32) (h2 : 0 < cfg.n2) (h2' : cfg.n2 < 2 ^ 32) (hl : AnySpace cfg.smax) (t : List RegEv) :
    ∃ (rounds : List Attempt) (ext : List RegEv), (testAlgorithm env cfg t).2 = t ++ ext ∧
      regCallsOf ext = (rounds.map Attempt.calls).flatten ∧ 1 ≤ rounds.length ∧ rounds.length ≤ cfg.maxRetry + 1 ∧
      ((testAlgorithm env cfg t).1 = .ok () →
        ∃ l a, rounds = l ++ [a] ∧ (∀ b ∈ l, ¬ TimeOk env cfg b) ∧ TimeOk env cfg a) ∧
      ((testAlgorithm env cfg t).1 ≠ .ok () → rounds.length = cfg.maxRetry + 1 ∧ ∀ b ∈ rounds, ¬ TimeOk env cfg b) := by
  obtain ⟨rounds, ext, g1, g2, g3, g4, g5, g6⟩ := C61_accepts_iff env L hb cfg h1 h1' h2 h2' t
  refine ⟨rounds, ext, g1, g2, g3, g4, fun h => ?_, fun h => ?_⟩
  · obtain ⟨l, a, e1, e2, e3⟩ := g5.1 h
    exact ⟨l, a, e1, fun b hb => (e2 b hb).2, e3.2⟩
  · rcases (g6 h).2 with ⟨l, a, -, -, c, -, hlt⟩ | ⟨hlen, hall⟩
    · exact absurd (hl c) (by omega)
    · exact ⟨hlen, fun b hb => (hall b hb).2⟩

/-! ## asynchronous algorithms -/

section async
variable {D B : Type}

/-- **C107** fails (asynchronous algorithms): if no memory use is seen and a limit on space is set which is not the loosest one, the
test never succeeds. -/
theorem C107_async_rejects (env : AEnv) (b : Builder D B)
    (hu : ∀ f, b.fn1 = some f ∨ b.fn2 = some f → ∀ h i x, f h i = .ok x → Unseen x.1)
    (hp : ZeroPower env.f64 b.n1 b.n2) (l : Complexity) (hs : b.smax = some l) (hl : ¬ AnySpace l) (t : List (AEv D)) :
    ∃ e, (testAsync env b t).1 = .error e := by
  obtain ⟨as, last, ext, p, h1, h2, -, h4, h5⟩ := async_history env b t
  rcases h5 with ⟨a1, hr, a, -, rfl, a3, ⟨c, hc, hle⟩, -⟩ | ⟨a1, ⟨m, hr⟩, -⟩ | ⟨a1, rfl, m, hr⟩ | ⟨a1, a2, e, t0, a3, -⟩
  · exfalso
    have hsub : ∀ ev ∈ a.acts, ev ∈ ext := by
      intro ev hev
      have : ev ∈ actsOf ext := by rw [h2]; exact List.mem_append_right _ hev
      exact (List.mem_filter.1 this).1
    obtain ⟨f1, f2, g1, g2, i1, i2, d1, e1, e2, q1, q2⟩ := around_sourced h1 a3.1 hsub
    have := (C107_space_verdict env.f64 env.profile a.m1 a.m2 (hu f1 (Or.inl e1) _ _ _ q1) (hu f2 (Or.inr e2) _ _ _ q2)).1 _ _ hp
    rw [show a.space env b = _ from this] at hc
    cases hc
    exact hl ((anySpace_iff _).2 (hle l hs))
  · exact ⟨_, hr⟩
  · exact ⟨_, hr⟩
  · exact ⟨_, a3⟩

/-- **C107** (asynchronous algorithms, partial; missing: other limits on space): if the limit on space is not set, or the loosest one, the
test is decided by the time complexity alone. -/
theorem C107_async_partial (env : AEnv) (L : FloatLaws env.f64) (b : Builder D B) (hb : ABenign b)
    (hl : ∀ l, b.smax = some l → AnySpace l) (t : List (AEv D)) :
    ∃ (rounds : List (ARound D)) (ext : List (AEv D)), (testAsync env b t).2 = t ++ ext ∧
      actsOf ext = (rounds.map ARound.acts).flatten ∧ (∀ a ∈ rounds, a.Follows b) ∧
      1 ≤ rounds.length ∧ rounds.length ≤ b.maxReattempts.getD 0 + 1 ∧
      ((testAsync env b t).1 = .ok () →
        ∃ l a, rounds = l ++ [a] ∧ (∀ x ∈ l, ¬ ATimeOk env b x) ∧ ATimeOk env b a) ∧
      ((testAsync env b t).1 ≠ .ok () → rounds.length = b.maxReattempts.getD 0 + 1 ∧ ∀ x ∈ rounds, ¬ ATimeOk env b x) := by
  obtain ⟨rounds, ext, g1, g2, gf, g3, g4, g5, g6⟩ := C64_accepts_iff env L b hb t
  refine ⟨rounds, ext, g1, g2, gf, g3, g4, fun h => ?_, fun h => ?_⟩
  · obtain ⟨l, a, e1, e2, e3⟩ := g5.1 h
    exact ⟨l, a, e1, fun x hx => (e2 x hx).2, e3.2⟩
  · rcases (g6 h).2 with ⟨l, a, -, -, c, lim, -, hs, hlt⟩ | ⟨hlen, hall⟩
    · exact absurd (hl lim hs c) (by omega)
    · exact ⟨hlen, fun x hx => (hall x hx).2⟩

end async

/-! ## CRUD algorithms -/

/-- the space class of an operation of which no memory use is seen -/
theorem unseen_op {env : CrudEnv} {cfg : CrudCfg} (hp : ∀ n, ZeroPower env.f64 n (2 * n)) {op : Op} {m1 m2 : PassResult}
    (h1 : Unseen m1) (h2 : Unseen m2) {c : Complexity} (hc : opSpace env cfg op m1 m2 = .ok c) (l : Complexity) :
    c.asU32 ≤ l.asU32 ↔ LooseSpace op l := by
  obtain ⟨-, g2, g3⟩ := C107_space_verdict env.f64 env.profile m1 m2 h1 h2
  have hp' : ∀ n, ZeroPower env.f64 (min n (2 * n)) (max n (2 * n)) := by
    intro n
    rw [Nat.min_eq_left (by omega), Nat.max_eq_right (by omega)]
    exact hp n
  cases op with
  | create => rw [show opSpace env cfg .create m1 m2 = _ from g3 _] at hc; cases hc; exact Iff.rfl
  | delete => rw [show opSpace env cfg .delete m1 m2 = _ from g3 _] at hc; cases hc; exact Iff.rfl
  | read => rw [show opSpace env cfg .read m1 m2 = _ from g2 _ _ _ (hp' _)] at hc; cases hc; exact (anySpace_iff l).symm
  | update => rw [show opSpace env cfg .update m1 m2 = _ from g2 _ _ _ (hp' _)] at hc; cases hc; exact (anySpace_iff l).symm

/-- **C107** fails (CRUD algorithms): if no memory use of an operation of at least 10 elements is seen, and its limit on space is
stricter than "between O(log n) and O(n)" (create, delete) or than the loosest one (read, update), the test never succeeds. -/
theorem C107_crud_rejects (env : CrudEnv) (cfg : CrudCfg) (hr : RoomForRetries cfg) (op : Op) (hi : 10 ≤ (cfg.op op).iters)
    (hu : ∀ tr ph a b th x, env.measure tr ph op a b th = .ok x → Unseen x.1) (hp : ∀ n, ZeroPower env.f64 n (2 * n))
    (hl : ¬ LooseSpace op (cfg.op op).smax) (max : ℕ) (hmax : 1 ≤ max) (t : List Ev) : (testCrud env cfg max t).1 ≠ .ok () := by
  intro h
  obtain ⟨k, hk, ⟨⟨a, rep⟩, ha⟩, -⟩ := (C53_accepts_iff env cfg max hmax t).1 h
  unfold attempt at ha
  cases hc : adaptCfg env.profile k cfg with
  | error e => rw [hc] at ha; cases ha
  | ok cfg' =>
    rw [hc] at ha
    obtain ⟨g1, g2⟩ := attempt_cfg env hr hc
    have g3 := g1.atLeast op
    obtain ⟨m1, m2, c, ⟨⟨_, _, x1, -, e1⟩, ⟨_, _, x2, -, e2⟩⟩, -, e3, e4⟩ :=
      accepted_within g2 (a := a) (report := rep) (t := beforeAttempt env cfg t k)
        (t' := (internalAnalyse env cfg' (beforeAttempt env cfg t k)).2) (by rw [← ha]) op (by omega)
    have := (unseen_op hp (hu _ _ _ _ _ _ e1) (hu _ _ _ _ _ _ e2) e3 (cfg'.op op).smax).1 e4
    rw [g1.smax] at this
    exact hl this

/-- **C107** (CRUD algorithms, partial; missing: stricter limits on space): if no memory use is seen and the limits on space are as loose
as that, then an attempt succeeds iff every requested operation is within its limit on time; and if it fails, it blames the time of
an operation, so that it is retried. -/
theorem C107_crud_partial (env : CrudEnv) (L : FloatLaws env.f64) (hb : BenignCrud env) (cfg : CrudCfg) (hf : Fits cfg)
    (hu : ∀ tr ph op a b th x, env.measure tr ph op a b th = .ok x → Unseen x.1) (hp : ∀ n, ZeroPower env.f64 n (2 * n))
    (hl : ∀ op, 0 < (cfg.op op).iters → LooseSpace op (cfg.op op).smax) (t : List Ev) :
    (∃ a t', internalAnalyse env cfg t = (.ok a, t') ∧ ∀ op, 0 < (cfg.op op).iters → ∃ m1 m2, BothMeasured env cfg t t' op m1 m2 ∧
        (opTime env cfg op m1 m2).asU32 ≤ (cfg.op op).tmax.asU32) ∨
    (∃ e t', internalAnalyse env cfg t = (.fail e, t') ∧ e.failedAnalysis = "Time" ∧ ∃ op m1 m2, 0 < (cfg.op op).iters ∧
        e.failedOperation = op.title ∧ BothMeasured env cfg t t' op m1 m2 ∧
        (cfg.op op).tmax.asU32 < (opTime env cfg op m1 m2).asU32) := by
  rcases C58_accepted_or_rejected env L hb cfg hf t with ⟨⟨a, rep⟩, t', h⟩ | ⟨e, t', h, hbl⟩
  · refine Or.inl ⟨(a, rep), t', h, fun op hi => ?_⟩
    obtain ⟨m1, m2, c, hm, ht, -⟩ := accepted_within hf.1 h op hi
    exact ⟨m1, m2, hm, ht⟩
  · refine Or.inr ⟨e, t', h, ?_⟩
    obtain ⟨op, m1, m2, hi, hn, hm, hv, -⟩ := hbl
    rcases hv with ⟨ha, -, hlt⟩ | ⟨-, -, hsp, hlt⟩
    · exact ⟨ha, op, m1, m2, hi, hn, hm, hlt⟩
    · exfalso
      obtain ⟨⟨_, _, x1, -, e1⟩, ⟨_, _, x2, -, e2⟩⟩ := hm
      have := (unseen_op hp (hu _ _ _ _ _ _ _ e1) (hu _ _ _ _ _ _ _ e2) hsp (cfg.op op).smax).2 (hl op hi)
      omega

/-! ## concrete cases -/

/-- what is measured of a steady algorithm without the metrics allocator -/
def unmetered : PassResult := ⟨10 ^ 9, ⟨0, 0, 0, 0⟩⟩

theorem unmetered_unseen : Unseen unmetered := rfl

theorem idealShipped_zero (n1 n2 : ℕ) : ZeroPower idealShipped n1 n2 := rfl

-- three save points were taken before the pass and one during it
example (p : Profile) : ∃ s, (AllocSys.new.run p 1024 [.savePoint, .savePoint, .savePoint]).pass p 1024 [.savePoint] = (s, .ok ⟨0, 0, 0, 0⟩) :=
  C107_unmetered_pass (by norm_num) (by norm_num) _ _ rfl (by simp [savePoints]) (by simp [savePoints])

-- 100 bytes were allocated before the pass, and it allocates nothing
example : ∃ s, (AllocSys.new.run .checked 1024 [.call (.alloc 100 true)]).pass .checked 1024 [] = (s, .ok ⟨100, 100, 100, 100⟩) := by
  refine C107_quiet_pass (by norm_num) (by norm_num) _ _ ⟨by decide, by decide, ?_, ?_, by simp [savePoints], by simp [savePoints]⟩ rfl
  · intro x hx
    simp [liveTrace, liveBlocks, liveAfter] at hx
    omega
  · intro k hk
    refine ⟨by simp [total, callsOf], Or.inr ?_⟩
    cases k <;> simp [total, callsOf, contribution]

noncomputable def unmeteredEnv (T : TextEnv) : RegEnv := ⟨.checked, idealShipped, T, fun _ => "", fun _ _ => .ok (unmetered, 0)⟩

theorem unmetered_benign (T : TextEnv) : Benign (unmeteredEnv T) := fun _ _ =>
  ⟨_, _, rfl, ⟨by decide, by decide, by decide, by decide⟩, by unfold PlausibleTime; decide⟩

-- a constant-time algorithm that is expected to need a constant space is rejected
example (T : TextEnv) (retries : ℕ) : ∃ e, (testAlgorithm (unmeteredEnv T) ⟨"steady", retries, 1000, 2000, .o1, .o1⟩ []).1 = .error e := by
  refine C107_regular_rejects _ _ ?_ (idealShipped_zero _ _) ?_ []
  · intro h c x e; cases e; exact unmetered_unseen
  · show ¬ AnySpace .o1
    rw [anySpace_iff]; decide

theorem unmetered_time (T : TextEnv) : analyseTime idealShipped ⟨1000, 2000⟩ ⟨unmetered.time, unmetered.time⟩ = .o1 :=
  (steadyCrud_o1 idealShipped (shippedEnv_laws _ _ _ (Or.inl rfl)) T (doublingCfg .oN) .read _ _ rfl rfl).1

-- with the loosest limit on space, it is accepted
example (T : TextEnv) (retries : ℕ) : (testAlgorithm (unmeteredEnv T) ⟨"steady", retries, 1000, 2000, .o1, .worseThanExponential⟩ []).1 = .ok () := by
  obtain ⟨as, last, ext, h1, hsrc, h4, -, -⟩ :=
    test_history (env := unmeteredEnv T) ⟨"steady", retries, 1000, 2000, .o1, .worseThanExponential⟩ []
  obtain ⟨rounds, ext', g1, g2, g3, g4, g5, g6⟩ := C107_regular_partial (unmeteredEnv T) (shippedEnv_laws _ _ _ (Or.inl rfl)) (unmetered_benign T)
    ⟨"steady", retries, 1000, 2000, .o1, .worseThanExponential⟩ (by norm_num) (by norm_num) (by norm_num) (by norm_num)
    ((anySpace_only _).2 rfl) []
  have he : ext' = ext := by rw [h1] at g1; simpa using g1.symm
  subst he
  by_contra hno
  obtain ⟨-, hall⟩ := g6 hno
  cases rounds with
  | nil => simp at g3
  | cons a l =>
    refine hall a (by simp) ?_
    have hsub : ∀ ev ∈ a.calls, ev ∈ ext' := by
      intro ev hev
      have : ev ∈ regCallsOf ext' := by rw [g2]; simp only [List.map_cons, List.flatten_cons]; exact List.mem_append_left _ hev
      exact (List.mem_filter.1 this).1
    obtain ⟨q1, r1, e1⟩ := hsrc.2 .pass1 a.m1 (hsub _ (by simp [Attempt.calls]))
    obtain ⟨q2, r2, e2⟩ := hsrc.2 .pass2 a.m2 (hsub _ (by simp [Attempt.calls]))
    have m1 : unmetered = a.m1 := congrArg Prod.fst (Except.ok.inj e1)
    have m2 : unmetered = a.m2 := congrArg Prod.fst (Except.ok.inj e2)
    unfold TimeOk Attempt.time
    rw [← m1, ← m2]
    exact le_of_eq (congrArg Complexity.asU32 (unmetered_time T))

-- an asynchronous one without a limit on space: decided by time
noncomputable def unmeteredBuilder (smax : Option Complexity) : Builder Unit Unit :=
  ⟨"steady", none, some 5, none, 1000, some fun _ _ => .ok (unmetered, ()), none,
    2000, some fun _ _ => .ok (unmetered, ()), none, some .oN, smax, none, []⟩

example (T : TextEnv) : ∃ e, (testAsync ⟨.checked, idealShipped, T, fun _ => ""⟩ (unmeteredBuilder (some .oN)) []).1 = .error e := by
  refine C107_async_rejects _ _ ?_ (idealShipped_zero _ _) .oN rfl ?_ []
  · rintro f (h | h) _ _ x e <;> cases h <;> cases e <;> exact unmetered_unseen
  · rw [anySpace_iff]; decide

theorem unmeteredBuilder_benign (smax : Option Complexity) : ABenign (unmeteredBuilder smax) := by
  refine ⟨?_, ?_, rfl, rfl, ⟨?_, ?_⟩, ⟨?_, ?_⟩⟩
  · rintro f (h | h | h | h) hh i <;> cases h <;>
      exact ⟨_, _, rfl, ⟨by decide, by decide, by decide, by decide⟩, by unfold PlausibleTime; decide⟩
  · rintro c (h | h) <;> cases h
  all_goals simp [unmeteredBuilder]

/-- the closures of a CRUD test without the metrics allocator -/
noncomputable def unmeteredCrud (T : TextEnv) : CrudEnv :=
  ⟨.checked, idealShipped, T, fun _ _ _ _ _ _ => .ok (unmetered, 0), fun _ => 10 ^ 6, fun _ _ => .ok ()⟩

-- expecting reading not to allocate: rejected
example (T : TextEnv) : (testCrud (unmeteredCrud T) (doublingCfg .oN) 3 []).1 ≠ .ok () := by
  refine C107_crud_rejects _ _ (doubling_fits _).2 .read ?_ ?_ (fun n => idealShipped_zero n (2 * n)) ?_ 3 (by norm_num) []
  · decide
  · intro tr ph a b th x e; cases e; exact unmetered_unseen
  · show ¬ AnySpace .oN
    rw [anySpace_iff]; decide

theorem unmeteredCrud_benign (T : TextEnv) : BenignCrud (unmeteredCrud T) :=
  ⟨fun _ _ => rfl, fun _ _ _ _ _ _ => ⟨_, _, rfl, ⟨by decide, by decide, by decide, by decide⟩, by unfold PlausibleTime; decide⟩⟩

-- with the loosest limits on space: accepted
example (T : TextEnv) : ∃ a t', internalAnalyse (unmeteredCrud T) (doublingCfg .worseThanExponential) [] = (.ok a, t') := by
  rcases C107_crud_partial (unmeteredCrud T) (shippedEnv_laws _ _ _ (Or.inl rfl)) (unmeteredCrud_benign T) (doublingCfg .worseThanExponential)
    (doubling_fits _).1 (fun _ _ _ _ _ _ x e => by cases e; exact unmetered_unseen) (fun n => idealShipped_zero n (2 * n))
    (fun op _ => by
      cases op
      · show _ ≤ _; decide
      · exact (anySpace_only _).2 rfl
      · exact (anySpace_only _).2 rfl
      · show _ ≤ _; decide) [] with ⟨a, t', h, -⟩ | ⟨e, t', -, -, op, m1, m2, -, -, -, h⟩
  · exact ⟨a, t', h⟩
  · exfalso
    have h1 : Complexity.asU32 .worseThanExponential < (opTime (unmeteredCrud T) (doublingCfg .worseThanExponential) op m1 m2).asU32 := h
    have h2 : AnySpace .worseThanExponential := (anySpace_only _).2 rfl
    exact absurd (h2 _) (not_le.2 h1)

-- without a limit on space, the asynchronous test is accepted
example (T : TextEnv) : (testAsync ⟨.checked, idealShipped, T, fun _ => ""⟩ (unmeteredBuilder none) []).1 = .ok () := by
  by_contra hno
  obtain ⟨rounds, ext, g1, g2, gf, g3, -, -, g6⟩ := C107_async_partial ⟨.checked, idealShipped, T, fun _ => ""⟩
    (shippedEnv_laws _ _ _ (Or.inl rfl)) (unmeteredBuilder none) (unmeteredBuilder_benign none) (fun l h => by cases h) []
  obtain ⟨-, hall⟩ := g6 hno
  cases rounds with
  | nil => simp at g3
  | cons a l =>
    refine hall a (by simp) ?_
    have hsub : ∀ ev ∈ a.acts, ev ∈ ext := by
      intro ev hev
      have : ev ∈ actsOf ext := by rw [g2]; simp only [List.map_cons, List.flatten_cons]; exact List.mem_append_left _ hev
      exact (List.mem_filter.1 this).1
    obtain ⟨f1, f2, q1, q2, i1, i2, d1, e1, e2, r1, r2⟩ := around_sourced g1 (gf a (by simp)).1 hsub
    cases e1; cases e2
    have m1 : unmetered = a.m1 := congrArg Prod.fst (Except.ok.inj r1)
    have m2 : unmetered = a.m2 := congrArg Prod.fst (Except.ok.inj r2)
    intro l hl
    cases hl
    unfold ARound.time
    rw [← m1, ← m2]
    refine le_trans (le_of_eq (congrArg Complexity.asU32 (unmetered_time T))) (by decide)

end BigO
