import Verif.Proofs.CrudTotal
import Verif.Proofs.CrudErrors
import Verif.Props.Pass
import Verif.Props.Binary64

/-!
# Properties of the CRUD runner (C50-C59)

`internalAnalyse env cfg t` is one analysis with limits, started after the history `t` of events; `analyseCrud` the public
function without limits; `testCrud` the public function with retries.  `env` gives arbitrary measurements (or panics of the
user's closures), depending on the whole history.
-/
namespace BigO

/-! ## C50: phase order -/

/-- **C50.** The runs of the closures and of `reset_fn` during an analysis are the documented sequence if the analysis
succeeds, and the beginning of the documented sequence if it is aborted or panics. -/
theorem C50_phase_order (env : CrudEnv) (cfg : CrudCfg) (hn : NoOverflow cfg) (t : List Ev) :
    ∃ ext, (internalAnalyse env cfg t).2 = t ++ ext ∧ actions ext <+: crudSequence cfg ∧
      ((∃ a, (internalAnalyse env cfg t).1 = .ok a) → actions ext = crudSequence cfg) := by
  obtain ⟨ext, h1, h2, h3⟩ := Emits.body env cfg hn (crudStart t)
  refine ⟨ext, by rw [internalAnalyse_trace]; exact h1, h2, ?_⟩
  rintro ⟨a, ha⟩
  apply h3
  obtain ⟨s', h4, -⟩ := internalAnalyse_ok.1 (show internalAnalyse env cfg t = (.ok a, (internalAnalyse env cfg t).2) by rw [← ha])
  exact ⟨a.1, by rw [h4]⟩

theorem unlimited_noOverflow {cfg : CrudCfg} (hn : NoOverflow cfg) : NoOverflow cfg.unlimited := hn

theorem unlimited_sequence (cfg : CrudCfg) : crudSequence cfg.unlimited = crudSequence cfg := rfl

theorem analyseCrud_trace (env : CrudEnv) (cfg : CrudCfg) (t : List Ev) :
    (analyseCrud env cfg t).2 = (internalAnalyse env cfg.unlimited t).2 := by
  unfold analyseCrud
  generalize internalAnalyse env cfg.unlimited t = x
  obtain ⟨r, t'⟩ := x
  cases r <;> rfl

theorem analyseCrud_ok {env : CrudEnv} {cfg : CrudCfg} {t a t'} (h : analyseCrud env cfg t = (.ok a, t')) :
    internalAnalyse env cfg.unlimited t = (.ok a, t') := by
  unfold analyseCrud at h
  generalize internalAnalyse env cfg.unlimited t = x at h
  obtain ⟨r, t''⟩ := x
  cases r with
  | ok b => simp only [Prod.mk.injEq, Except.ok.injEq] at h; obtain ⟨rfl, rfl⟩ := h; rfl
  | fail e => simp at h
  | panic e => simp at h

/-- **C50** for the public function `analyse_crud_algorithms`. -/
theorem C50_analyse_phase_order (env : CrudEnv) (cfg : CrudCfg) (hn : NoOverflow cfg) (t : List Ev) :
    ∃ ext, (analyseCrud env cfg t).2 = t ++ ext ∧ actions ext <+: crudSequence cfg ∧
      ((∃ a, (analyseCrud env cfg t).1 = .ok a) → actions ext = crudSequence cfg) := by
  obtain ⟨ext, h1, h2, h3⟩ := C50_phase_order env cfg.unlimited (unlimited_noOverflow hn) t
  refine ⟨ext, by rw [analyseCrud_trace, h1], h2, ?_⟩
  rintro ⟨a, ha⟩
  apply h3
  have := analyseCrud_ok (show analyseCrud env cfg t = (.ok a, (analyseCrud env cfg t).2) by rw [← ha])
  exact ⟨a, by rw [this]⟩

/-! ## C51: operations without iterations -/

/-- **C51** (never called): whatever happens in an analysis (also if arithmetic overflows, it is aborted or it panics), the
closure of an operation without iterations is not run. -/
theorem C51_never_called (env : CrudEnv) (cfg : CrudCfg) (op : Op) (h : (cfg.op op).iters = 0) (t : List Ev) :
    ∃ ext, (internalAnalyse env cfg t).2 = t ++ ext ∧ ∀ e ∈ ext, ¬ e.isRunOf op := by
  have C := NoneOf.closed cfg (Ev.isRunOf op) (fun _ h => h) (fun _ _ h => h) (by
    intro ph o a b th hi heq
    have : o = op := heq
    subst this; omega)
  rw [internalAnalyse_trace]
  exact Pres.body C env (crudStart t)

/-- **C51** (analyses): in a successful analysis, there is an analysis of an operation if and only if it has iterations. -/
theorem C51_analyses (env : CrudEnv) (cfg : CrudCfg) (t : List Ev) (a : CrudAnalyses) (report : String) (t' : List Ev)
    (h : internalAnalyse env cfg t = (.ok (a, report), t')) :
    (a.create.isSome ↔ (cfg.op .create).iters > 0) ∧ (a.read.isSome ↔ (cfg.op .read).iters > 0) ∧
    (a.update.isSome ↔ (cfg.op .update).iters > 0) ∧ (a.delete.isSome ↔ (cfg.op .delete).iters > 0) := by
  obtain ⟨s', hb, -, -⟩ := internalAnalyse_ok.1 h
  obtain ⟨h1, h2, h3, h4⟩ := body_ok hb
  have key : ∀ {α : Type} {op rf} {good : PassResult → PassResult → α → Prop} {d v},
      Done env cfg (crudStart t).trace s'.trace op rf good d v → (v.isSome ↔ (cfg.op op).iters > 0) := by
    intro α op rf good d v hd
    constructor
    · intro hv
      by_contra hc
      rw [hd.1 (by omega)] at hv
      simp at hv
    · intro hi
      obtain ⟨an, _, _, _, _, _, _, _, rfl, _⟩ := hd.2 hi
      rfl
  exact ⟨key h1, key h2, key h3, key h4⟩

/-! ## C52: reset -/

/-- **C52** (no warm-up): without a warm-up `reset_fn` is never called, whatever happens. -/
theorem C52_no_reset (env : CrudEnv) (cfg : CrudCfg) (h : cfg.warmup = 0) (t : List Ev) :
    ∃ ext, (analyseCrud env cfg t).2 = t ++ ext ∧ ∀ e ∈ ext, ¬ e.isReset := by
  have C := NoneOf.closed cfg.unlimited Ev.isReset (fun _ h => h) (fun hw => by
    have : cfg.warmup > 0 := hw
    omega) (fun _ _ _ _ _ _ h => h)
  rw [analyseCrud_trace, internalAnalyse_trace]
  exact Pres.body C env (crudStart t)

theorem opRun_all {P : Ev → Prop} {cfg ph op a b} (h : P (.pass ph op a b (cfg.op op).threads)) : ∀ e ∈ opRun cfg ph op a b, P e := by
  intro e he
  unfold opRun at he
  split at he
  · simp at he
  · simp only [List.mem_singleton] at he; subst he; exact h

/-- **C52** (warm-up): with a warm-up, a finished analysis calls `reset_fn` once, after all the warm-up runs and before all
the measured ones, with the number of elements created in the warm-up. -/
theorem C52_one_reset (env : CrudEnv) (cfg : CrudCfg) (hn : NoOverflow cfg) (hw : cfg.warmup > 0) (t : List Ev)
    (a : CrudAnalyses × String) (t' : List Ev) (h : analyseCrud env cfg t = (.ok a, t')) :
    ∃ ext warm measured, t' = t ++ ext ∧ actions ext = warm ++ .reset ((cfg.op .create).iters * cfg.warmup / 100) :: measured ∧
      (∀ e ∈ warm, e.isWarmupRun) ∧ (∀ e ∈ measured, e.isMeasuredRun) := by
  obtain ⟨ext, h1, -, h3⟩ := C50_analyse_phase_order env cfg hn t
  rw [h] at h1 h3
  have h4 := h3 ⟨a, rfl⟩
  have hwz : ¬ cfg.warmup = 0 := by omega
  refine ⟨ext, opRun cfg .warmup .create 0 ((cfg.op .create).iters * cfg.warmup / 100) ++
      opRun cfg .warmup .read 0 ((cfg.op .read).iters * cfg.warmup / 100) ++
      opRun cfg .warmup .update 0 ((cfg.op .update).iters * cfg.warmup / 100) ++
      opRun cfg .warmup .delete ((cfg.op .delete).iters * cfg.warmup / 100) 0,
    opRun cfg .pass1 .create 0 (cfg.op .create).iters ++ opRun cfg .pass1 .read 0 (cfg.op .read).iters ++
    opRun cfg .pass1 .update 0 (cfg.op .update).iters ++
    opRun cfg .pass2 .create (cfg.op .create).iters (2 * (cfg.op .create).iters) ++
    opRun cfg .pass2 .read (cfg.op .read).iters (2 * (cfg.op .read).iters) ++
    opRun cfg .pass2 .update (cfg.op .update).iters (2 * (cfg.op .update).iters) ++
    opRun cfg .pass2 .delete (2 * (cfg.op .delete).iters) (cfg.op .delete).iters ++
    opRun cfg .pass1 .delete (cfg.op .delete).iters 0, h1, ?_, ?_, ?_⟩
  · rw [h4]
    unfold crudSequence warmupSequence
    simp only [if_neg hwz, List.append_assoc, List.cons_append, List.nil_append]
  · simp only [List.mem_append, or_imp, forall_and]
    exact ⟨⟨⟨opRun_all trivial, opRun_all trivial⟩, opRun_all trivial⟩, opRun_all trivial⟩
  · simp only [List.mem_append, or_imp, forall_and]
    exact ⟨⟨⟨⟨⟨⟨⟨opRun_all trivial, opRun_all trivial⟩, opRun_all trivial⟩, opRun_all trivial⟩, opRun_all trivial⟩,
      opRun_all trivial⟩, opRun_all trivial⟩, opRun_all trivial⟩

/-! ## C53: the retry loop -/

/-- **C53** (acceptance): with at least one attempt allowed, the test succeeds exactly if one of the attempts is within all
limits and all earlier ones were rejected because of a time complexity, each followed by a reset that did not panic. -/
theorem C53_accepts_iff (env : CrudEnv) (cfg : CrudCfg) (max : Nat) (hmax : max ≥ 1) (t : List Ev) :
    (testCrud env cfg max t).1 = .ok () ↔
      ∃ k, k < max ∧ Accepted env cfg t k ∧ ∀ j, j < k → TimeRejected env cfg t j ∧ resetAfter env cfg t j = .ok () := by
  have := testLoop_ok_iff env cfg max t max 0 [] hmax (by omega)
  unfold testCrud
  constructor
  · intro h
    obtain ⟨j, -, h2, h3, h4⟩ := this.1 ⟨(testLoop env cfg max max 0 [] t).2, by rw [← h]; rfl⟩
    exact ⟨j, h2, h3, fun i hi => h4 i (Nat.zero_le _) hi⟩
  · rintro ⟨k, h1, h2, h3⟩
    obtain ⟨t', h⟩ := this.2 ⟨k, Nat.zero_le _, h1, h2, fun i _ hi => h3 i hi⟩
    have h' : testLoop env cfg max max 0 [] t = (.ok (), t') := h
    rw [h']

/-- **C53** (attempts): the last attempt made has a number below `max_retry_attempts`, all earlier ones were rejected because
of a time complexity, and it was not itself so rejected unless it was the last one allowed, or `reset_fn` panicked after it (the test then
ends with that panic). Between two attempts `reset_fn(100)` was called once (`betweenAttempts`). -/
theorem C53_attempts (env : CrudEnv) (cfg : CrudCfg) (max : Nat) (hmax : max ≥ 1) (t : List Ev) :
    ∃ k, k < max ∧ (∀ j, j < k → TimeRejected env cfg t j ∧ resetAfter env cfg t j = .ok ()) ∧
      (((TimeRejected env cfg t k → k + 1 = max) ∧ (testCrud env cfg max t).2 = (attempt env cfg k (beforeAttempt env cfg t k)).2) ∨
       (TimeRejected env cfg t k ∧ k + 1 < max ∧
        (∃ p, resetAfter env cfg t k = .error p ∧ (testCrud env cfg max t).1 = .error p) ∧
        (testCrud env cfg max t).2 = (attempt env cfg k (beforeAttempt env cfg t k)).2 ++ [.out (retryText k), .reset 100])) := by
  obtain ⟨k, -, h2, h3, h4⟩ := testLoop_trace env cfg max t max 0 [] hmax (by omega)
  exact ⟨k, h2, fun j hj => h3 j (Nat.zero_le _) hj, h4⟩

/-! ## C79: how a failed test ends -/

/-- **C79** (four ways to fail): a test that does not succeed panics because of its last attempt: with the panic of that attempt; or
because the attempt was rejected for another reason than time, with a message telling the number of the attempt; or because it
was the last attempt allowed and was rejected for its time, with a message that tells the number of attempts, the last
rejection and a summary of all the earlier ones; or with the panic of the reset before the next attempt. -/
theorem C79_failure (env : CrudEnv) (cfg : CrudCfg) (max : Nat) (hmax : max ≥ 1) (t : List Ev) (p : Panic)
    (h : (testCrud env cfg max t).1 = .error p) :
    ∃ k, k < max ∧ (∀ j, j < k → TimeRejected env cfg t j ∧ resetAfter env cfg t j = .ok ()) ∧
      ((attempt env cfg k (beforeAttempt env cfg t k)).1 = .panic p ∨
       (∃ e, rejection env cfg t k = some e ∧ e.failedAnalysis ≠ "Time" ∧
        p = .msg ("At attempt #" ++ toString (k + 1) ++ ", SPACE complexity mismatch: " ++ rejectionText e ++ "\n")) ∨
       (k + 1 = max ∧ ∃ e, rejection env cfg t k = some e ∧ e.failedAnalysis = "Time" ∧ ∃ summary,
        SummaryOf ((List.range k).filterMap (rejection env cfg t)) summary ∧
        p = .msg ("After " ++ toString max ++ " attempts, gave up retrying: " ++ rejectionText e ++ ".\nPrevious attempts failed at:\n" ++ summary)) ∨
       (k + 1 < max ∧ TimeRejected env cfg t k ∧ resetAfter env cfg t k = .error p)) := by
  obtain ⟨j, -, h2, h3, h4⟩ := testLoop_outcome env cfg max t max 0 hmax (by omega)
  have h' : (testLoop env cfg max max 0 (rejectionsBefore env cfg t 0) (beforeAttempt env cfg t 0)).1 = .error p := h
  rw [h'] at h4
  have hrej : rejection env cfg t j = match (attempt env cfg j (beforeAttempt env cfg t j)).1 with
      | .fail e => some e
      | _ => none := rfl
  have hT : TimeRejected env cfg t j ↔ ∃ e, (attempt env cfg j (beforeAttempt env cfg t j)).1 = .fail e ∧ e.failedAnalysis = "Time" := Iff.rfl
  refine ⟨j, h2, fun i hi => h3 i (Nat.zero_le _) hi, ?_⟩
  generalize (attempt env cfg j (beforeAttempt env cfg t j)).1 = r at h4 hrej hT
  cases r with
  | ok a => cases h4
  | panic e => cases h4; exact Or.inl rfl
  | fail e =>
    by_cases he : e.failedAnalysis = "Time"
    · rcases h4.1 he with ⟨h5, h6⟩ | ⟨h5, p', h6, h7⟩
      · exact Or.inr (Or.inr (Or.inl ⟨h5, e, hrej, he, _, previousErrors_summary _, Except.error.inj h6⟩))
      · cases h7
        exact Or.inr (Or.inr (Or.inr ⟨h5, hT.2 ⟨e, rfl, he⟩, h6⟩))
    · exact Or.inr (Or.inl ⟨e, hrej, he, Except.error.inj (h4.2 he)⟩)

/-- **C79** (nothing is lost): the summary is about as many failures as there were attempts before the last one. -/
theorem C79_all_attempts (env : CrudEnv) (cfg : CrudCfg) (t : List Ev) (k : Nat) (h : ∀ j, j < k → TimeRejected env cfg t j) :
    ((List.range k).filterMap (rejection env cfg t)).length = k := by
  induction k with
  | zero => rfl
  | succ k ih =>
    rw [List.range_succ, List.filterMap_append, List.length_append, ih fun j hj => h j (by omega)]
    obtain ⟨e, he, -⟩ := h k (by omega)
    have : rejection env cfg t k = some e := by unfold rejection; rw [he]
    simp [this]

/-! ## C55: adapted iteration counts -/

theorem adapt_factor (k : Nat) : 2 ≤ 10 - (k % 15 / 3) * 2 ∧ 10 - (k % 15 / 3) * 2 ≤ 10 := by omega

/-- **C55.** Whenever an attempt gets an iteration count, it is at least a tenth of the requested one (rounded down) and at
most one and a half times it; the first attempt uses the requested one. The only way not to get one is an overflow of the
addition for counts beyond two thirds of the `u32` range, in a build with overflow checks; no attempt divides by zero. -/
theorem C55_adapt_bounds (p : Profile) (k n : Nat) (hn : n < 2 ^ 32) :
    adapt p 0 n = .ok n ∧
    (∀ m, adapt p k n = .ok m → n + n / 2 < 2 ^ 32 ∨ p = .checked → n / 10 ≤ m ∧ 2 * m ≤ 3 * n) ∧
    (n + n / 2 < 2 ^ 32 → ∃ m, adapt p k n = .ok m) ∧
    (∀ e, adapt p k n = .error e → p = .checked ∧ e = .addOverflow ∧ 2 ^ 32 ≤ n + n / 2) := by
  refine ⟨by simp [adapt], ?_⟩
  obtain ⟨f1, f2⟩ := adapt_factor k
  unfold adapt
  generalize 10 - (k % 15 / 3) * 2 = f at *
  have d1 : n / f ≤ n / 2 := Nat.div_le_div_left f1 (by norm_num)
  have d2 : n / 10 ≤ n / f := Nat.div_le_div_left f2 (by omega)
  have d3 : n / f ≤ n := Nat.div_le_self _ _
  simp only []
  split
  · refine ⟨?_, fun _ => ⟨n, rfl⟩, fun e h => by cases h⟩
    intro m h _
    cases h; omega
  · split
    · refine ⟨?_, fun _ => ⟨_, rfl⟩, fun e h => by cases h⟩
      intro m h _
      cases h; omega
    · have hs : u32Sub p n (n / f) = .ok (n - n / f) := by unfold u32Sub; rw [if_pos d3]
      rw [hs]
      refine ⟨?_, fun _ => ⟨_, rfl⟩, fun e h => by cases h⟩
      intro m h _
      cases h; omega
    · unfold u32Add
      by_cases h : n + n / f < 2 ^ 32
      · rw [if_pos h]
        refine ⟨?_, fun _ => ⟨_, rfl⟩, fun e h => by cases h⟩
        intro m h _
        cases h; omega
      · rw [if_neg h]
        cases p with
        | checked =>
          refine ⟨fun m h => (by cases h), fun h => (by omega), ?_⟩
          intro e h; cases h; exact ⟨rfl, rfl, by omega⟩
        | wrapping =>
          refine ⟨?_, fun h => by omega, fun e h => by cases h⟩
          rintro m - (h | h)
          · omega
          · cases h

/-! ## C56: no limits, no rejection -/

/-- **C56.** `analyse_crud_algorithms` never panics because of a complexity: its `unwrap` never meets an error, so if it panics
the panic is one raised inside the analysis (by a closure, an overflow or a report). -/
theorem C56_never_rejected (env : CrudEnv) (cfg : CrudCfg) (t : List Ev) :
    (∀ e, (internalAnalyse env cfg.unlimited t).1 ≠ .fail e) ∧
    ∀ e, (analyseCrud env cfg t).1 = .error e → (internalAnalyse env cfg.unlimited t).1 = .panic e := by
  have key : ∀ e, (internalAnalyse env cfg.unlimited t).1 ≠ .fail e := by
    intro e he
    obtain ⟨s', hb, -⟩ := internalAnalyse_fail.1
      (show internalAnalyse env cfg.unlimited t = (.fail e, (internalAnalyse env cfg.unlimited t).2) by rw [← he])
    exact NoFail.body (cfg := cfg.unlimited) (fun o => ⟨rfl, rfl⟩) env (crudStart t) e (by rw [hb])
  refine ⟨key, ?_⟩
  intro e he
  unfold analyseCrud at he
  generalize internalAnalyse env cfg.unlimited t = x at he key
  obtain ⟨r, t'⟩ := x
  cases r with
  | ok b => cases he
  | fail e' => exact absurd rfl (key e')
  | panic e' => cases he; rfl

/-- **C56** (total): if the closures do not panic, readings are plausible and all numbers fit their types, then
`analyse_crud_algorithms` returns its analyses: nothing in it panics. -/
theorem C56_returns (env : CrudEnv) (L : FloatLaws env.f64) (hb : BenignCrud env) (cfg : CrudCfg) (hf : Fits cfg) (t : List Ev) :
    ∃ a t', analyseCrud env cfg t = (.ok a, t') := by
  have hf' : Fits cfg.unlimited := hf
  have h := internalAnalyse_outcome (env := env) hf'.1 t
  have h0 := (C56_never_rejected env cfg t).1
  unfold analyseCrud
  generalize internalAnalyse env cfg.unlimited t = x at h h0
  obtain ⟨r, t'⟩ := x
  cases r with
  | ok a => exact ⟨a, t', rfl⟩
  | fail e => exact absurd rfl (h0 e)
  | panic e => exact absurd ⟨L, hb, hf'⟩ h

/-! ## C57: looser limits -/

/-- **C57** (one CRUD analysis): what is accepted under some limits is accepted under looser ones, with the same analyses, the
same report and the same history. -/
theorem C57_looser_crud (env : CrudEnv) (cfg cfg' : CrudCfg) (hl : Looser cfg cfg') (t : List Ev)
    (a : CrudAnalyses × String) (t' : List Ev) (h : internalAnalyse env cfg t = (.ok a, t')) :
    internalAnalyse env cfg' t = (.ok a, t') := by
  obtain ⟨s', hb, h1, h2⟩ := internalAnalyse_ok.1 h
  exact internalAnalyse_ok.2 ⟨s', Refines.body hl env _ _ _ hb, h1, h2⟩

/-! ## C58: accepted means within limits -/

/-- **C58** (accepted): in a successful analysis, each requested operation was run over its two documented ranges with its
thread count, its analysis carries the two measured results, its verdicts are those of these measurements, and both are
within the limits. -/
theorem C58_accepted (env : CrudEnv) (cfg : CrudCfg) (hn : NoOverflow cfg) (t : List Ev) (a : CrudAnalyses) (report : String)
    (t' : List Ev) (h : internalAnalyse env cfg t = (.ok (a, report), t')) :
    (∀ an, a.create = some an → ∃ p1 p2, ∃ n, n = (cfg.op .create).iters ∧
      MeasuredIn env t t' .pass1 .create 0 n (cfg.op .create).threads p1 ∧
      MeasuredIn env t t' .pass2 .create n (2 * n) (cfg.op .create).threads p2 ∧
      an.m = ⟨"Create", ⟨n⟩, ⟨p1.time, p2.time⟩, ⟨p1.space, p2.space⟩⟩ ∧
      an.time = analyseTimeSetResizing env.f64 ⟨n⟩ ⟨p1.time, p2.time⟩ ∧
      analyseSpaceSetResizing env.f64 env.profile ⟨n⟩ ⟨p1.space, p2.space⟩ = .ok an.space ∧
      an.time.asU32 ≤ (cfg.op .create).tmax.asU32 ∧ an.space.asU32 ≤ (cfg.op .create).smax.asU32) ∧
    (∀ an, a.delete = some an → ∃ p1 p2, ∃ n, n = (cfg.op .delete).iters ∧
      MeasuredIn env t t' .pass1 .delete n 0 (cfg.op .delete).threads p1 ∧
      MeasuredIn env t t' .pass2 .delete (2 * n) n (cfg.op .delete).threads p2 ∧
      an.m = ⟨"Delete", ⟨n⟩, ⟨p1.time, p2.time⟩, ⟨p1.space, p2.space⟩⟩ ∧
      an.time = analyseTimeSetResizing env.f64 ⟨n⟩ ⟨p1.time, p2.time⟩ ∧
      analyseSpaceSetResizing env.f64 env.profile ⟨n⟩ ⟨p1.space, p2.space⟩ = .ok an.space ∧
      an.time.asU32 ≤ (cfg.op .delete).tmax.asU32 ∧ an.space.asU32 ≤ (cfg.op .delete).smax.asU32) ∧
    (∀ op, op = .read ∨ op = .update → ∀ an, (if op = .read then a.read else a.update) = some an → ∃ p1 p2, ∃ n m,
      n = (cfg.op op).iters ∧ m = (cfg.op .create).iters ∧
      MeasuredIn env t t' .pass1 op 0 n (cfg.op op).threads p1 ∧
      MeasuredIn env t t' .pass2 op n (2 * n) (cfg.op op).threads p2 ∧
      an.m = ⟨op.title, ⟨m, 2 * m, n⟩, ⟨p1.time, p2.time⟩, ⟨p1.space, p2.space⟩⟩ ∧
      an.time = analyseTimeConstantSet env.f64 ⟨m, 2 * m, n⟩ ⟨p1.time, p2.time⟩ ∧
      analyseSpaceConstantSet env.f64 env.profile ⟨m, 2 * m, n⟩ ⟨p1.space, p2.space⟩ = .ok an.space ∧
      an.time.asU32 ≤ (cfg.op op).tmax.asU32 ∧ an.space.asU32 ≤ (cfg.op op).smax.asU32) := by
  obtain ⟨s', hb, -, rfl⟩ := internalAnalyse_ok.1 h
  obtain ⟨h1, h2, h3, h4⟩ := body_ok hb
  have pos : ∀ {α : Type} {op rf} {good : PassResult → PassResult → α → Prop} {d v an},
      Done env cfg (crudStart t).trace s'.trace op rf good d v → v = some an → (cfg.op op).iters > 0 := by
    intro α op rf good d v an hd hv
    by_contra hc
    rw [hd.1 (by omega)] at hv
    cases hv
  refine ⟨?_, ?_, ?_⟩
  · intro an han
    obtain ⟨an', a1, b1, a2, b2, p1, p2, tx, e, r1, r2, m1, m2, ⟨g1, g2, g3, g4, g5⟩, -, -⟩ := h1.2 (pos h1 han)
    obtain ⟨c1, c2⟩ := cruRange_ok env (hn .create).1
    rw [c1] at r1; rw [c2] at r2; cases r1; cases r2
    have : an' = an := by rw [han] at e; exact (Option.some.inj e).symm
    subst this
    exact ⟨p1, p2, _, rfl, m1, m2, g1, g2, g3, g4, g5⟩
  · intro an han
    obtain ⟨an', a1, b1, a2, b2, p1, p2, tx, e, r1, r2, m1, m2, ⟨g1, g2, g3, g4, g5⟩, -, -⟩ := h4.2 (pos h4 han)
    obtain ⟨c1, c2⟩ := dRange_ok env (hn .delete).1
    rw [c1] at r1; rw [c2] at r2; cases r1; cases r2
    have : an' = an := by rw [han] at e; exact (Option.some.inj e).symm
    subst this
    exact ⟨p1, p2, _, rfl, m1, m2, g1, g2, g3, g4, g5⟩
  · have two : u32Mul env.profile (cfg.op .create).iters 2 = .ok (2 * (cfg.op .create).iters) := by
      have := (hn .create).1
      rw [u32Mul_ok _ (by omega), Nat.mul_comm]
    have key : ∀ op v, Done env cfg (crudStart t).trace s'.trace op (cruRange env) (GoodCS env cfg op)
          (reportConstantSet env.f64 env.text env.profile) v → ∀ an, v = some an → ∃ p1 p2, ∃ n m,
        n = (cfg.op op).iters ∧ m = (cfg.op .create).iters ∧
        MeasuredIn env t s'.trace .pass1 op 0 n (cfg.op op).threads p1 ∧
        MeasuredIn env t s'.trace .pass2 op n (2 * n) (cfg.op op).threads p2 ∧
        an.m = ⟨op.title, ⟨m, 2 * m, n⟩, ⟨p1.time, p2.time⟩, ⟨p1.space, p2.space⟩⟩ ∧
        an.time = analyseTimeConstantSet env.f64 ⟨m, 2 * m, n⟩ ⟨p1.time, p2.time⟩ ∧
        analyseSpaceConstantSet env.f64 env.profile ⟨m, 2 * m, n⟩ ⟨p1.space, p2.space⟩ = .ok an.space ∧
        an.time.asU32 ≤ (cfg.op op).tmax.asU32 ∧ an.space.asU32 ≤ (cfg.op op).smax.asU32 := by
      intro op v hd an han
      obtain ⟨an', a1, b1, a2, b2, p1, p2, tx, e, r1, r2, m1, m2, ⟨sz, g0, g1, g2, g3, g4, g5⟩, -, -⟩ := hd.2 (pos hd han)
      obtain ⟨c1, c2⟩ := cruRange_ok env (hn op).1
      rw [c1] at r1; rw [c2] at r2; cases r1; cases r2
      have : an' = an := by rw [han] at e; exact (Option.some.inj e).symm
      subst this
      rw [two] at g0; cases g0
      exact ⟨p1, p2, _, _, rfl, rfl, m1, m2, g1, g2, g3, g4, g5⟩
    rintro op (rfl | rfl) an han
    · exact key .read _ h2 an (by simpa using han)
    · exact key .update _ h3 an (by simpa using han)

/-- **C58** (rejected): an analysis is rejected only with an error naming an operation and a measured class beyond the limit of
that operation; its text names the operation, the kind of limit, the limit and the measured class. -/
theorem C58_rejected (env : CrudEnv) (cfg : CrudCfg) (t : List Ev) (e : CrudError)
    (h : (internalAnalyse env cfg t).1 = .fail e) :
    ∃ op, e.failedOperation = op.title ∧
      ((e.failedAnalysis = "Time" ∧ (cfg.op op).tmax.asU32 < e.failedComplexity.asU32 ∧
        e.failedAssertionMsg = complaint op.title "TIME" (cfg.op op).tmax e.failedComplexity) ∨
       (e.failedAnalysis = "Space" ∧ (cfg.op op).smax.asU32 < e.failedComplexity.asU32 ∧
        e.failedAssertionMsg = complaint op.title "SPACE" (cfg.op op).smax e.failedComplexity)) := by
  obtain ⟨s', hb, -⟩ := internalAnalyse_fail.1 (show internalAnalyse env cfg t = (.fail e, (internalAnalyse env cfg t).2) by rw [← h])
  exact (FailP.body env (crudStart t) e (by rw [hb])).1

/-- **C58** (why): a rejected analysis has measured both passes of the operation named in the error, over its documented ranges and
with its threads, and the class named is the one of these two measurements; it is beyond the limit. A space class is
only named if the time class of that operation was within its limit. -/
theorem C58_rejected_verdict (env : CrudEnv) (cfg : CrudCfg) (hn : NoOverflow cfg) (t : List Ev) (e : CrudError) (t' : List Ev)
    (h : internalAnalyse env cfg t = (.fail e, t')) : Blames env cfg t t' e := by
  have := internalAnalyse_outcome (env := env) hn t
  rw [h] at this
  exact this

/-- **C58** (no third way): if the closures do not panic, readings are plausible and all numbers fit their types, an analysis is
either accepted or rejected for a measured class beyond a limit; it never panics. -/
theorem C58_accepted_or_rejected (env : CrudEnv) (L : FloatLaws env.f64) (hb : BenignCrud env) (cfg : CrudCfg) (hf : Fits cfg) (t : List Ev) :
    (∃ a t', internalAnalyse env cfg t = (.ok a, t')) ∨ (∃ e t', internalAnalyse env cfg t = (.fail e, t') ∧ Blames env cfg t t' e) := by
  have h := internalAnalyse_outcome (env := env) hf.1 t
  generalize internalAnalyse env cfg t = x at h
  obtain ⟨r, t'⟩ := x
  cases r with
  | ok a => exact Or.inl ⟨a, t', rfl⟩
  | fail e => exact Or.inr ⟨e, t', rfl, h⟩
  | panic e => exact absurd ⟨L, hb, hf⟩ h

/-! ## C59: the full report -/

/-- **C59** (exactly the output): the returned report is the concatenation of all texts output by the analysis. -/
theorem C59_report_is_output (env : CrudEnv) (cfg : CrudCfg) (t : List Ev) (a : CrudAnalyses) (report : String) (t' : List Ev)
    (h : internalAnalyse env cfg t = (.ok (a, report), t')) : ∃ ext, t' = t ++ ext ∧ report = texts ext := by
  obtain ⟨s', hb, h1, rfl⟩ := internalAnalyse_ok.1 h
  obtain ⟨ext, e1, e2⟩ := Pres.body (ReportsAll.closed cfg) env (crudStart t)
  rw [hb] at e1 e2
  have h1' : report = s'.report := h1
  have e2' : s'.report = "" ++ texts ext := e2
  exact ⟨ext, e1, by rw [h1', e2']; simp⟩

/-- **C59** (rejected analyses): the report in the error is the concatenation of all texts output by the analysis. -/
theorem C59_rejected_report (env : CrudEnv) (cfg : CrudCfg) (t : List Ev) (e : CrudError) (t' : List Ev)
    (h : internalAnalyse env cfg t = (.fail e, t')) : ∃ ext, t' = t ++ ext ∧ e.partialReport = texts ext := by
  obtain ⟨s', hb, rfl⟩ := internalAnalyse_fail.1 h
  have h1 := (FailP.body env (crudStart t) e (by rw [hb])).2
  obtain ⟨ext, e1, e2⟩ := Pres.body (ReportsAll.closed cfg) env (crudStart t)
  rw [hb] at e1 e2 h1
  have h1' : e.partialReport = s'.report := h1
  have e2' : s'.report = "" ++ texts ext := e2
  exact ⟨ext, e1, by rw [h1', e2']; simp⟩

/-- **C59** (complete): the text of every analysis that was made is in the output. -/
theorem C59_every_analysis (env : CrudEnv) (cfg : CrudCfg) (t : List Ev) (a : CrudAnalyses) (report : String) (t' : List Ev)
    (h : internalAnalyse env cfg t = (.ok (a, report), t')) :
    (∀ an, a.create = some an → ∃ tx, reportSetResizing env.f64 env.text env.profile an = .ok tx ∧ SaidIn t t' (tx ++ "\n\n")) ∧
    (∀ an, a.read = some an → ∃ tx, reportConstantSet env.f64 env.text env.profile an = .ok tx ∧ SaidIn t t' (tx ++ "\n\n")) ∧
    (∀ an, a.update = some an → ∃ tx, reportConstantSet env.f64 env.text env.profile an = .ok tx ∧ SaidIn t t' (tx ++ "\n\n")) ∧
    (∀ an, a.delete = some an → ∃ tx, reportSetResizing env.f64 env.text env.profile an = .ok tx ∧ SaidIn t t' (tx ++ "\n\n")) := by
  obtain ⟨s', hb, -, rfl⟩ := internalAnalyse_ok.1 h
  obtain ⟨h1, h2, h3, h4⟩ := body_ok hb
  have key : ∀ {α : Type} {op rf} {good : PassResult → PassResult → α → Prop} {d v},
      Done env cfg (crudStart t).trace s'.trace op rf good d v → ∀ an, v = some an → ∃ tx, d an = .ok tx ∧ SaidIn t s'.trace (tx ++ "\n\n") := by
    intro α op rf good d v hd an hv
    have hi : (cfg.op op).iters > 0 := by
      by_contra hc
      rw [hd.1 (by omega)] at hv
      cases hv
    obtain ⟨an', _, _, _, _, _, _, tx, e, _, _, _, _, _, h5, h6⟩ := hd.2 hi
    have : an' = an := by rw [hv] at e; exact (Option.some.inj e).symm
    subst this
    exact ⟨tx, h5, h6⟩
  exact ⟨key h1, key h2, key h3, key h4⟩

/-! ## C54: something is measured -/

theorem adapt_pos (p : Profile) (k n m : Nat) (hn : n + n / 2 < 2 ^ 32) (h : adapt p k n = .ok m) (hp : (k = 0 ∧ 0 < n) ∨ 10 ≤ n) : 0 < m := by
  obtain ⟨h1, h2, -⟩ := C55_adapt_bounds p k n (by omega)
  rcases hp with ⟨rfl, hp⟩ | hp
  · rw [h1] at h; cases h; exact hp
  · have := h2 m h (Or.inl hn); omega

theorem adaptCfg_ok {p k} {cfg cfg' : CrudCfg} (h : adaptCfg p k cfg = .ok cfg') (o : Op) :
    adapt p k (cfg.op o).iters = .ok (cfg'.op o).iters ∧ (cfg'.op o).threads = (cfg.op o).threads ∧
    (cfg'.op o).tmax = (cfg.op o).tmax ∧ (cfg'.op o).smax = (cfg.op o).smax ∧ cfg'.warmup = cfg.warmup := by
  unfold adaptCfg at h
  cases hc : adapt p k (cfg.op .create).iters with
  | error e => rw [hc] at h; cases h
  | ok c =>
    cases hr : adapt p k (cfg.op .read).iters with
    | error e => rw [hc, hr] at h; cases h
    | ok r =>
      cases hu : adapt p k (cfg.op .update).iters with
      | error e => rw [hc, hr, hu] at h; cases h
      | ok u =>
        cases hd : adapt p k (cfg.op .delete).iters with
        | error e => rw [hc, hr, hu, hd] at h; cases h
        | ok d =>
          rw [hc, hr, hu, hd] at h
          cases h
          cases o
          · exact ⟨hc, rfl, rfl, rfl, rfl⟩
          · exact ⟨hr, rfl, rfl, rfl, rfl⟩
          · exact ⟨hu, rfl, rfl, rfl, rfl⟩
          · exact ⟨hd, rfl, rfl, rfl, rfl⟩

/-- **C54**, true part: in the accepted attempt of a successful test with `max_retry_attempts ≥ 1`, every operation requested
with at least 10 iterations (or with at least one, if the first attempt is the accepted one) was measured in both passes.
Missing: `max_retry_attempts = 0` and smaller counts on retries, see the two other theorems. -/
theorem C54_measured_partial (env : CrudEnv) (cfg : CrudCfg) (max : Nat) (hmax : max ≥ 1) (t : List Ev)
    (h : (testCrud env cfg max t).1 = .ok ()) :
    ∃ k, k < max ∧ ∃ a t', attempt env cfg k (beforeAttempt env cfg t k) = (.ok a, t') ∧
      ∀ op, (cfg.op op).iters + (cfg.op op).iters / 2 < 2 ^ 32 → (k = 0 ∧ 0 < (cfg.op op).iters) ∨ 10 ≤ (cfg.op op).iters →
        ∃ a1 b1 a2 b2 p1 p2, MeasuredIn env (beforeAttempt env cfg t k) t' .pass1 op a1 b1 (cfg.op op).threads p1 ∧
          MeasuredIn env (beforeAttempt env cfg t k) t' .pass2 op a2 b2 (cfg.op op).threads p2 := by
  obtain ⟨k, hk, ⟨a, ha⟩, -⟩ := (C53_accepts_iff env cfg max hmax t).1 h
  refine ⟨k, hk, a, (attempt env cfg k (beforeAttempt env cfg t k)).2, by rw [← ha], ?_⟩
  intro op hov hreq
  unfold attempt at ha ⊢
  cases hc : adaptCfg env.profile k cfg with
  | error e => rw [hc] at ha; cases ha
  | ok cfg' =>
    rw [hc] at ha
    obtain ⟨e1, e2, -⟩ := adaptCfg_ok hc op
    have hpos := adapt_pos _ _ _ _ hov e1 hreq
    simp only at ha ⊢
    obtain ⟨s', hb, -, h2⟩ := internalAnalyse_ok.1
      (show internalAnalyse env cfg' (beforeAttempt env cfg t k) = (.ok a, (internalAnalyse env cfg' (beforeAttempt env cfg t k)).2) by rw [← ha])
    rw [h2]
    obtain ⟨h1, h2, h3, h4⟩ := body_ok hb
    have key : ∀ {α : Type} {rf} {good : PassResult → PassResult → α → Prop} {d v},
        Done env cfg' (crudStart (beforeAttempt env cfg t k)).trace s'.trace op rf good d v → ∃ a1 b1 a2 b2 p1 p2,
          MeasuredIn env (beforeAttempt env cfg t k) s'.trace .pass1 op a1 b1 (cfg.op op).threads p1 ∧
          MeasuredIn env (beforeAttempt env cfg t k) s'.trace .pass2 op a2 b2 (cfg.op op).threads p2 := by
      intro α rf good d v hd
      obtain ⟨_, a1, b1, a2, b2, p1, p2, _, _, _, _, m1, m2, _⟩ := hd.2 hpos
      rw [e2] at m1 m2
      exact ⟨a1, b1, a2, b2, p1, p2, m1, m2⟩
    cases op
    · exact key h1
    · exact key h2
    · exact key h3
    · exact key h4

/-- **C54**, no attempts: with `max_retry_attempts = 0` every test succeeds, and nothing at all is run. -/
theorem C54_zero_attempts (env : CrudEnv) (cfg : CrudCfg) (t : List Ev) : testCrud env cfg 0 t = (.ok (), t) := rfl

/-- **C54**, tiny counts: if all operations are requested with fewer than 10 iterations and the first attempt is rejected because
of a time complexity, the second attempt runs no closure at all (its adapted counts are 0). -/
theorem C54_tiny_counts (env : CrudEnv) (cfg : CrudCfg) (h10 : ∀ o, (cfg.op o).iters < 10) (t : List Ev) (op : Op) :
    ∃ ext, (attempt env cfg 1 t).2 = t ++ ext ∧ ∀ e ∈ ext, ¬ e.isRunOf op := by
  unfold attempt
  cases hc : adaptCfg env.profile 1 cfg with
  | error e => exact ⟨[], by simp, by simp⟩
  | ok cfg' =>
    obtain ⟨e1, -⟩ := adaptCfg_ok hc op
    have hz : (cfg'.op op).iters = 0 := by
      have : adapt env.profile 1 (cfg.op op).iters = .ok ((cfg.op op).iters / 10) := rfl
      rw [this] at e1
      have := h10 op
      have e2 := Except.ok.inj e1
      omega
    exact C51_never_called env cfg' op hz t

/-- an analysis of nothing succeeds -/
theorem nothing_requested (env : CrudEnv) (hreset : CalmReset env) (cfg : CrudCfg) (h0 : ∀ o, (cfg.op o).iters = 0) (t : List Ev) :
    ∃ a t', internalAnalyse env cfg t = (.ok a, t') := by
  have hw : ∀ op l s, warmupOp env cfg op l s = (.ok (), s) := by
    intro op l s
    unfold warmupOp
    rw [if_neg (by rw [h0]; omega)]; rfl
  have hz : ∀ m, u32Mul env.profile 0 m = .ok 0 := by
    intro m; rw [u32Mul_ok _ (by simp)]; simp
  have hwarm : ∀ s, ∃ s', warmup env cfg s = (.ok (), s') := by
    intro s
    unfold warmup
    split
    · have : M.lift (u32Mul env.profile (cfg.op .create).iters cfg.warmup) = M.lift (.ok 0) := by rw [h0, hz]
      rw [this]
      rw [M.bind_ok (show output "warming up [" s = (.ok (), _) from rfl), M.bind_ok (hw _ _ _), M.bind_ok (hw _ _ _),
        M.bind_ok (hw _ _ _), M.bind_ok (hw _ _ _)]
      have hr : ∀ n s, callReset env n s = (.ok (), { s with trace := s.trace ++ [.reset n] }) := by
        intro n s
        unfold callReset
        rw [hreset]
      rw [M.bind_ok (show output "] " _ = (.ok (), _) from rfl), M.bind_ok (show M.lift (Except.ok 0) _ = (.ok 0, _) from rfl),
        M.bind_ok (hr _ _)]
      exact ⟨_, rfl⟩
    · exact ⟨s, rfl⟩
  have hsr : ∀ op suff pref rf last k s, setResizingPass env cfg op suff pref rf last k s = (.ok none, s) := by
    intro op suff pref rf last k s
    unfold setResizingPass
    rw [if_neg (by rw [h0]; omega)]; rfl
  have hcs : ∀ op suff pref k s, constantSetPass env cfg op suff pref k s = (.ok none, s) := by
    intro op suff pref k s
    unfold constantSetPass
    rw [if_neg (by rw [h0]; omega)]; rfl
  have hrep : ∀ {α : Type} (op : Op) (a : Option α) d s, outputReport (cfg.op op) a d s = (.ok (), s) := by
    intro α op a d s
    unfold outputReport
    rw [if_neg (by rw [h0]; omega)]; rfl
  have hd : ∀ s, deletePasses env cfg s = (.ok none, s) := by
    intro s
    unfold deletePasses
    rw [if_neg (by rw [h0]; omega)]; rfl
  obtain ⟨s', hs'⟩ := hwarm (output (cfg.name ++ " CRUD Algorithm Complexity Analysis:\n  ") (crudStart t)).2
  have hbody : ∃ a s, analyseBody env cfg (crudStart t) = (.ok a, s) := by
    unfold analyseBody createPass readPass updatePass
    rw [M.bind_ok (show output _ (crudStart t) = (.ok (), (output _ (crudStart t)).2) from rfl), M.bind_ok hs',
      M.bind_ok (show output _ s' = (.ok (), _) from rfl), M.bind_ok (hsr _ _ _ _ _ _ _), M.bind_ok (hcs _ _ _ _ _), M.bind_ok (hcs _ _ _ _ _),
      M.bind_ok (show output _ _ = (.ok (), _) from rfl), M.bind_ok (hsr _ _ _ _ _ _ _), M.bind_ok (hcs _ _ _ _ _), M.bind_ok (hcs _ _ _ _ _),
      M.bind_ok (show output _ _ = (.ok (), _) from rfl), M.bind_ok (hrep _ _ _ _), M.bind_ok (hrep _ _ _ _), M.bind_ok (hrep _ _ _ _),
      M.bind_ok (hd _)]
    exact ⟨_, _, rfl⟩
  obtain ⟨a, s, hs⟩ := hbody
  exact ⟨(a, s.report), s.trace, internalAnalyse_ok.2 ⟨s, hs, rfl, rfl⟩⟩

/-- **C54** is false of the code: whenever all operations are requested with fewer than 10 iterations, at least two attempts are
allowed and the first attempt is rejected because of a time complexity, the test succeeds, although the only attempt that ran
any closure was rejected. (`reset_fn` not panicking.) -/
theorem C54_accepts_rejected (env : CrudEnv) (hreset : CalmReset env) (cfg : CrudCfg) (h10 : ∀ o, (cfg.op o).iters < 10) (max : Nat) (hmax : max ≥ 2) (t : List Ev)
    (h : TimeRejected env cfg t 0) : (testCrud env cfg max t).1 = .ok () := by
  rw [C53_accepts_iff env cfg max (by omega)]
  refine ⟨1, by omega, ?_, fun j hj => (Nat.lt_one_iff.1 hj) ▸ ⟨h, hreset _ _⟩⟩
  unfold Accepted attempt
  have hc : ∀ o, adapt env.profile 1 (cfg.op o).iters = .ok 0 := by
    intro o
    have : adapt env.profile 1 (cfg.op o).iters = .ok ((cfg.op o).iters / 10) := rfl
    rw [this, Nat.div_eq_of_lt (h10 o)]
  have ha : ∃ cfg', adaptCfg env.profile 1 cfg = .ok cfg' ∧ ∀ o, (cfg'.op o).iters = 0 := by
    unfold adaptCfg
    rw [hc, hc, hc, hc]
    exact ⟨_, rfl, fun o => by cases o <;> rfl⟩
  obtain ⟨cfg', h1, h2⟩ := ha
  rw [h1]
  obtain ⟨a, t', h3⟩ := nothing_requested env hreset cfg' h2 (beforeAttempt env cfg t 1)
  exact ⟨a, by simp only [h3]⟩

/-! ## concrete cases -/

/-- closures whose passes take 1 s and need 100 bytes, whatever their size -/
noncomputable def steadyCrudEnv (E : FloatEnv) (T : TextEnv) : CrudEnv :=
  ⟨.checked, E, T, fun _ _ _ _ _ _ => .ok (⟨10 ^ 9, ⟨50, 50, 150, 50⟩⟩, 0), fun _ => 10 ^ 9, fun _ _ => .ok ()⟩

theorem steadyCrud_benign (E : FloatEnv) (T : TextEnv) : BenignCrud (steadyCrudEnv E T) := by
  refine ⟨fun _ _ => rfl, fun tr ph op a b th => ⟨_, _, rfl, ⟨by norm_num, by norm_num, by norm_num, by norm_num⟩, ?_⟩⟩
  show 10 ^ 9 / 10 ^ 9 < 2 ^ 53
  norm_num

/-- 100 elements per pass with 2 threads for all operations but update, the given limit on time, and a warm-up of 10% -/
def steadyCfg (n : Nat) (tmax : Complexity) : CrudCfg :=
  ⟨"steady", 10, fun o => ⟨if o = .update then 0 else n, 2, tmax, .o1⟩⟩

theorem steadyCfg_fits (n : Nat) (hn : n ≤ 1000) (tmax : Complexity) : Fits (steadyCfg n tmax) := by
  have key : ∀ o, ((steadyCfg n tmax).op o).iters ≤ 1000 := by
    intro o
    show (if o = .update then 0 else n) ≤ 1000
    split <;> omega
  refine ⟨fun o => ?_, fun o _ => ⟨?_, by show 1 ≤ 2; omega, by show 2 < 2 ^ 31; norm_num⟩⟩
  · have := key o
    refine ⟨by omega, ?_⟩
    show ((steadyCfg n tmax).op o).iters * 10 < 2 ^ 32
    omega
  · have := key o; omega

/-- all its classes are `O(1)` -/
theorem steadyCrud_o1 (E : FloatEnv) (L : FloatLaws E) (T : TextEnv) (cfg : CrudCfg) (op : Op) (p1 p2 : PassResult)
    (h1 : p1 = ⟨10 ^ 9, ⟨50, 50, 150, 50⟩⟩) (h2 : p2 = ⟨10 ^ 9, ⟨50, 50, 150, 50⟩⟩) :
    opTime (steadyCrudEnv E T) cfg op p1 p2 = .o1 ∧ opSpace (steadyCrudEnv E T) cfg op p1 p2 = .ok .o1 := by
  have hn : ∀ k : ℕ, 0 < k → k ≤ 2 ^ 53 → E.ofNat k = F.fin k := by
    intro k hk hk'
    unfold FloatEnv.ofNat FloatEnv.rnd0
    rw [if_neg (by exact_mod_cast hk.ne'), L.rnd_nat k hk']
  have h1s : asSecsF64 E (10 ^ 9) = F.fin 1 := by
    unfold asSecsF64
    have e1 : (10 ^ 9 / 10 ^ 9 : ℕ) = 1 := by norm_num
    have e2 : (10 ^ 9 % 10 ^ 9 : ℕ) = 0 := by norm_num
    rw [e1, e2, hn 1 (by norm_num) (by norm_num)]
    have e3 : E.ofNat 0 = F.fin 0 := by simp [FloatEnv.ofNat, FloatEnv.rnd0]
    have e4 : E.div (F.fin 0) (F.fin (10 ^ 9)) = F.fin 0 := by
      simp [FloatEnv.div, FloatEnv.divFin, F.val, F.zero, F.neg, Xor]
    rw [e3, e4]
    show E.rnd0 (((1:ℕ):ℝ) + 0) = _
    have := hn 1 (by norm_num) (by norm_num)
    rw [add_zero]
    simpa [FloatEnv.ofNat] using this
  have e : usizeSub .checked 150 50 = .ok 100 := rfl
  have c1 := fun n1 n2 => C08_equal_usage_partial E L 1 (by norm_num) n1 n2
  have c2 := fun n1 n2 => C08_equal_usage_partial E L (100:ℕ) (by norm_num) n1 n2
  subst h1 h2
  cases op <;> unfold opTime opSpace steadyCrudEnv <;>
    simp only [analyseTimeSetResizing, analyseTimeConstantSet, analyseSpaceSetResizing, analyseSpaceConstantSet, h1s, e, bind, Except.bind,
      pure, Except.pure, hn 100 (by norm_num) (by norm_num)] <;>
    first
    | exact ⟨(c1 _ (F.fin 0)).2, congrArg _ (c2 _ (F.fin 0)).2⟩
    | exact ⟨(c1 _ _).1, congrArg _ (c2 _ _).1⟩

/-- an error of the steady environment names `O(1)` as beyond a limit -/
theorem steadyCrud_blames (E : FloatEnv) (L : FloatLaws E) (T : TextEnv) {cfg : CrudCfg} {t t' e} (h : Blames (steadyCrudEnv E T) cfg t t' e) :
    ∃ op, 0 < (cfg.op op).iters ∧ e.failedOperation = op.title ∧ e.failedComplexity = .o1 ∧
      ((e.failedAnalysis = "Time" ∧ (cfg.op op).tmax.asU32 < 1) ∨ (e.failedAnalysis = "Space" ∧ (cfg.op op).smax.asU32 < 1)) := by
  obtain ⟨op, p1, p2, h1, h2, ⟨⟨_, _, _, -, m1⟩, ⟨_, _, _, -, m2⟩⟩, h5, -⟩ := h
  have e1 : p1 = ⟨10 ^ 9, ⟨50, 50, 150, 50⟩⟩ := (congrArg Prod.fst (Except.ok.inj m1)).symm
  have e2 : p2 = ⟨10 ^ 9, ⟨50, 50, 150, 50⟩⟩ := (congrArg Prod.fst (Except.ok.inj m2)).symm
  obtain ⟨o1, o2⟩ := steadyCrud_o1 E L T cfg op p1 p2 e1 e2
  rw [o1, o2] at h5
  refine ⟨op, h1, h2, ?_⟩
  rcases h5 with ⟨a, b, c⟩ | ⟨a, -, b, c⟩
  · exact ⟨b, Or.inl ⟨a, c⟩⟩
  · have := Except.ok.inj b
    rw [← this] at c
    exact ⟨this.symm, Or.inr ⟨a, c⟩⟩

/-- the shipped arithmetic -/
noncomputable abbrev shipped : FloatEnv := binary64Env id (fun x _ => x) (fun x _ => x) (binary64.round (1 / 10))

theorem shipped_laws : FloatLaws shipped := C17_laws_10 _ _ _

/-- with `O(1)` as limits it is accepted -/
theorem steady_accepted (T : TextEnv) (n : Nat) (hn : n ≤ 1000) (t : List Ev) :
    ∃ a t', internalAnalyse (steadyCrudEnv shipped T) (steadyCfg n .o1) t = (.ok a, t') := by
  rcases C58_accepted_or_rejected (steadyCrudEnv shipped T) shipped_laws (steadyCrud_benign _ T) _ (steadyCfg_fits n hn .o1) t with h | ⟨e, t', -, h⟩
  · exact h
  · obtain ⟨op, -, -, -, ⟨-, h⟩ | ⟨-, h⟩⟩ := steadyCrud_blames shipped shipped_laws T h
    · exact absurd h (by show ¬ (1 < 1); omega)
    · exact absurd h (by show ¬ (1 < 1); omega)

/-- with a tighter limit on time it is rejected -/
theorem steady_rejected (T : TextEnv) (n : Nat) (hn : n ≤ 1000) (hp : 0 < n) (t : List Ev) :
    ∃ e t', internalAnalyse (steadyCrudEnv shipped T) (steadyCfg n .betterThanO1) t = (.fail e, t') ∧ e.failedAnalysis = "Time" ∧
      e.failedComplexity = .o1 := by
  have hf := steadyCfg_fits n hn .betterThanO1
  rcases C58_accepted_or_rejected (steadyCrudEnv shipped T) shipped_laws (steadyCrud_benign _ T) _ hf t with ⟨⟨a, rep⟩, t', h⟩ | ⟨e, t', h0, h⟩
  · exfalso
    have hs := (C51_analyses _ _ _ _ _ _ h).1.2 (show 0 < n from hp)
    obtain ⟨an, han⟩ := Option.isSome_iff_exists.1 hs
    obtain ⟨p1, p2, n', hn', ⟨_, _, _, -, m1⟩, ⟨_, _, _, -, m2⟩, -, ht, -, hle, -⟩ := (C58_accepted _ _ hf.1 _ _ _ _ h).1 an han
    have e1 : p1 = ⟨10 ^ 9, ⟨50, 50, 150, 50⟩⟩ := (congrArg Prod.fst (Except.ok.inj m1)).symm
    have e2 : p2 = ⟨10 ^ 9, ⟨50, 50, 150, 50⟩⟩ := (congrArg Prod.fst (Except.ok.inj m2)).symm
    have o1 := (steadyCrud_o1 shipped shipped_laws T (steadyCfg n .betterThanO1) .create p1 p2 e1 e2).1
    subst hn'
    have : an.time = .o1 := by rw [ht]; exact o1
    rw [this] at hle
    exact absurd hle (by show ¬ (1 ≤ 0); omega)
  · obtain ⟨op, -, -, h1, ⟨h2, -⟩ | ⟨-, h2⟩⟩ := steadyCrud_blames shipped shipped_laws T h
    · exact ⟨e, t', h0, h2, h1⟩
    · exact absurd h2 (by show ¬ (1 < 1); omega)

-- the hypotheses of C50, C52, C56 and C58 are met by a run that measures; what it ran is known (C50)
example (T : TextEnv) : ∃ a t', analyseCrud (steadyCrudEnv shipped T) (steadyCfg 100 .o1) [] = (.ok a, t') ∧
    actions t' = [.pass .warmup .create 0 10 2, .pass .warmup .read 0 10 2, .pass .warmup .delete 10 0 2, .reset 10,
      .pass .pass1 .create 0 100 2, .pass .pass1 .read 0 100 2, .pass .pass2 .create 100 200 2, .pass .pass2 .read 100 200 2,
      .pass .pass2 .delete 200 100 2, .pass .pass1 .delete 100 0 2] := by
  obtain ⟨a, t', h⟩ := C56_returns (steadyCrudEnv shipped T) shipped_laws (steadyCrud_benign _ T) (steadyCfg 100 .o1)
    (steadyCfg_fits 100 (by norm_num) .o1) []
  obtain ⟨ext, h1, -, h2⟩ := C50_analyse_phase_order (steadyCrudEnv shipped T) (steadyCfg 100 .o1) (steadyCfg_fits 100 (by norm_num) .o1).1 []
  rw [h] at h1 h2
  refine ⟨a, t', h, ?_⟩
  have e : t' = ext := h1
  rw [e, h2 ⟨a, rfl⟩]
  rfl

-- C53: accepted at the first attempt; with a limit that no attempt meets, given up after two
example (T : TextEnv) : (testCrud (steadyCrudEnv shipped T) (steadyCfg 100 .o1) 3 []).1 = .ok () := by
  rw [C53_accepts_iff _ _ _ (by norm_num)]
  refine ⟨0, by norm_num, ?_, fun j hj => by omega⟩
  obtain ⟨a, t', h⟩ := steady_accepted T 100 (by norm_num) []
  refine ⟨a, ?_⟩
  have : attempt (steadyCrudEnv shipped T) (steadyCfg 100 .o1) 0 [] = internalAnalyse (steadyCrudEnv shipped T) (steadyCfg 100 .o1) [] := by
    unfold attempt adaptCfg adapt
    simp only [if_true, bind, Except.bind, pure, Except.pure]
    congr 1
    unfold steadyCfg
    congr 1
    funext o
    cases o <;> rfl
  show (attempt (steadyCrudEnv shipped T) (steadyCfg 100 .o1) 0 []).1 = _
  rw [this, h]

-- C54 is false: the steady operations are rejected when given 5 elements and a limit that they do not meet; the second attempt is
-- accepted without running anything
example (T : TextEnv) : TimeRejected (steadyCrudEnv shipped T) (steadyCfg 5 .betterThanO1) [] 0 ∧
    (testCrud (steadyCrudEnv shipped T) (steadyCfg 5 .betterThanO1) 2 []).1 = .ok () := by
  have h : TimeRejected (steadyCrudEnv shipped T) (steadyCfg 5 .betterThanO1) [] 0 := by
    obtain ⟨e, t', h, h1, -⟩ := steady_rejected T 5 (by norm_num) (by norm_num) []
    refine ⟨e, ?_, h1⟩
    have : attempt (steadyCrudEnv shipped T) (steadyCfg 5 .betterThanO1) 0 [] =
        internalAnalyse (steadyCrudEnv shipped T) (steadyCfg 5 .betterThanO1) [] := by
      unfold attempt adaptCfg adapt
      simp only [if_true, bind, Except.bind, pure, Except.pure]
      congr 1
      unfold steadyCfg
      congr 1
      funext o
      cases o <;> rfl
    show (attempt (steadyCrudEnv shipped T) (steadyCfg 5 .betterThanO1) 0 []).1 = _
    rw [this, h]
  refine ⟨h, C54_accepts_rejected _ (fun _ _ => rfl) _ ?_ 2 (by norm_num) [] h⟩
  intro o
  show (if o = .update then 0 else 5) < 10
  split <;> omega

-- C57: `O(log n)` is looser than `O(1)`
example (T : TextEnv) : Looser (steadyCfg 100 .o1) (steadyCfg 100 .oLogN) ∧
    ∃ a t', internalAnalyse (steadyCrudEnv shipped T) (steadyCfg 100 .oLogN) [] = (.ok a, t') := by
  have hl : Looser (steadyCfg 100 .o1) (steadyCfg 100 .oLogN) :=
    ⟨rfl, rfl, fun o => ⟨rfl, rfl, by show 1 ≤ 3; omega, le_refl _⟩⟩
  obtain ⟨a, t', h⟩ := steady_accepted T 100 (by norm_num) []
  exact ⟨hl, a, t', C57_looser_crud _ _ _ hl [] a t' h⟩

-- C55: on the second attempt a tenth is used, on the third nine tenths, on the fourth eleven tenths, on the fifteenth a half more
example : adapt .checked 1 1000 = .ok 100 ∧ adapt .checked 2 1000 = .ok 900 ∧ adapt .checked 3 1000 = .ok 1125 ∧
    adapt .checked 12 1000 = .ok 1500 := by decide

-- C79: three failures, two of a kind
example : SummaryOf [⟨"Read", "Time", .oN, "", ""⟩, ⟨"Create", "Time", .oN2, "", ""⟩, ⟨"Read", "Time", .oN, "", ""⟩]
    " - Read with ON (2 times)\n - Create with ON2 (1 time)\n" :=
  previousErrors_summary [⟨"Read", "Time", .oN, "", ""⟩, ⟨"Create", "Time", .oN2, "", ""⟩, ⟨"Read", "Time", .oN, "", ""⟩]

-- C79: the steady operations do not meet a limit below `O(1)`; with one attempt allowed, the test gives up at once
example (T : TextEnv) : ∃ m, (testCrud (steadyCrudEnv shipped T) (steadyCfg 5 .betterThanO1) 1 []).1 = .error (.msg m) := by
  obtain ⟨e, t', h, h1, -⟩ := steady_rejected T 5 (by norm_num) (by norm_num) []
  have : attempt (steadyCrudEnv shipped T) (steadyCfg 5 .betterThanO1) 0 [] =
      internalAnalyse (steadyCrudEnv shipped T) (steadyCfg 5 .betterThanO1) [] := by
    unfold attempt adaptCfg adapt
    simp only [if_true, bind, Except.bind, pure, Except.pure]
    congr 1
    unfold steadyCfg
    congr 1
    funext o
    cases o <;> rfl
  unfold testCrud
  rw [testLoop_step, this, h]
  simp only [if_pos h1]
  exact ⟨_, rfl⟩

/-- the steady closures, with a `reset_fn` that panics when called between two attempts -/
noncomputable def fragileResetEnv (T : TextEnv) : CrudEnv :=
  { steadyCrudEnv shipped T with resetFn := fun _ n => if n = 100 then .error (.msg "disk full") else .ok () }

theorem fragile_warmup (T : TextEnv) : warmup (fragileResetEnv T) (steadyCfg 5 .betterThanO1) = warmup (steadyCrudEnv shipped T) (steadyCfg 5 .betterThanO1) := by
  have hm : ∀ f : Nat → M Unit, (M.lift (Except.ok 50) >>= f : M Unit) = f 50 := fun f => by funext s; rfl
  unfold warmup
  have e1 : u32Mul (fragileResetEnv T).profile ((steadyCfg 5 .betterThanO1).op .create).iters (steadyCfg 5 .betterThanO1).warmup = .ok 50 := rfl
  have e2 : u32Mul (steadyCrudEnv shipped T).profile ((steadyCfg 5 .betterThanO1).op .create).iters (steadyCfg 5 .betterThanO1).warmup = .ok 50 := rfl
  rw [e1, e2, hm, hm]
  rfl

-- C79: with several attempts allowed, the panic of the `reset_fn` between the first two ends the test
example (T : TextEnv) : (testCrud (fragileResetEnv T) (steadyCfg 5 .betterThanO1) 2 []).1 = .error (.msg "disk full") := by
  obtain ⟨e, t', h, h1, -⟩ := steady_rejected T 5 (by norm_num) (by norm_num) []
  have hb : analyseBody (fragileResetEnv T) (steadyCfg 5 .betterThanO1) = analyseBody (steadyCrudEnv shipped T) (steadyCfg 5 .betterThanO1) := by
    unfold analyseBody
    rw [fragile_warmup]
    rfl
  have hi : internalAnalyse (fragileResetEnv T) (steadyCfg 5 .betterThanO1) [] =
      internalAnalyse (steadyCrudEnv shipped T) (steadyCfg 5 .betterThanO1) [] := by
    unfold internalAnalyse
    rw [hb]
  have : attempt (fragileResetEnv T) (steadyCfg 5 .betterThanO1) 0 [] =
      internalAnalyse (fragileResetEnv T) (steadyCfg 5 .betterThanO1) [] := by
    unfold attempt adaptCfg adapt
    simp only [if_true, bind, Except.bind, pure, Except.pure]
    congr 1
    unfold steadyCfg
    congr 1
    funext o
    cases o <;> rfl
  unfold testCrud
  rw [testLoop_step, this, hi, h]
  simp only [if_pos h1]
  rfl

end BigO
