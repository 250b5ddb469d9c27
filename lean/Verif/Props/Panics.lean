import Verif.Spec.PanicSpec
import Verif.Proofs.AsyncGenuine
import Verif.Props.DryRun
import Verif.Props.Standard
import Verif.Props.Crud

/-!
# C101: a panic of the user's code ends everything at once, with that panic
-/
namespace BigO

/-! ### computations that log events -/

/-- wherever it starts, it stops at panics -/
def Stops {ε α : Type} (pan : List ε → ε → Panic → Prop) (m : P ε α) : Prop := ∀ t, StopsAtPanic pan t (m t).1 (m t).2

section
variable {ε α β : Type} {pan : List ε → ε → Panic → Prop}

theorem Stops.pure (a : α) : Stops pan (Pure.pure a : P ε α) := fun t => ⟨[], by simp [P.pure_eq], by simp⟩

theorem Stops.lift (x : Rs α) : Stops pan (P.lift x : P ε α) := fun t => ⟨[], by simp [P.lift], by simp⟩

theorem Stops.single {m : P ε α} (h : ∀ t, ∃ ev, (m t).2 = t ++ [ev] ∧
    ((∃ e, pan t ev e) → ∃ e, pan t ev e ∧ (m t).1 = .error e)) : Stops pan m := by
  intro t
  obtain ⟨ev, h1, h2⟩ := h t
  refine ⟨[ev], h1, fun pre x post he hp => ?_⟩
  cases pre with
  | nil =>
    simp only [List.nil_append, List.cons.injEq] at he
    obtain ⟨rfl, rfl⟩ := he
    rw [List.append_nil] at hp ⊢
    exact ⟨rfl, h2 hp⟩
  | cons y l => simp at he

theorem Stops.log {ev : ε} (h : ∀ t e, ¬ pan t ev e) : Stops pan (P.log ev) :=
  Stops.single fun t => ⟨ev, rfl, fun ⟨e, he⟩ => absurd he (h t e)⟩

theorem Stops.bindR {R : α → Prop} {m : P ε α} {f : α → P ε β} (h : Stops pan m) (hR : ∀ t a t', m t = (.ok a, t') → R a)
    (h' : ∀ a, R a → Stops pan (f a)) : Stops pan (m >>= f) := by
  intro t
  have hR := hR t
  obtain ⟨e1, h1, q1⟩ := h t
  rw [P.bind_eq]
  generalize hm : m t = x at *
  obtain ⟨y, t1⟩ := x
  simp only at h1 q1
  cases y with
  | error e =>
    refine ⟨e1, h1, fun pre ev post he hp => ?_⟩
    obtain ⟨a, e', b, c⟩ := q1 pre ev post he hp
    cases c
    exact ⟨a, e, b, rfl⟩
  | ok a =>
    subst h1
    obtain ⟨e2, h2, q2⟩ := h' a (hR a _ rfl) _
    refine ⟨e1 ++ e2, by simp only; rw [h2]; simp, fun pre ev post he hp => ?_⟩
    rcases List.append_eq_append_iff.1 he with ⟨l, hl, hl'⟩ | ⟨l, hl, hl'⟩
    · have := q2 l ev post hl'
      rw [hl, ← List.append_assoc] at hp ⊢
      exact this hp
    · cases l with
      | nil =>
        simp only [List.nil_append] at hl'
        have := q2 [] ev post (by simpa using hl'.symm)
        simp only [List.append_nil] at hl this hp ⊢
        rw [← hl] at hp ⊢
        exact this hp
      | cons y l =>
        simp only [List.cons_append, List.cons.injEq] at hl'
        obtain ⟨rfl, -⟩ := hl'
        obtain ⟨-, e, -, h⟩ := q1 pre ev l hl hp
        cases h

theorem Stops.bind {m : P ε α} {f : α → P ε β} (h : Stops pan m) (h' : ∀ a, Stops pan (f a)) : Stops pan (m >>= f) :=
  h.bindR (R := fun _ => True) (fun _ _ _ _ => trivial) fun a _ => h' a

theorem Stops.ite {c : Prop} [Decidable c] {m m' : P ε α} (h : Stops pan m) (h' : Stops pan m') : Stops pan (if c then m else m') := by
  split_ifs <;> assumption

theorem Stops.retryLoop {I : Type} {sleep : ε} {attempt : I → P ε (RetryResult I)} (hs : ∀ t e, ¬ pan t sleep e)
    (ha : ∀ i, Stops pan (attempt i)) (n : Nat) : ∀ i errs e, Stops pan (BigO.retryLoop sleep attempt n i errs e) := by
  induction n with
  | zero => intro i errs e; unfold BigO.retryLoop; exact .pure _
  | succ n ih =>
    intro i errs e
    unfold BigO.retryLoop
    refine (Stops.log hs).bind fun _ => (ha i).bind fun r => ?_
    cases r with
    | ok => exact .pure _
    | fatal x => exact .pure _
    | transient i' e' => exact ih i' _ e'

theorem Stops.retryWith {I : Type} {sleep : ε} {first : P ε (RetryResult I)} {attempt : I → P ε (RetryResult I)}
    (hs : ∀ t e, ¬ pan t sleep e) (hf : Stops pan first) (ha : ∀ i, Stops pan (attempt i)) (n : Nat) :
    Stops pan (BigO.retryWith sleep first attempt n) := by
  unfold BigO.retryWith
  refine hf.bind fun r => ?_
  cases r with
  | ok => exact .pure _
  | fatal x => exact .pure _
  | transient i e => exact .retryLoop hs ha n i _ e

theorem Stops.resolve (errors : List String → String) (max : Nat) (r : ResolvedResult) : Stops pan (resolveOrPanic errors max r : P ε Unit) := by
  cases r <;> unfold resolveOrPanic <;> first | exact .pure _ | exact .lift _

theorem stops_inOrder {f : α → P ε β} {l : List α} (h : ∀ a ∈ l, Stops pan (f a)) : Stops pan (inOrder f l) := by
  induction l with
  | nil => exact .pure _
  | cons a l ih =>
    unfold inOrder
    exact (h a (by simp)).bind fun _ => (ih fun x hx => h x (by simp [hx])).bind fun _ => .pure _

end

/-! ### regular tests -/

theorem stops_sync (env : RegEnv) (pref suff : String) (c : RegCall) : Stops (RegPanics env) (runSyncVerbosely env pref suff c) := by
  unfold runSyncVerbosely
  refine Stops.bind (.single fun t => ?_) fun x => (Stops.lift _).bind fun sp => (Stops.log fun t e h => h).bind fun _ => .pure _
  unfold runSync
  cases h : env.run t c with
  | error e => exact ⟨_, rfl, fun _ => ⟨e, h, rfl⟩⟩
  | ok x =>
    refine ⟨_, rfl, fun ⟨e, he⟩ => ?_⟩
    have he : env.run t c = .error e := he
    rw [h] at he; cases he

theorem stops_regular (env : RegEnv) (cfg : RegCfg) : Stops (RegPanics env) (testAlgorithm env cfg) := by
  have lg : ∀ s, Stops (RegPanics env) (P.log (.out s)) := fun s => .log fun t e h => h
  have ha : Stops (RegPanics env) (analyseAlgorithm env cfg) := by
    unfold analyseAlgorithm
    refine (lg _).bind fun _ => (stops_sync env _ _ _).bind fun _ => (stops_sync env _ _ _).bind fun x1 => (stops_sync env _ _ _).bind fun x2 => ?_
    simp only
    refine (Stops.lift _).bind fun space => (lg _).bind fun _ => (Stops.lift _).bind fun rep => (lg _).bind fun _ => ?_
    exact .ite ((lg _).bind fun _ => .pure _) (.ite ((lg _).bind fun _ => .pure _) ((lg _).bind fun _ => .pure _))
  unfold testAlgorithm
  exact (Stops.retryWith (fun t e h => h) ha (fun _ => ha) _).bind fun r => .resolve _ _ r

/-- **C101** (regular tests): if a closure panics -- in the reset, a pass, the first attempt or a retry -- the test ends with that panic:
no closure is called any more, nothing is printed, and nothing is retried. -/
theorem C101_regular (env : RegEnv) (cfg : RegCfg) (t : List RegEv) :
    StopsAtPanic (RegPanics env) t (testAlgorithm env cfg t).1 (testAlgorithm env cfg t).2 := stops_regular env cfg t

/-! ### asynchronous tests -/
section
variable {D B : Type} {aenv : AEnv}

theorem stops_async {b : Builder D B} {s : AStep} {f : AFn D} (hf : b.fn s = some f) (pref suff : String) (i : Option D) :
    Stops (AsyncPanics b) (runAsyncVerbosely aenv pref suff s f i) := by
  unfold runAsyncVerbosely
  refine Stops.bind (.single fun t => ?_) fun x => (Stops.lift _).bind fun sp => (Stops.log fun t e h => h).bind fun _ => .pure _
  unfold runAsync
  cases h : f t i with
  | error e => exact ⟨_, rfl, fun _ => ⟨e, ⟨f, hf, h⟩, rfl⟩⟩
  | ok x =>
    refine ⟨_, rfl, fun ⟨e, f', hf', he⟩ => ?_⟩
    rw [hf] at hf'; cases hf'
    rw [h] at he; cases he

theorem stops_acheck (b : Builder D B) (second : Bool) (d : D) :
    Stops (AsyncPanics b) (runCheck second (if second then b.check2 else b.check1) d) := by
  unfold runCheck
  cases hc : (if second then b.check2 else b.check1) with
  | none => exact .pure _
  | some c =>
    simp only
    refine .single fun t => ?_
    cases h : c t d with
    | error e => exact ⟨_, rfl, fun _ => ⟨e, ⟨c, hc, h⟩, rfl⟩⟩
    | ok x =>
      refine ⟨_, rfl, fun ⟨e, c', hc', he⟩ => ?_⟩
      rw [hc] at hc'; cases hc'
      rw [h] at he; cases he

theorem stops_raw (b : Builder D B) (prev : Option D) : Stops (AsyncPanics b) (rawAnalyse aenv b prev) := by
  have lg : ∀ s, Stops (AsyncPanics b) (P.log (.out s)) := fun s => .log fun t e h => h
  unfold rawAnalyse
  refine (lg _).bind fun _ => ?_
  refine Stops.bind ?_ fun d0 => ?_
  · unfold firstReset
    cases hr : b.resetFn with
    | none => exact .pure _
    | some f => exact (stops_async (s := .reset) hr _ _ _).bind fun _ => .pure _
  refine Stops.bind ?_ fun d1 => ?_
  · unfold warmUp
    cases hw : b.warmupFn with
    | none => exact .pure _
    | some f =>
      refine (stops_async (s := .warmup) hw _ _ _).bind fun x => ?_
      unfold resetAgain
      cases hr : b.resetFn with
      | none => exact .pure _
      | some f => exact (stops_async (s := .reset) hr _ _ _).bind fun _ => .pure _
  have exp : ∀ {β : Type} (o : Option (AFn D)) (m : String) (k : AFn D → P (AEv D) β), (∀ f, o = some f → Stops (AsyncPanics b) (k f)) →
      Stops (AsyncPanics b) (expectFn o m >>= k) := by
    intro β o m k hk
    cases o with
    | none => intro t; exact ⟨[], by simp [expectFn, P.bind_eq, P.lift], by simp⟩
    | some f =>
      intro t
      have : (expectFn (some f) m >>= k) t = k f t := rfl
      rw [this]; exact hk f rfl t
  refine exp _ _ _ fun f1 e1 => exp _ _ _ fun f2 e2 => ?_
  refine (stops_async (s := .pass1) e1 _ _ _).bind fun x1 => ?_
  refine (stops_acheck b false x1.2).bind fun _ => ?_
  refine Stops.bind ?_ fun d2 => ?_
  · unfold resetBetween
    cases hr : b.resetFn with
    | none => exact .pure _
    | some f => exact (stops_async (s := .reset) hr _ _ _).bind fun _ => .pure _
  refine (stops_async (s := .pass2) e2 _ _ _).bind fun x2 => ?_
  refine (stops_acheck b true x2.2).bind fun _ => ?_
  unfold analyseAsync
  simp only
  refine (Stops.lift _).bind fun sp => (lg _).bind fun _ => (Stops.lift _).bind fun rep => (lg _).bind fun _ => ?_
  have jt : ∀ time : Complexity, Stops (AsyncPanics b) (judgeTime b x2.2 time) := by
    intro time
    unfold judgeTime
    cases b.tmax with
    | none => exact .pure _
    | some l => exact .ite ((lg _).bind fun _ => .pure _) (.pure _)
  unfold judgeSpace
  cases b.smax with
  | none => exact jt _
  | some l => exact .ite ((lg _).bind fun _ => .pure _) (jt _)

/-- **C101** (asynchronous tests): if a closure panics or an assertion fails, in whichever step and attempt, the test ends with that panic:
nothing else is called, printed or retried. -/
theorem C101_async (env : AEnv) (b : Builder D B) (t : List (AEv D)) :
    StopsAtPanic (AsyncPanics b) t (testAsync env b t).1 (testAsync env b t).2 := by
  have : Stops (AsyncPanics b) (testAsync env b) := by
    unfold testAsync
    refine Stops.bind (.retryWith (fun t e h => h) (stops_raw b none) (fun i => ?_) _) fun r => .resolve _ _ r
    exact (Stops.log fun t e h => h).bind fun _ => stops_raw b _
  exact this t

/-! ### dry runs -/
variable {E : FloatEnv} {N : NumText}

theorem stops_before {b : DryTest D B} {ms : List (Measurer D B)} (h : SameClosures b ms) (data : Option D) :
    Stops (DryPanics b) (measureAllBefore data ms) := by
  unfold measureAllBefore
  refine (stops_inOrder fun m hm => ?_).bind fun _ => .pure _
  obtain ⟨m0, h0, k1, k2, -⟩ := h m (by simpa using hm)
  refine .single fun t => ?_
  unfold Measurer.before
  cases hb : m.beforeFn t data with
  | error e => exact ⟨_, rfl, fun _ => ⟨e, ⟨m0, h0, k1, by rw [k2]; exact hb⟩, rfl⟩⟩
  | ok v => exact ⟨_, rfl, fun ⟨e, he⟩ => he.elim⟩

theorem stops_after {b : DryTest D B} {ms : List (Measurer D B)} (h : SameClosures b ms) (data : Option D) :
    Stops (DryPanics b) (measureAllAfter data ms) := by
  unfold measureAllAfter
  refine (stops_inOrder fun m hm => ?_).bind fun _ => .pure _
  obtain ⟨m0, h0, k1, -, k3⟩ := h m hm
  unfold Measurer.afterCustom
  refine Stops.bind ?_ fun _ => .pure _
  cases hp : m.pending with
  | none =>
    intro t
    exact ⟨[], by unfold Measurer.after; rw [hp]; simp, by simp⟩
  | some v =>
    refine .single fun t => ?_
    unfold Measurer.after
    rw [hp]
    simp only
    cases hb : m.afterFn t data v with
    | error e => exact ⟨_, rfl, fun _ => ⟨e, ⟨m0, h0, k1, by rw [k3]; exact hb⟩, rfl⟩⟩
    | ok x => exact ⟨_, rfl, fun ⟨e, he⟩ => he.elim⟩

theorem stops_runIf {b : DryTest D B} {s : AStep} {f : Option (List (MEv D B) → Option D → Rs D)}
    (hf : b.fn s = f) (i : Option D) : Stops (DryPanics b) (runIf s f i) := by
  unfold runIf
  cases f with
  | none => exact .pure _
  | some f =>
    refine .single fun t => ?_
    simp only
    cases h : f t i with
    | error e => exact ⟨_, rfl, fun _ => ⟨e, ⟨f, hf, h⟩, rfl⟩⟩
    | ok d => exact ⟨_, rfl, fun ⟨e, he⟩ => he.elim⟩

theorem stops_line (b : DryTest D B) (x : String) : Stops (DryPanics b) (P.log (.line x)) := .log fun t e h => h

theorem stops_runTold {b : DryTest D B} {dbg : D → String} {s : AStep} {f : Option (List (MEv D B) → Option D → Rs D)}
    (hf : b.fn s = f) (i : Option D) (did didnt : String) : Stops (DryPanics b) (runTold dbg s f i did didnt) := by
  unfold runTold
  refine (stops_runIf hf i).bind fun r => ?_
  cases r with
  | none => exact (stops_line b _).bind fun _ => .pure _
  | some d => exact (stops_line b _).bind fun _ => .pure _

theorem stops_dryIntro (b : DryTest D B) : Stops (DryPanics b) (dryIntro b) := by
  unfold dryIntro
  iterate 6 refine (stops_line b _).bind fun _ => ?_
  exact stops_line b _

theorem stops_checkIf {b : DryTest D B} {second : Bool} {f : Option (List (MEv D B) → D → Rs Unit)}
    (hf : (if second then b.check2 else b.check1) = f) (d : D) : Stops (DryPanics b) (checkIf second f d) := by
  unfold checkIf
  cases f with
  | none => exact .pure _
  | some f =>
    refine .single fun t => ?_
    simp only
    cases h : f t d with
    | error e => exact ⟨_, rfl, fun _ => ⟨e, ⟨f, hf, h⟩, rfl⟩⟩
    | ok d => exact ⟨_, rfl, fun ⟨e, he⟩ => he.elim⟩

theorem stops_dumpAll (b : DryTest D B) (l : List CustomMeasurement) : Stops (DryPanics b) (dumpAll E N l) := by
  induction l with
  | nil => exact .pure _
  | cons c l ih =>
    unfold dumpAll
    exact (Stops.lift _).bind fun s => (Stops.log fun t e h => h).bind fun _ => ih

theorem stops_checkTold {b : DryTest D B} {second : Bool} {f : Option (List (MEv D B) → D → Rs Unit)}
    (hf : (if second then b.check2 else b.check1) = f) (d : D) (did didnt : String) :
    Stops (DryPanics b) (checkTold second f d did didnt) := by
  unfold checkTold
  exact (stops_checkIf hf d).bind fun _ => stops_line b _

theorem stops_dryPass {b : DryTest D B} {dbg : D → String} {s : AStep} {x : PassTexts} {second : Bool} {f : Option (List (MEv D B) → Option D → Rs D)}
    {check : Option (List (MEv D B) → D → Rs Unit)} (input : Option D) {ms : List (Measurer D B)}
    (hf : b.fn s = f) (hc : (if second then b.check2 else b.check1) = check) (h : SameClosures b ms) :
    Stops (DryPanics b) (dryPass E N dbg s x second f check input ms) := by
  unfold dryPass
  refine (stops_line b _).bind fun _ => ?_
  refine (stops_before h input).bindR (fun _ _ _ hm => h.before hm) fun ms' h' => ?_
  refine (stops_runIf hf input).bind fun r => Stops.bind ?_ fun d => ?_
  · cases r with
    | none => exact .lift _
    | some d => exact .pure _
  refine (stops_line b _).bind fun _ => (stops_line b _).bind fun _ => ?_
  exact (stops_after h' _).bind fun x => (stops_line b _).bind fun _ => (stops_dumpAll b _).bind fun _ => (stops_checkTold hc d _ _).bind fun _ => .pure _

/-- **C101** (dry runs): if a closure or a step of a measurer panics or an assertion fails, the dry run ends with that panic. -/
theorem C101_dry_run (E : FloatEnv) (N : NumText) (b : DryTest D B) (t : List (MEv D B)) :
    StopsAtPanic (DryPanics b) t (testRun E N b t).1 (testRun E N b t).2 := by
  have h0 : SameClosures b b.measurers := fun m hm => ⟨m, hm, rfl, rfl, rfl⟩
  have key : Stops (DryPanics b) (testRun E N b) := by
    unfold testRun
    refine (stops_dryIntro b).bind fun _ => ?_
    refine (stops_runTold (s := .reset) rfl _ _ _).bind fun r0 => (stops_runTold (s := .warmup) rfl _ _ _).bind fun w =>
      (stops_runTold (s := .reset) rfl _ _ _).bind fun r1 => ?_
    refine (stops_dryPass (s := .pass1) r1 rfl rfl h0).bindR (R := fun x => SameClosures b x.2.2) ?_ fun x1 h1 => ?_
    · intro t a t' h
      obtain ⟨-, os, es, -, -, q⟩ := dryPass_ok (second := false) h
      rw [q]
      intro m hm
      simp only [List.mem_map] at hm
      obtain ⟨m0, hm0, rfl⟩ := hm
      exact ⟨m0, hm0, rfl, rfl, rfl⟩
    exact (stops_runTold (s := .reset) rfl _ _ _).bind fun r2 => (stops_dryPass (s := .pass2) r2 rfl rfl h1).bind fun _ => .pure _
  exact key t

end

/-! ### CRUD analyses and tests -/
section
variable {cenv : CrudEnv} {α β : Type}

/-- the same for computations of the CRUD runner -/
def StopsM (env : CrudEnv) (m : M α) : Prop :=
  ∀ s, ∃ ext, (m s).2.trace = s.trace ++ ext ∧ ∀ pre ev post, ext = pre ++ ev :: post → ∀ e, CrudPanics env (s.trace ++ pre) ev e →
    post = [] ∧ (m s).1 = .panic e

theorem StopsM.bind {m : M α} {f : α → M β} (h1 : StopsM cenv m) (h2 : ∀ a, StopsM cenv (f a)) : StopsM cenv (m >>= f) := by
  intro s
  obtain ⟨e1, t1, q1⟩ := h1 s
  generalize hm : m s = x at *
  obtain ⟨r, s1⟩ := x
  simp only at t1 q1
  cases r with
  | ok a =>
    obtain ⟨e2, t2, q2⟩ := h2 a s1
    rw [M.bind_ok hm]
    refine ⟨e1 ++ e2, by rw [t2, t1, List.append_assoc], fun pre ev post he e hp => ?_⟩
    rcases List.append_eq_append_iff.1 he with ⟨l, hl, hl'⟩ | ⟨l, hl, hl'⟩
    · have := q2 l ev post hl' e
      rw [t1] at this
      rw [hl, ← List.append_assoc] at hp
      exact this hp
    · cases l with
      | nil =>
        simp only [List.nil_append] at hl'
        have := q2 [] ev post (by simpa using hl'.symm) e
        rw [t1] at this
        simp only [List.append_nil] at hl this
        rw [← hl] at hp
        exact this hp
      | cons y l =>
        simp only [List.cons_append, List.cons.injEq] at hl'
        obtain ⟨rfl, -⟩ := hl'
        cases (q1 pre ev l hl e hp).2
  | fail e =>
    rw [M.bind_fail hm]
    refine ⟨e1, t1, fun pre ev post he e' hp => ?_⟩
    cases (q1 pre ev post he e' hp).2
  | panic e =>
    rw [M.bind_panic hm]
    refine ⟨e1, t1, fun pre ev post he e' hp => ?_⟩
    obtain ⟨h1, h2⟩ := q1 pre ev post he e' hp
    cases h2
    exact ⟨h1, rfl⟩

theorem StopsM.silent {m : M α} (h : ∀ s, (m s).2.trace = s.trace) : StopsM cenv m := fun s => ⟨[], by rw [h]; simp, by simp⟩

theorem StopsM.pure (a : α) : StopsM cenv (Pure.pure a : M α) := .silent fun _ => rfl
theorem StopsM.lift (x : Rs α) : StopsM cenv (M.lift x) := .silent fun _ => by unfold M.lift; split <;> rfl
theorem StopsM.get (f : CrudSt → α) : StopsM cenv (M.get f) := .silent fun _ => rfl
theorem StopsM.xorR (x) : StopsM cenv (xorR x) := .silent fun _ => rfl
theorem StopsM.setRes (op k r) : StopsM cenv (setRes op k r) := .silent fun _ => rfl
theorem StopsM.failWith (f) : StopsM cenv (failWith f : M α) := .silent fun _ => rfl

theorem StopsM.single {m : M α} (h : ∀ s, ∃ ev, (m s).2.trace = s.trace ++ [ev] ∧ ∀ e, CrudPanics cenv s.trace ev e → (m s).1 = .panic e) :
    StopsM cenv m := by
  intro s
  obtain ⟨ev, h1, h2⟩ := h s
  refine ⟨[ev], h1, fun pre x post he e hp => ?_⟩
  cases pre with
  | nil =>
    simp only [List.nil_append, List.cons.injEq] at he
    obtain ⟨rfl, rfl⟩ := he
    rw [List.append_nil] at hp
    exact ⟨rfl, h2 e hp⟩
  | cons y l => simp at he

theorem StopsM.output (msg) : StopsM cenv (output msg) := .single fun _ => ⟨.out msg, rfl, fun _ h => h.elim⟩

theorem StopsM.reset (n) : StopsM cenv (callReset cenv n) := by
  refine .single fun s => ⟨.reset n, ?_, fun e he => ?_⟩
  · unfold callReset; split <;> rfl
  · have he : cenv.resetFn s.trace n = .error e := he
    unfold callReset; rw [he]

theorem StopsM.run (ph op a b th) : StopsM cenv (runIteratorPass cenv ph op a b th) := by
  intro s
  unfold runIteratorPass
  cases hc : passChunks cenv.profile a b th with
  | error e => exact ⟨[], by simp, by simp⟩
  | ok c =>
    have : StopsM cenv (fun s => (match cenv.measure s.trace ph op a b th with
        | .error e => (.panic e, { s with trace := s.trace ++ [.pass ph op a b th] })
        | .ok x => (.ok x, { s with trace := s.trace ++ [.pass ph op a b th] }) : Res (PassResult × Nat) × CrudSt)) := by
      refine .single fun s => ⟨.pass ph op a b th, ?_, fun e he => ?_⟩
      · cases cenv.measure s.trace ph op a b th <;> rfl
      · have he : cenv.measure s.trace ph op a b th = .error e := he
        simp only [he]
    exact this s

theorem StopsM.verbosely (pref suff ph op r th) : StopsM cenv (runVerbosely cenv pref suff ph op r th) := by
  unfold runVerbosely
  exact (StopsM.run _ _ _ _ _).bind fun x => (StopsM.lift _).bind fun sp => (StopsM.output _).bind fun _ => .pure _

theorem StopsM.yields {γ : Type} (op c) (m : γ) (time space) : StopsM cenv (yieldAnalysis op c m time space) := by
  unfold yieldAnalysis
  split_ifs
  · exact (StopsM.output _).bind fun _ => .failWith _
  · exact (StopsM.output _).bind fun _ => .failWith _
  · exact .pure _

theorem StopsM.constantSet (cfg op suff pref k) : StopsM cenv (constantSetPass cenv cfg op suff pref k) := by
  unfold constantSetPass
  split_ifs
  · refine (StopsM.lift _).bind fun r => (StopsM.verbosely _ _ _ _ _ _).bind fun x => (StopsM.setRes _ _ _).bind fun _ => (StopsM.xorR _).bind fun _ => ?_
    exact (StopsM.lift _).bind fun _ => (StopsM.get _).bind fun _ => (StopsM.get _).bind fun _ => (StopsM.lift _).bind fun _ => .yields _ _ _ _ _
  · exact (StopsM.lift _).bind fun r => (StopsM.verbosely _ _ _ _ _ _).bind fun x => (StopsM.setRes _ _ _).bind fun _ => (StopsM.xorR _).bind fun _ => .pure _
  · exact .pure _

theorem StopsM.setResizing (cfg op suff pref rf last k) : StopsM cenv (setResizingPass cenv cfg op suff pref rf last k) := by
  unfold setResizingPass
  split_ifs
  · refine (StopsM.lift _).bind fun r => (StopsM.verbosely _ _ _ _ _ _).bind fun x => (StopsM.setRes _ _ _).bind fun _ => (StopsM.xorR _).bind fun _ => ?_
    exact (StopsM.get _).bind fun _ => (StopsM.get _).bind fun _ => (StopsM.lift _).bind fun _ => .yields _ _ _ _ _
  · exact (StopsM.lift _).bind fun r => (StopsM.verbosely _ _ _ _ _ _).bind fun x => (StopsM.setRes _ _ _).bind fun _ => (StopsM.xorR _).bind fun _ => .pure _
  · exact .pure _

theorem StopsM.warmupOp (cfg op l) : StopsM cenv (warmupOp cenv cfg op l) := by
  unfold BigO.warmupOp
  split_ifs
  · exact (StopsM.output _).bind fun _ => (StopsM.lift _).bind fun m => (StopsM.run _ _ _ _ _).bind fun _ => .xorR _
  · exact (StopsM.output _).bind fun _ => (StopsM.lift _).bind fun m => (StopsM.run _ _ _ _ _).bind fun _ => .xorR _
  · exact .pure _

theorem StopsM.report {γ : Type} (c : OpCfg) (a : Option γ) (d : γ → Rs String) : StopsM cenv (outputReport c a d) := by
  unfold outputReport
  split_ifs
  · exact (StopsM.lift _).bind fun x => (StopsM.lift _).bind fun t => .output _
  · exact .pure _

theorem StopsM.body (cfg) : StopsM cenv (analyseBody cenv cfg) := by
  unfold analyseBody
  refine (StopsM.output _).bind fun _ => StopsM.bind ?_ fun _ => (StopsM.output _).bind fun _ => ?_
  · unfold BigO.warmup
    split_ifs
    · exact (StopsM.output _).bind fun _ => (StopsM.warmupOp _ _ _).bind fun _ => (StopsM.warmupOp _ _ _).bind fun _ => (StopsM.warmupOp _ _ _).bind fun _ =>
        (StopsM.warmupOp _ _ _).bind fun _ => (StopsM.output _).bind fun _ => (StopsM.lift _).bind fun _ => (StopsM.reset _).bind fun _ =>
        (StopsM.get _).bind fun _ => .output _
    · exact .pure _
  refine (StopsM.setResizing _ _ _ _ _ _ _).bind fun _ => (StopsM.constantSet _ _ _ _ _).bind fun _ => (StopsM.constantSet _ _ _ _ _).bind fun _ => (StopsM.output _).bind fun _ =>
    (StopsM.setResizing _ _ _ _ _ _ _).bind fun _ => (StopsM.constantSet _ _ _ _ _).bind fun _ => (StopsM.constantSet _ _ _ _ _).bind fun _ => (StopsM.output _).bind fun _ =>
    (StopsM.report _ _ _).bind fun _ => (StopsM.report _ _ _).bind fun _ => (StopsM.report _ _ _).bind fun _ => StopsM.bind ?_ fun _ => .pure _
  unfold deletePasses
  split_ifs
  · exact (StopsM.output _).bind fun _ => (StopsM.setResizing _ _ _ _ _ _ _).bind fun _ => (StopsM.setResizing _ _ _ _ _ _ _).bind fun _ => (StopsM.get _).bind fun _ =>
      (StopsM.output _).bind fun _ => (StopsM.report _ _ _).bind fun _ => .pure _
  · exact .pure _

theorem stops_internal (env : CrudEnv) (cfg : CrudCfg) (t : List Ev) :
    ∃ ext, (internalAnalyse env cfg t).2 = t ++ ext ∧ ∀ pre ev post, ext = pre ++ ev :: post → ∀ e, CrudPanics env (t ++ pre) ev e →
      post = [] ∧ (internalAnalyse env cfg t).1 = .panic e := by
  obtain ⟨ext, h1, h2⟩ := StopsM.body (cenv := env) cfg { trace := t, report := "", r := 0, res := fun _ _ => PassResult.default }
  unfold internalAnalyse
  generalize analyseBody env cfg { trace := t, report := "", r := 0, res := fun _ _ => PassResult.default } = x at *
  obtain ⟨r, s⟩ := x
  refine ⟨ext, ?_, fun pre ev post he e hp => ?_⟩
  · rw [← h1]; cases r <;> rfl
  · obtain ⟨a, b⟩ := h2 pre ev post he e hp
    refine ⟨a, ?_⟩
    simp only at b
    rw [b]

/-- **C101** (CRUD analyses): if a closure panics in the warm-up or in a pass, or the reset does, the analysis ends with that panic; no
closure is called any more. -/
theorem C101_crud_analysis (env : CrudEnv) (cfg : CrudCfg) (t : List Ev) :
    StopsAtPanic (CrudPanics env) t (analyseCrud env cfg t).1 (analyseCrud env cfg t).2 := by
  obtain ⟨ext, h1, h2⟩ := stops_internal env cfg.unlimited t
  unfold analyseCrud
  generalize internalAnalyse env cfg.unlimited t = x at *
  obtain ⟨r, t'⟩ := x
  refine ⟨ext, ?_, fun pre ev post he hp => ?_⟩
  · rw [← h1]; cases r <;> rfl
  · obtain ⟨e, hp⟩ := hp
    obtain ⟨a, b⟩ := h2 pre ev post he e hp
    refine ⟨a, e, hp, ?_⟩
    simp only at b
    rw [b]

theorem stops_loop (env : CrudEnv) (cfg : CrudCfg) (max : ℕ) (left : ℕ) : ∀ (k : ℕ) (errs : List CrudError) (t : List Ev),
    StopsAtPanic (CrudPanics env) t (testLoop env cfg max left k errs t).1 (testLoop env cfg max left k errs t).2 := by
  induction left with
  | zero => intro k errs t; exact ⟨[], by simp [testLoop], by simp⟩
  | succ left ih =>
    intro k errs t
    unfold testLoop
    cases hc : adaptCfg env.profile k cfg with
    | error e => exact ⟨[], by simp, by simp⟩
    | ok cfg' =>
      simp only
      obtain ⟨ext, h1, h2⟩ := stops_internal env cfg' t
      generalize internalAnalyse env cfg' t = x at *
      obtain ⟨r, t'⟩ := x
      simp only at h1 h2
      have done : ∀ res : Rs Unit, (∀ e, r = .panic e → res = .error e) → StopsAtPanic (CrudPanics env) t res t' := by
        intro res hres
        refine ⟨ext, h1, fun pre ev post he ⟨e, hp⟩ => ?_⟩
        obtain ⟨a, b⟩ := h2 pre ev post he e hp
        exact ⟨a, e, hp, hres e b⟩
      cases r with
      | panic e => exact done _ (fun e' h => by cases h; rfl)
      | ok a => exact done _ (fun e' h => by cases h)
      | fail er =>
        simp only
        split_ifs with hT hlt
        · -- retried
          have glue : ∀ (res : Rs Unit) (t'' : List Ev) (mid : List Ev), t'' = t' ++ mid →
              (∀ pre ev post, mid = pre ++ ev :: post → (∃ e, CrudPanics env (t' ++ pre) ev e) →
                post = [] ∧ ∃ e, CrudPanics env (t' ++ pre) ev e ∧ res = .error e) → StopsAtPanic (CrudPanics env) t res t'' := by
            intro res t'' mid hm hq
            refine ⟨ext ++ mid, by rw [hm, h1, List.append_assoc], fun pre ev post he hp => ?_⟩
            rcases List.append_eq_append_iff.1 he with ⟨l, hl, hl'⟩ | ⟨l, hl, hl'⟩
            · have := hq l ev post hl'
              rw [h1] at this
              rw [hl, ← List.append_assoc] at hp ⊢
              exact this hp
            · cases l with
              | nil =>
                simp only [List.nil_append] at hl'
                have := hq [] ev post (by simpa using hl'.symm)
                rw [h1] at this
                simp only [List.append_nil] at hl this hp ⊢
                rw [← hl] at hp ⊢
                exact this hp
              | cons y l =>
                simp only [List.cons_append, List.cons.injEq] at hl'
                obtain ⟨rfl, -⟩ := hl'
                obtain ⟨e, hp⟩ := hp
                cases (h2 pre ev l hl e hp).2
          cases hr : env.resetFn (t' ++ [.out ("\nAttempt " ++ toString (k + 1) ++ " failed. Resetting before retrying")]) 100 with
          | error p =>
            refine glue _ _ _ rfl fun pre ev post he ⟨e, hp⟩ => ?_
            rcases pre with _ | ⟨a, _ | ⟨b, pre⟩⟩
            · simp only [List.nil_append, List.cons.injEq] at he
              obtain ⟨rfl, -⟩ := he
              exact hp.elim
            · simp only [List.cons_append, List.nil_append, List.cons.injEq] at he
              obtain ⟨rfl, rfl, rfl⟩ := he
              exact ⟨rfl, p, hr, rfl⟩
            · simp at he
          | ok u =>
            simp only
            obtain ⟨ext2, g1, g2⟩ := ih (k + 1) (errs ++ [er]) (t' ++ [.out ("\nAttempt " ++ toString (k + 1) ++ " failed. Resetting before retrying"), .reset 100, .out "...\n"])
            refine glue _ _ _ (g1.trans (List.append_assoc _ _ _)) fun pre ev post he hp => ?_
            rcases pre with _ | ⟨a, _ | ⟨b, _ | ⟨c, pre⟩⟩⟩
            · simp only [List.nil_append, List.cons_append, List.cons.injEq] at he
              obtain ⟨rfl, -⟩ := he
              obtain ⟨e, hp⟩ := hp
              exact hp.elim
            · simp only [List.nil_append, List.cons_append, List.cons.injEq] at he
              obtain ⟨rfl, rfl, -⟩ := he
              obtain ⟨e, hp⟩ := hp
              have hp : env.resetFn _ 100 = .error e := hp
              rw [hr] at hp; cases hp
            · simp only [List.nil_append, List.cons_append, List.cons.injEq] at he
              obtain ⟨-, -, rfl, -⟩ := he
              obtain ⟨e, hp⟩ := hp
              exact hp.elim
            · simp only [List.nil_append, List.cons_append, List.cons.injEq] at he
              obtain ⟨rfl, rfl, rfl, he⟩ := he
              have := g2 pre ev post he
              simp only [List.append_assoc, List.cons_append, List.nil_append] at this hp ⊢
              exact this hp
        · exact done _ (fun e' h => by cases h)
        · exact done _ (fun e' h => by cases h)

/-- **C101** (CRUD tests): if a closure or the reset panics, in whichever attempt or between two attempts, the test ends with that panic
and is not retried. -/
theorem C101_crud_test (env : CrudEnv) (cfg : CrudCfg) (max : ℕ) (t : List Ev) :
    StopsAtPanic (CrudPanics env) t (testCrud env cfg max t).1 (testCrud env cfg max t).2 := stops_loop env cfg max max 0 [] t

end

/-! ### concrete cases -/

-- a regular test whose second pass panics: the reset and the first pass were run, and nothing after the second
example (E : FloatEnv) (T : TextEnv) (cfg : RegCfg) (errs : List String → String) :
    let env : RegEnv := ⟨.checked, E, T, errs, fun _ c => if c = .pass2 then .error (.msg "oops") else .ok (⟨10 ^ 9, ⟨50, 50, 150, 50⟩⟩, 0)⟩
    ∃ before, testAlgorithm env cfg [] = (.error (.msg "oops"), before ++ [.call .pass2 none]) ∧
      regCallsOf before = [.call .reset (some ⟨10 ^ 9, ⟨50, 50, 150, 50⟩⟩), .call .pass1 (some ⟨10 ^ 9, ⟨50, 50, 150, 50⟩⟩)] ∧
      RegPanics env before (.call .pass2 none) (.msg "oops") := by
  refine ⟨_, rfl, rfl, rfl⟩

-- a CRUD test with retries whose reset panics in the warm-up
example (E : FloatEnv) (T : TextEnv) :
    let env : CrudEnv := ⟨.checked, E, T, fun _ _ _ _ _ _ => .ok (⟨10 ^ 9, ⟨50, 50, 150, 50⟩⟩, 0), fun _ => 10 ^ 9, fun _ _ => .error (.msg "oops")⟩
    ∃ before, testCrud env (steadyCfg 100 .o1) 5 [] = (.error (.msg "oops"), before ++ [.reset 10]) ∧
      CrudPanics env before (.reset 10) (.msg "oops") := by
  refine ⟨_, rfl, rfl⟩

end BigO
