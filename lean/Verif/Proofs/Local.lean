import Verif.Model.Standard
import Verif.Spec.LocalSpec
import Mathlib.Data.List.Infix
import Mathlib.Tactic.SplitIfs

/-!
# Two computations that do the same as long as what they call does the same
-/
namespace BigO

/-- `m'` does what `m` does if, at every event that `m` logs, `S` holds of the history before it and the event -/
def Local {ε α : Type} (S : List ε → ε → Prop) (m m' : P ε α) : Prop :=
  ∀ t, t <+: (m t).2 ∧ ((∀ pre ev, t <+: pre → pre ++ [ev] <+: (m t).2 → S pre ev) → m' t = m t)

section
variable {ε α β : Type} {S : List ε → ε → Prop}

theorem Local.pure (a : α) : Local S (Pure.pure a : P ε α) (Pure.pure a) := fun t => ⟨List.prefix_refl t, fun _ => rfl⟩

theorem Local.lift (x : Rs α) : Local S (P.lift x : P ε α) (P.lift x) := fun t => ⟨List.prefix_refl t, fun _ => rfl⟩

theorem Local.log (ev : ε) : Local S (P.log ev) (P.log ev) := fun t => ⟨List.prefix_append t [ev], fun _ => rfl⟩

theorem Local.single {m m' : P ε α} (h : ∀ t, ∃ ev, (m t).2 = t ++ [ev] ∧ (S t ev → m' t = m t)) : Local S m m' := by
  intro t
  obtain ⟨ev, h1, h2⟩ := h t
  exact ⟨by rw [h1]; exact List.prefix_append _ _, fun hs => h2 (hs t ev (List.prefix_refl t) (by rw [h1]))⟩

theorem Local.bind {m m' : P ε α} {f f' : α → P ε β} (h : Local S m m') (h' : ∀ a, Local S (f a) (f' a)) : Local S (m >>= f) (m' >>= f') := by
  intro t
  have e : ∀ (m : P ε α) (f : α → P ε β), (m >>= f) t = match m t with
    | (.ok a, t') => f a t'
    | (.error e, t') => (.error e, t') := fun _ _ => rfl
  rw [e, e]
  obtain ⟨h1, h2⟩ := h t
  cases hm : m t with
  | mk r t1 =>
    rw [hm] at h1 h2
    cases r with
    | error e => exact ⟨h1, fun hs => by rw [h2 hs]⟩
    | ok a =>
      obtain ⟨g1, g2⟩ := h' a t1
      exact ⟨h1.trans g1, fun hs => by
        rw [h2 fun pre ev hp he => hs pre ev hp (he.trans g1)]
        exact g2 fun pre ev hp he => hs pre ev (h1.trans hp) he⟩

theorem Local.ite {c : Prop} [Decidable c] {m m' n n' : P ε α} (h : Local S m m') (h' : Local S n n') :
    Local S (if c then m else n) (if c then m' else n') := by
  split_ifs <;> assumption

theorem Local.retryLoop {I : Type} {sleep : ε} {a a' : I → P ε (RetryResult I)} (ha : ∀ i, Local S (a i) (a' i)) (n : Nat) :
    ∀ i errs e, Local S (BigO.retryLoop sleep a n i errs e) (BigO.retryLoop sleep a' n i errs e) := by
  induction n with
  | zero => intro i errs e; unfold BigO.retryLoop; exact .pure _
  | succ n ih =>
    intro i errs e
    unfold BigO.retryLoop
    refine (Local.log sleep).bind fun _ => (ha i).bind fun r => ?_
    cases r with
    | ok => exact .pure _
    | fatal x => exact .pure _
    | transient i' e' => exact ih i' _ e'

theorem Local.retryWith {I : Type} {sleep : ε} {f f' : P ε (RetryResult I)} {a a' : I → P ε (RetryResult I)}
    (hf : Local S f f') (ha : ∀ i, Local S (a i) (a' i)) (n : Nat) : Local S (BigO.retryWith sleep f a n) (BigO.retryWith sleep f' a' n) := by
  unfold BigO.retryWith
  refine hf.bind fun r => ?_
  cases r with
  | ok => exact .pure _
  | fatal x => exact .pure _
  | transient i' e' => exact .retryLoop ha n i' _ e'

theorem Local.resolve (errors : List String → String) (max : Nat) (r : ResolvedResult) :
    Local S (resolveOrPanic errors max r : P ε Unit) (resolveOrPanic errors max r) := by
  cases r <;> unfold resolveOrPanic <;> first | exact .pure _ | exact .lift _

end

/-! ## regular algorithms -/

section regular
variable (env : RegEnv) (run' : List RegEv → RegCall → Rs (PassResult × Nat))

/-- the closure does the same here -/
def SameRun (pre : List RegEv) (ev : RegEv) : Prop := ∀ c r, ev = .call c r → run' pre c = env.run pre c

theorem runSyncVerbosely_local (pref suff : String) (c : RegCall) :
    Local (SameRun env run') (runSyncVerbosely env pref suff c) (runSyncVerbosely { env with run := run' } pref suff c) := by
  unfold runSyncVerbosely
  refine Local.bind ?_ fun x => (Local.lift _).bind fun sp => (Local.log _).bind fun _ => .pure _
  refine Local.single fun t => ?_
  have e : ∀ E : RegEnv, runSync E c t = match E.run t c with
    | .error e => (.error e, t ++ [.call c none])
    | .ok x => (.ok x, t ++ [.call c (some x.1)]) := fun _ => rfl
  rw [e, e]
  dsimp only
  cases h : env.run t c with
  | error e => exact ⟨.call c none, rfl, fun hs => by rw [hs c none rfl, h]⟩
  | ok x => exact ⟨.call c (some x.1), rfl, fun hs => by rw [hs c _ rfl, h]⟩

theorem analyseAlgorithm_local (cfg : RegCfg) :
    Local (SameRun env run') (analyseAlgorithm env cfg) (analyseAlgorithm { env with run := run' } cfg) := by
  unfold analyseAlgorithm
  refine (Local.log _).bind fun _ => (runSyncVerbosely_local env run' _ _ _).bind fun _ => (runSyncVerbosely_local env run' _ _ _).bind fun x1 =>
    (runSyncVerbosely_local env run' _ _ _).bind fun x2 => (Local.lift _).bind fun space => (Local.log _).bind fun _ =>
    (Local.lift _).bind fun report => (Local.log _).bind fun _ => ?_
  exact .ite ((Local.log _).bind fun _ => .pure _) (.ite ((Local.log _).bind fun _ => .pure _) ((Local.log _).bind fun _ => .pure _))

theorem testAlgorithm_local (cfg : RegCfg) : Local (SameRun env run') (testAlgorithm env cfg) (testAlgorithm { env with run := run' } cfg) := by
  unfold testAlgorithm
  exact (Local.retryWith (analyseAlgorithm_local env run' cfg) (fun _ => analyseAlgorithm_local env run' cfg) _).bind fun r => .resolve _ _ r

end regular

/-! ## asynchronous algorithms -/

section async
variable {D B : Type} (env : AEnv) (b b' : Builder D B)

/-- the closure or assertion does the same here -/
def SameStep (pre : List (AEv D)) (ev : AEv D) : Prop :=
  (∀ s i r f f', ev = .call s i r → b.fn s = some f → b'.fn s = some f' → f' pre i = f pre i) ∧
  (∀ second d r c c', ev = .check second d r → b.checkOf second = some c → b'.checkOf second = some c' → c' pre d = c pre d)

variable {b b'}

theorem runAsyncVerbosely_local (pref suff : String) {s : AStep} {f f' : AFn D} (hf : b.fn s = some f) (hf' : b'.fn s = some f')
    (i : Option D) : Local (SameStep b b') (runAsyncVerbosely env pref suff s f i) (runAsyncVerbosely env pref suff s f' i) := by
  unfold runAsyncVerbosely
  refine Local.bind ?_ fun x => (Local.lift _).bind fun sp => (Local.log _).bind fun _ => .pure _
  refine Local.single fun t => ?_
  unfold runAsync
  cases h : f t i with
  | error e => exact ⟨.call s i none, rfl, fun hs => by rw [hs.1 s i _ f f' rfl hf hf', h]⟩
  | ok x => exact ⟨.call s i (some x), rfl, fun hs => by rw [hs.1 s i _ f f' rfl hf hf', h]⟩

theorem runCheck_local (second : Bool) {c c' : Option (ACheck D)} (hc : b.checkOf second = c) (hc' : b'.checkOf second = c')
    (hs : c'.isSome = c.isSome) (d : D) : Local (SameStep b b') (runCheck second c d) (runCheck second c' d) := by
  cases c with
  | none =>
    cases c' with
    | none => exact .pure _
    | some c' => cases hs
  | some c =>
    cases c' with
    | none => cases hs
    | some c' =>
      refine Local.single fun t => ?_
      unfold runCheck
      dsimp only
      cases h : c t d with
      | error e => exact ⟨.check second d false, rfl, fun hs => by rw [hs.2 second d _ c c' rfl hc hc', h]⟩
      | ok x => exact ⟨.check second d true, rfl, fun hs => by rw [hs.2 second d _ c c' rfl hc hc', h]⟩

/-- both are set or neither is -/
theorem both_set {X : Type} {o o' : Option X} (h : o'.isSome = o.isSome) : (o = none ∧ o' = none) ∨ ∃ x x', o = some x ∧ o' = some x' := by
  cases o <;> cases o' <;> simp_all

theorem rawAnalyse_local (hb : SameSettings b b') (prev : Option D) :
    Local (SameStep b b') (rawAnalyse env b prev) (rawAnalyse env b' prev) := by
  have hreset : ∀ (pref : String) (x : D → Option D) (i : Option D) (y : Option D),
      Local (SameStep b b') (match b.resetFn with
        | some f => do
          let x ← runAsyncVerbosely env pref ";" .reset f i
          return some x.2
        | none => pure y) (match b'.resetFn with
        | some f => do
          let x ← runAsyncVerbosely env pref ";" .reset f i
          return some x.2
        | none => pure y) := by
    intro pref _ i y
    rcases both_set hb.reset with ⟨h1, h2⟩ | ⟨f, f', h1, h2⟩ <;> rw [h1, h2]
    · exact .pure _
    · exact (runAsyncVerbosely_local env pref ";" (s := .reset) h1 h2 i).bind fun x => .pure _
  have h0 : Local (SameStep b b') (firstReset env b prev) (firstReset env b' prev) := hreset _ some _ _
  have hw : ∀ d, Local (SameStep b b') (warmUp env b d) (warmUp env b' d) := by
    intro d
    unfold warmUp
    rcases both_set hb.warmup with ⟨h1, h2⟩ | ⟨f, f', h1, h2⟩ <;> rw [h1, h2]
    · exact .pure _
    · exact (runAsyncVerbosely_local env _ _ (s := .warmup) h1 h2 d).bind fun x => hreset _ some _ _
  have hm : ∀ d, Local (SameStep b b') (resetBetween env b d) (resetBetween env b' d) := fun d => hreset _ some _ _
  have ha : ∀ m1 m2 d, Local (SameStep b b') (analyseAsync env b m1 m2 d) (analyseAsync env b' m1 m2 d) := by
    intro m1 m2 d
    have e : asyncMeasurements b' m1 m2 = asyncMeasurements b m1 m2 := by unfold asyncMeasurements; rw [hb.name, hb.n1, hb.n2]
    have ht : ∀ time, Local (SameStep b b') (judgeTime b d time) (judgeTime b' d time) := by
      intro time
      unfold judgeTime
      rw [hb.tmax, hb.name]
      cases b.tmax with
      | none => exact .pure _
      | some l => exact .ite ((Local.log _).bind fun _ => .pure _) (.pure _)
    unfold analyseAsync
    rw [e]
    refine (Local.lift _).bind fun space => (Local.log _).bind fun _ => (Local.lift _).bind fun rep => (Local.log _).bind fun _ => ?_
    unfold judgeSpace
    rw [hb.smax, hb.name]
    cases b.smax with
    | none => exact ht _
    | some l => exact .ite ((Local.log _).bind fun _ => .pure _) (ht _)
  unfold rawAnalyse
  rw [hb.name]
  refine (Local.log _).bind fun _ => h0.bind fun d0 => (hw d0).bind fun d1 => ?_
  have e0 : ∀ {X : Type} (msg : String) (k : AFn D → P (AEv D) X), (expectFn none msg >>= k) = P.lift (.error (.msg msg)) := fun _ _ => rfl
  have e1 : ∀ {X : Type} (f : AFn D) (msg : String) (k : AFn D → P (AEv D) X), (expectFn (some f) msg >>= k) = k f := fun _ _ _ => rfl
  rcases both_set hb.fn1 with ⟨h1, h2⟩ | ⟨f1, f1', h1, h2⟩
  · rw [h1, h2, e0, e0]
    exact .lift _
  · rcases both_set hb.fn2 with ⟨h3, h4⟩ | ⟨f2, f2', h3, h4⟩ <;> rw [h1, h2, h3, h4, e1, e1]
    · rw [e0, e0]
      exact .lift _
    · rw [e1, e1]
      exact (runAsyncVerbosely_local env _ _ (s := .pass1) h1 h2 d1).bind fun x1 => (runCheck_local false rfl rfl hb.check1 _).bind fun _ =>
        (hm x1.2).bind fun d2 => (runAsyncVerbosely_local env _ _ (s := .pass2) h3 h4 d2).bind fun x2 =>
        (runCheck_local true rfl rfl hb.check2 _).bind fun _ => ha _ _ _

theorem testAsync_local (hb : SameSettings b b') : Local (SameStep b b') (testAsync env b) (testAsync env b') := by
  unfold testAsync
  rw [hb.maxReattempts]
  exact (Local.retryWith (rawAnalyse_local env hb none) (fun d => (Local.log _).bind fun _ => rawAnalyse_local env hb _) _).bind fun r => .resolve _ _ r

end async

/-! ## CRUD algorithms -/

/-- the same for the computations of a CRUD analysis -/
def LocalM {α : Type} (S : List Ev → Ev → Prop) (m m' : M α) : Prop :=
  ∀ s, s.trace <+: (m s).2.trace ∧ ((∀ pre ev, s.trace <+: pre → pre ++ [ev] <+: (m s).2.trace → S pre ev) → m' s = m s)

section crud
variable {α β : Type} {S : List Ev → Ev → Prop}

theorem LocalM.still {m : M α} (h : ∀ s, (m s).2.trace = s.trace) : LocalM S m m := fun s => ⟨by rw [h], fun _ => rfl⟩

theorem LocalM.pure (a : α) : LocalM S (Pure.pure a : M α) (Pure.pure a) := .still fun _ => rfl

theorem LocalM.lift (x : Rs α) : LocalM S (M.lift x) (M.lift x) := .still fun _ => by unfold M.lift; cases x <;> rfl

theorem LocalM.get (f : CrudSt → α) : LocalM S (M.get f) (M.get f) := .still fun _ => rfl

theorem LocalM.output (msg : String) : LocalM S (BigO.output msg) (BigO.output msg) :=
  fun _ => ⟨List.prefix_append _ _, fun _ => rfl⟩

theorem LocalM.single {m m' : M α} (h : ∀ s, (m s).2.trace = s.trace ∧ m' s = m s ∨ ∃ ev, (m s).2.trace = s.trace ++ [ev] ∧ (S s.trace ev → m' s = m s)) :
    LocalM S m m' := by
  intro s
  rcases h s with ⟨h1, h2⟩ | ⟨ev, h1, h2⟩
  · exact ⟨by rw [h1], fun _ => h2⟩
  · exact ⟨by rw [h1]; exact List.prefix_append _ _, fun hs => h2 (hs s.trace ev (List.prefix_refl _) (by rw [h1]))⟩

theorem LocalM.bind {m m' : M α} {f f' : α → M β} (h : LocalM S m m') (h' : ∀ a, LocalM S (f a) (f' a)) : LocalM S (m >>= f) (m' >>= f') := by
  intro s
  have e : ∀ (m : M α) (f : α → M β), (m >>= f) s = match m s with
    | (.ok a, s') => f a s'
    | (.fail e, s') => (.fail e, s')
    | (.panic e, s') => (.panic e, s') := fun _ _ => rfl
  rw [e, e]
  obtain ⟨h1, h2⟩ := h s
  cases hm : m s with
  | mk r s1 =>
    rw [hm] at h1 h2
    cases r with
    | fail e => exact ⟨h1, fun hs => by rw [h2 hs]⟩
    | panic e => exact ⟨h1, fun hs => by rw [h2 hs]⟩
    | ok a =>
      obtain ⟨g1, g2⟩ := h' a s1
      exact ⟨h1.trans g1, fun hs => by
        rw [h2 fun pre ev hp he => hs pre ev hp (he.trans g1)]
        exact g2 fun pre ev hp he => hs pre ev (h1.trans hp) he⟩

theorem LocalM.ite {c : Prop} [Decidable c] {m m' n n' : M α} (h : LocalM S m m') (h' : LocalM S n n') :
    LocalM S (if c then m else n) (if c then m' else n') := by
  split_ifs <;> assumption

end crud

section crud
variable (env : CrudEnv) (measure' : List Ev → Phase → Op → Nat → Nat → Nat → Rs (PassResult × Nat)) (warmupTime' : List Ev → Duration)
  (resetFn' : List Ev → Nat → Rs Unit)

/-- the closures and the clock do the same here -/
def SamePass (pre : List Ev) : Ev → Prop
  | .pass ph op a b th => measure' pre ph op a b th = env.measure pre ph op a b th
  | .reset n => resetFn' pre n = env.resetFn pre n
  | .out _ => warmupTime' pre = env.warmupTime pre

local notation "Same" => SamePass env measure' warmupTime' resetFn'
local notation "env'" => CrudEnv.withClosures env measure' warmupTime' resetFn'

theorem runIteratorPass_local (ph : Phase) (op : Op) (a b th : Nat) :
    LocalM Same (runIteratorPass env ph op a b th) (runIteratorPass env' ph op a b th) := by
  refine LocalM.single fun s => ?_
  unfold runIteratorPass
  have e : (CrudEnv.withClosures env measure' warmupTime' resetFn').profile = env.profile := rfl
  have e' : (CrudEnv.withClosures env measure' warmupTime' resetFn').measure = measure' := rfl
  rw [e, e']
  cases hc : passChunks env.profile a b th with
  | error x => exact Or.inl ⟨rfl, rfl⟩
  | ok x =>
    right
    dsimp only
    cases h : env.measure s.trace ph op a b th with
    | error x => exact ⟨_, rfl, fun hs => by rw [show measure' s.trace ph op a b th = _ from hs, h]⟩
    | ok x => exact ⟨_, rfl, fun hs => by rw [show measure' s.trace ph op a b th = _ from hs, h]⟩

theorem callReset_local (n : Nat) : LocalM Same (callReset env n) (callReset env' n) := by
  refine LocalM.single fun s => ?_
  unfold callReset
  have e' : (CrudEnv.withClosures env measure' warmupTime' resetFn').resetFn = resetFn' := rfl
  rw [e']
  right
  cases h : env.resetFn s.trace n with
  | error x => exact ⟨_, rfl, fun hs => by rw [show resetFn' s.trace n = _ from hs, h]⟩
  | ok x => exact ⟨_, rfl, fun hs => by rw [show resetFn' s.trace n = _ from hs, h]⟩

theorem runVerbosely_local (pref suff : String) (ph : Phase) (op : Op) (r : Nat × Nat) (th : Nat) :
    LocalM Same (runVerbosely env pref suff ph op r th) (runVerbosely env' pref suff ph op r th) := by
  unfold runVerbosely
  exact (runIteratorPass_local env measure' warmupTime' resetFn' ph op r.1 r.2 th).bind fun x => (LocalM.lift _).bind fun sp =>
    (LocalM.output _).bind fun _ => .pure _

theorem yieldAnalysis_local {α : Type} (op : Op) (c : OpCfg) (m : α) (time space : Complexity) :
    LocalM Same (yieldAnalysis op c m time space) (yieldAnalysis op c m time space) := by
  unfold yieldAnalysis
  exact .ite ((LocalM.output _).bind fun _ => .still fun _ => rfl) (.ite ((LocalM.output _).bind fun _ => .still fun _ => rfl) (.pure _))

theorem constantSetPass_local (cfg : CrudCfg) (op : Op) (suff pref : String) (k : Nat) :
    LocalM Same (constantSetPass env cfg op suff pref k) (constantSetPass env' cfg op suff pref k) := by
  unfold constantSetPass
  refine .ite ?_ (.pure _)
  refine (LocalM.lift _).bind fun r => (runVerbosely_local env measure' warmupTime' resetFn' _ _ _ _ _ _).bind fun x =>
    (LocalM.still (m := setRes op k x.1) fun _ => rfl).bind fun _ => (LocalM.still (m := xorR x.2) fun _ => rfl).bind fun _ => ?_
  refine .ite ?_ (.pure _)
  exact (LocalM.lift _).bind fun n => (LocalM.get _).bind fun p1 => (LocalM.get _).bind fun p2 => (LocalM.lift _).bind fun sp =>
    yieldAnalysis_local env measure' warmupTime' resetFn' _ _ _ _ _

theorem setResizingPass_local (cfg : CrudCfg) (op : Op) (suff pref : String) (rf : Nat → Nat → Rs (Nat × Nat)) (last k : Nat) :
    LocalM Same (setResizingPass env cfg op suff pref rf last k) (setResizingPass env' cfg op suff pref rf last k) := by
  unfold setResizingPass
  refine .ite ?_ (.pure _)
  refine (LocalM.lift _).bind fun r => (runVerbosely_local env measure' warmupTime' resetFn' _ _ _ _ _ _).bind fun x =>
    (LocalM.still (m := setRes op k x.1) fun _ => rfl).bind fun _ => (LocalM.still (m := xorR x.2) fun _ => rfl).bind fun _ => ?_
  refine .ite ?_ (.pure _)
  exact (LocalM.get _).bind fun p1 => (LocalM.get _).bind fun p2 => (LocalM.lift _).bind fun sp =>
    yieldAnalysis_local env measure' warmupTime' resetFn' _ _ _ _ _

theorem warmupOp_local (cfg : CrudCfg) (op : Op) (letter : String) : LocalM Same (warmupOp env cfg op letter) (warmupOp env' cfg op letter) := by
  unfold warmupOp
  refine .ite ?_ (.pure _)
  exact (LocalM.output _).bind fun _ => (LocalM.lift _).bind fun m =>
    .ite ((runIteratorPass_local env measure' warmupTime' resetFn' _ _ _ _ _).bind fun x => .still fun _ => rfl)
      ((runIteratorPass_local env measure' warmupTime' resetFn' _ _ _ _ _).bind fun x => .still fun _ => rfl)

theorem warmup_local (cfg : CrudCfg) : LocalM Same (warmup env cfg) (warmup env' cfg) := by
  unfold warmup
  refine .ite ?_ (.pure _)
  refine (LocalM.output _).bind fun _ => (warmupOp_local env measure' warmupTime' resetFn' _ _ _).bind fun _ =>
    (warmupOp_local env measure' warmupTime' resetFn' _ _ _).bind fun _ => (warmupOp_local env measure' warmupTime' resetFn' _ _ _).bind fun _ =>
    (warmupOp_local env measure' warmupTime' resetFn' _ _ _).bind fun _ => (LocalM.output _).bind fun _ => (LocalM.lift _).bind fun m =>
    (callReset_local env measure' warmupTime' resetFn' _).bind fun _ => ?_
  refine LocalM.single fun s => Or.inr ⟨.out (env.text.dur (env.warmupTime s.trace) ++ ", "), rfl, fun hs => ?_⟩
  show output (env.text.dur (warmupTime' s.trace) ++ ", ") s = output (env.text.dur (env.warmupTime s.trace) ++ ", ") s
  rw [show warmupTime' s.trace = _ from hs]

theorem outputReport_local {α : Type} (c : OpCfg) (a : Option α) (display : α → Rs String) :
    LocalM Same (outputReport c a display) (outputReport c a display) := by
  unfold outputReport
  exact .ite ((LocalM.lift _).bind fun x => (LocalM.lift _).bind fun t => .output _) (.pure _)

theorem deletePasses_local (cfg : CrudCfg) : LocalM Same (deletePasses env cfg) (deletePasses env' cfg) := by
  unfold deletePasses
  refine .ite ?_ (.pure _)
  exact (LocalM.output _).bind fun _ => (setResizingPass_local env measure' warmupTime' resetFn' _ _ _ _ _ _ _).bind fun _ =>
    (setResizingPass_local env measure' warmupTime' resetFn' _ _ _ _ _ _ _).bind fun d => (LocalM.get _).bind fun r =>
    (LocalM.output _).bind fun _ => (outputReport_local env measure' warmupTime' resetFn' _ _ _).bind fun _ => .pure _

theorem analyseBody_local (cfg : CrudCfg) : LocalM Same (analyseBody env cfg) (analyseBody env' cfg) := by
  unfold analyseBody
  exact (LocalM.output _).bind fun _ => (warmup_local env measure' warmupTime' resetFn' cfg).bind fun _ => (LocalM.output _).bind fun _ =>
    (setResizingPass_local env measure' warmupTime' resetFn' _ _ _ _ _ _ _).bind fun _ =>
    (constantSetPass_local env measure' warmupTime' resetFn' _ _ _ _ _).bind fun _ =>
    (constantSetPass_local env measure' warmupTime' resetFn' _ _ _ _ _).bind fun _ => (LocalM.output _).bind fun _ =>
    (setResizingPass_local env measure' warmupTime' resetFn' _ _ _ _ _ _ _).bind fun c =>
    (constantSetPass_local env measure' warmupTime' resetFn' _ _ _ _ _).bind fun r =>
    (constantSetPass_local env measure' warmupTime' resetFn' _ _ _ _ _).bind fun u => (LocalM.output _).bind fun _ =>
    (outputReport_local env measure' warmupTime' resetFn' _ _ _).bind fun _ => (outputReport_local env measure' warmupTime' resetFn' _ _ _).bind fun _ =>
    (outputReport_local env measure' warmupTime' resetFn' _ _ _).bind fun _ => (deletePasses_local env measure' warmupTime' resetFn' cfg).bind fun d =>
    .pure _

theorem internalAnalyse_local (cfg : CrudCfg) (t : List Ev) : t <+: (internalAnalyse env cfg t).2 ∧
    ((∀ pre ev, t <+: pre → pre ++ [ev] <+: (internalAnalyse env cfg t).2 → Same pre ev) → internalAnalyse env' cfg t = internalAnalyse env cfg t) := by
  obtain ⟨h1, h2⟩ := analyseBody_local env measure' warmupTime' resetFn' cfg { trace := t, report := "", r := 0, res := fun _ _ => PassResult.default }
  unfold internalAnalyse
  cases h : analyseBody env cfg { trace := t, report := "", r := 0, res := fun _ _ => PassResult.default } with
  | mk r s =>
    rw [h] at h1 h2
    cases r <;> exact ⟨h1, fun hs => by rw [h2 hs]⟩

theorem testLoop_local (cfg : CrudCfg) (max : Nat) : ∀ left attempt errors t, t <+: (testLoop env cfg max left attempt errors t).2 ∧
    ((∀ pre ev, t <+: pre → pre ++ [ev] <+: (testLoop env cfg max left attempt errors t).2 → Same pre ev) →
      testLoop env' cfg max left attempt errors t = testLoop env cfg max left attempt errors t) := by
  intro left
  induction left with
  | zero => intro attempt errors t; exact ⟨List.prefix_refl t, fun _ => rfl⟩
  | succ left ih =>
    intro attempt errors t
    unfold testLoop
    have e1 : (CrudEnv.withClosures env measure' warmupTime' resetFn').profile = env.profile := rfl
    have e2 : (CrudEnv.withClosures env measure' warmupTime' resetFn').resetFn = resetFn' := rfl
    rw [e1, e2]
    cases hc : adaptCfg env.profile attempt cfg with
    | error e => exact ⟨List.prefix_refl t, fun _ => rfl⟩
    | ok cfg' =>
      dsimp only
      obtain ⟨h1, h2⟩ := internalAnalyse_local env measure' warmupTime' resetFn' cfg' t
      cases h : internalAnalyse env cfg' t with
      | mk r t' =>
        rw [h] at h1 h2
        cases r with
        | panic e => exact ⟨h1, fun hs => by rw [h2 hs]⟩
        | ok a => exact ⟨h1, fun hs => by rw [h2 hs]⟩
        | fail e =>
          dsimp only
          by_cases ht : e.failedAnalysis = "Time"
          · by_cases ha : attempt < max - 1
            · rw [if_pos ht, if_pos ha]
              generalize hmsg : "\nAttempt " ++ toString (attempt + 1) ++ " failed. Resetting before retrying" = msg
              cases hr : env.resetFn (t' ++ [.out msg]) 100 with
              | error p =>
                have hp : t' ++ [Ev.out msg, .reset 100] = (t' ++ [.out msg]) ++ [.reset 100] := by simp
                refine ⟨h1.trans (List.prefix_append _ _), fun hs => ?_⟩
                dsimp only at hs
                rw [h2 fun pre ev a b => hs pre ev a (b.trans (List.prefix_append _ _))]
                dsimp only
                rw [if_pos ht, if_pos ha, show resetFn' (t' ++ [.out msg]) 100 = _ from
                  hs _ (.reset 100) (h1.trans (List.prefix_append _ _)) (by rw [← hp]), hr]
              | ok u =>
                obtain ⟨g1, g2⟩ := ih (attempt + 1) (errors ++ [e]) (t' ++ [.out msg, .reset 100, .out "...\n"])
                have hp : t' ++ [Ev.out msg, .reset 100, .out "...\n"] = ((t' ++ [.out msg]) ++ [.reset 100]) ++ [.out "...\n"] := by simp
                have k1 : t' <+: t' ++ [Ev.out msg, .reset 100, .out "...\n"] := List.prefix_append _ _
                refine ⟨(h1.trans k1).trans g1, fun hs => ?_⟩
                dsimp only at hs
                rw [h2 fun pre ev a b => hs pre ev a ((b.trans k1).trans g1)]
                dsimp only
                rw [if_pos ht, if_pos ha, show resetFn' (t' ++ [.out msg]) 100 = _ from
                  hs _ (.reset 100) (h1.trans (List.prefix_append _ _)) (List.IsPrefix.trans (by rw [hp]; exact List.prefix_append _ _) g1), hr]
                exact g2 fun pre ev a b => hs pre ev ((h1.trans k1).trans a) b
            · rw [if_pos ht, if_neg ha]
              exact ⟨h1, fun hs => by rw [h2 hs]; dsimp only; rw [if_pos ht, if_neg ha]⟩
          · rw [if_neg ht]
            exact ⟨h1, fun hs => by rw [h2 hs]; dsimp only; rw [if_neg ht]⟩

end crud
end BigO
