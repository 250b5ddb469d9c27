import Verif.Model.Crud
import Verif.Spec.DisplaySpec

/-!
# What is expected of the CRUD runner
-/
namespace BigO

/-- not an output text: the closures and `reset_fn` are involved -/
def Ev.isAction : Ev → Bool
  | .out _ => false
  | _ => true

/-- the runs of closures and resets in a trace, in order -/
def actions (l : List Ev) : List Ev := l.filter Ev.isAction

/-- the texts in a trace, concatenated -/
def texts : List Ev → String
  | [] => ""
  | .out s :: l => s ++ texts l
  | _ :: l => texts l

/-- the `u32` computations of the runner do not overflow -/
def NoOverflow (cfg : CrudCfg) : Prop :=
  ∀ o, 2 * (cfg.op o).iters < 2 ^ 32 ∧ (cfg.op o).iters * cfg.warmup < 2 ^ 32

/-- one run of a closure over a range, or nothing if the operation has no iterations -/
def opRun (cfg : CrudCfg) (ph : Phase) (op : Op) (start stop : Nat) : List Ev :=
  if (cfg.op op).iters = 0 then [] else [.pass ph op start stop (cfg.op op).threads]

/-- the documented warm-up: create, read, update and delete over the given percentage of the elements, then a reset -/
def warmupSequence (cfg : CrudCfg) : List Ev :=
  let w := fun o => (cfg.op o).iters * cfg.warmup / 100
  if cfg.warmup = 0 then [] else
    opRun cfg .warmup .create 0 (w .create) ++ opRun cfg .warmup .read 0 (w .read) ++
    opRun cfg .warmup .update 0 (w .update) ++ opRun cfg .warmup .delete (w .delete) 0 ++ [.reset (w .create)]

/-- the documented sequence of a whole CRUD analysis: warm-up, first passes, second passes, then the delete passes in
reverse -/
def crudSequence (cfg : CrudCfg) : List Ev :=
  let n := fun o => (cfg.op o).iters
  warmupSequence cfg ++
  opRun cfg .pass1 .create 0 (n .create) ++ opRun cfg .pass1 .read 0 (n .read) ++ opRun cfg .pass1 .update 0 (n .update) ++
  opRun cfg .pass2 .create (n .create) (2 * n .create) ++ opRun cfg .pass2 .read (n .read) (2 * n .read) ++
  opRun cfg .pass2 .update (n .update) (2 * n .update) ++
  opRun cfg .pass2 .delete (2 * n .delete) (n .delete) ++ opRun cfg .pass1 .delete (n .delete) 0

/-- a run of the closure of `op` -/
def Ev.isRunOf (op : Op) : Ev → Prop
  | .pass _ o _ _ _ => o = op
  | _ => False

/-- a call of `reset_fn` -/
def Ev.isReset : Ev → Prop
  | .reset _ => True
  | _ => False

/-- a run of a closure in the warm-up -/
def Ev.isWarmupRun : Ev → Prop
  | .pass .warmup _ _ _ _ => True
  | _ => False

/-- a run of a closure in a measured pass -/
def Ev.isMeasuredRun : Ev → Prop
  | .pass .pass1 _ _ _ _ => True
  | .pass .pass2 _ _ _ _ => True
  | _ => False

/-- between `t0` and `trace`, the operation was run over that range in that phase, and `pr` was measured -/
def MeasuredIn (env : CrudEnv) (t0 trace : List Ev) (ph : Phase) (op : Op) (start stop threads : Nat) (pr : PassResult) : Prop :=
  ∃ before after x, trace = t0 ++ before ++ .pass ph op start stop threads :: after ∧
    env.measure (t0 ++ before) ph op start stop threads = .ok (pr, x)

/-- between `t0` and `trace`, the text was output -/
def SaidIn (t0 trace : List Ev) (msg : String) : Prop := ∃ before after, trace = t0 ++ before ++ .out msg :: after

/-- how an operation is called in reports and errors -/
def Op.title : Op → String
  | .create => "Create"
  | .read => "Read"
  | .update => "Update"
  | .delete => "Delete"

/-- what a rejection says: the operation, the kind of limit, the limit and the measured class -/
def complaint (operation kind : String) (limit measured : Complexity) : String :=
  "'" ++ operation ++ "' algorithm was expected to match a maximum " ++ kind ++ " complexity of '" ++ limit.debug ++ "', but '" ++
    measured.debug ++ "' was measured"

/-- the error names, also in its text, an operation, its limit and a verdict beyond that limit -/
def Rejects (cfg : CrudCfg) (e : CrudError) : Prop :=
  ∃ op, e.failedOperation = op.title ∧
    ((e.failedAnalysis = "Time" ∧ (cfg.op op).tmax.asU32 < e.failedComplexity.asU32 ∧
      e.failedAssertionMsg = complaint op.title "TIME" (cfg.op op).tmax e.failedComplexity) ∨
     (e.failedAnalysis = "Space" ∧ (cfg.op op).smax.asU32 < e.failedComplexity.asU32 ∧
      e.failedAssertionMsg = complaint op.title "SPACE" (cfg.op op).smax e.failedComplexity))

/-- limits of `cfg'` are at least those of `cfg`, all else is the same -/
def Looser (cfg cfg' : CrudCfg) : Prop :=
  cfg'.name = cfg.name ∧ cfg'.warmup = cfg.warmup ∧ ∀ o, (cfg'.op o).iters = (cfg.op o).iters ∧
    (cfg'.op o).threads = (cfg.op o).threads ∧ (cfg.op o).tmax.asU32 ≤ (cfg'.op o).tmax.asU32 ∧
    (cfg.op o).smax.asU32 ≤ (cfg'.op o).smax.asU32

/-- attempt number `k` of a test, started after `trace` -/
noncomputable def attempt (env : CrudEnv) (cfg : CrudCfg) (k : Nat) (trace : List Ev) : Res (CrudAnalyses × String) × List Ev :=
  match adaptCfg env.profile k cfg with
  | .error e => (.panic e, trace)
  | .ok cfg' => internalAnalyse env cfg' trace

/-- what is said after a failed attempt that will be retried -/
def retryText (k : Nat) : String := "\nAttempt " ++ toString (k + 1) ++ " failed. Resetting before retrying"

/-- what happens between a failed attempt and the next one -/
def betweenAttempts (k : Nat) : List Ev := [.out (retryText k), .reset 100, .out "...\n"]

/-- everything before attempt number `k` -/
noncomputable def beforeAttempt (env : CrudEnv) (cfg : CrudCfg) (trace : List Ev) : Nat → List Ev
  | 0 => trace
  | k + 1 => (attempt env cfg k (beforeAttempt env cfg trace k)).2 ++ betweenAttempts k

/-- attempt `k` was within all limits -/
def Accepted (env : CrudEnv) (cfg : CrudCfg) (trace : List Ev) (k : Nat) : Prop :=
  ∃ a, (attempt env cfg k (beforeAttempt env cfg trace k)).1 = .ok a

/-- attempt `k` was rejected because of a time complexity -/
def TimeRejected (env : CrudEnv) (cfg : CrudCfg) (trace : List Ev) (k : Nat) : Prop :=
  ∃ e, (attempt env cfg k (beforeAttempt env cfg trace k)).1 = .fail e ∧ e.failedAnalysis = "Time"

/-- how the call `reset_fn(100)` after attempt `k` ends -/
noncomputable def resetAfter (env : CrudEnv) (cfg : CrudCfg) (trace : List Ev) (k : Nat) : Rs Unit :=
  env.resetFn ((attempt env cfg k (beforeAttempt env cfg trace k)).2 ++ [.out (retryText k)]) 100

/-- attempt `k` was rejected because of a time complexity, and the reset after it did not panic -/
def Retried (env : CrudEnv) (cfg : CrudCfg) (trace : List Ev) (k : Nat) : Prop :=
  TimeRejected env cfg trace k ∧ resetAfter env cfg trace k = .ok ()

/-- the documented range of an operation in pass number 0 or 1 -/
def opRange (cfg : CrudCfg) (op : Op) (k : Nat) : Nat × Nat :=
  let n := (cfg.op op).iters
  if op = .delete then ((k + 1) * n, k * n) else (k * n, (k + 1) * n)

/-- the time class of an operation, given what its two passes measured: create and delete resize the set, read and update work on
sets of the size created in one and in two passes -/
noncomputable def opTime (env : CrudEnv) (cfg : CrudCfg) (op : Op) (p1 p2 : PassResult) : Complexity :=
  match op with
  | .create | .delete => analyseTimeSetResizing env.f64 ⟨(cfg.op op).iters⟩ ⟨p1.time, p2.time⟩
  | .read | .update => analyseTimeConstantSet env.f64 ⟨(cfg.op .create).iters, 2 * (cfg.op .create).iters, (cfg.op op).iters⟩ ⟨p1.time, p2.time⟩

/-- the space class of an operation -/
noncomputable def opSpace (env : CrudEnv) (cfg : CrudCfg) (op : Op) (p1 p2 : PassResult) : Rs Complexity :=
  match op with
  | .create | .delete => analyseSpaceSetResizing env.f64 env.profile ⟨(cfg.op op).iters⟩ ⟨p1.space, p2.space⟩
  | .read | .update => analyseSpaceConstantSet env.f64 env.profile ⟨(cfg.op .create).iters, 2 * (cfg.op .create).iters, (cfg.op op).iters⟩ ⟨p1.space, p2.space⟩

/-- both passes of the operation were measured, over its documented ranges and with its threads -/
def BothMeasured (env : CrudEnv) (cfg : CrudCfg) (t0 trace : List Ev) (op : Op) (p1 p2 : PassResult) : Prop :=
  MeasuredIn env t0 trace .pass1 op (opRange cfg op 0).1 (opRange cfg op 0).2 (cfg.op op).threads p1 ∧
  MeasuredIn env t0 trace .pass2 op (opRange cfg op 1).1 (opRange cfg op 1).2 (cfg.op op).threads p2

/-- the order in which the operations are judged -/
def Op.rank : Op → Nat
  | .create => 0
  | .read => 1
  | .update => 2
  | .delete => 3

/-- both passes of the operation were measured, and their classes are within its limits -/
def WithinIn (env : CrudEnv) (cfg : CrudCfg) (t0 trace : List Ev) (op : Op) : Prop :=
  ∃ p1 p2 space, BothMeasured env cfg t0 trace op p1 p2 ∧ (opTime env cfg op p1 p2).asU32 ≤ (cfg.op op).tmax.asU32 ∧
    opSpace env cfg op p1 p2 = .ok space ∧ space.asU32 ≤ (cfg.op op).smax.asU32

/-- the error blames an operation for what its two passes measured: its time class is beyond the limit, or its time class is within
the limit and its space class is beyond it; the requested operations judged earlier were within their limits -/
def Blames (env : CrudEnv) (cfg : CrudCfg) (t0 trace : List Ev) (e : CrudError) : Prop :=
  ∃ op p1 p2, 0 < (cfg.op op).iters ∧ e.failedOperation = op.title ∧ BothMeasured env cfg t0 trace op p1 p2 ∧
    ((e.failedAnalysis = "Time" ∧ e.failedComplexity = opTime env cfg op p1 p2 ∧ (cfg.op op).tmax.asU32 < (opTime env cfg op p1 p2).asU32) ∨
     (e.failedAnalysis = "Space" ∧ (opTime env cfg op p1 p2).asU32 ≤ (cfg.op op).tmax.asU32 ∧
      opSpace env cfg op p1 p2 = .ok e.failedComplexity ∧ (cfg.op op).smax.asU32 < e.failedComplexity.asU32)) ∧
    ∀ op', op'.rank < op.rank → 0 < (cfg.op op').iters → WithinIn env cfg t0 trace op'

/-- `reset_fn` does not panic -/
def CalmReset (env : CrudEnv) : Prop := ∀ tr n, env.resetFn tr n = .ok ()

/-- the closures and `reset_fn` do not panic, and the clock and the allocator give plausible readings -/
def BenignCrud (env : CrudEnv) : Prop :=
  CalmReset env ∧
  ∀ tr ph op a b th, ∃ pr x, env.measure tr ph op a b th = .ok (pr, x) ∧ PlausibleReading pr.space ∧ PlausibleTime pr.time

/-- the requested operations have a positive number of threads, and all numbers fit their types -/
def Fits (cfg : CrudCfg) : Prop :=
  NoOverflow cfg ∧ ∀ o, 0 < (cfg.op o).iters → 2 * (cfg.op o).iters < 2 ^ 31 ∧ 1 ≤ (cfg.op o).threads ∧ (cfg.op o).threads < 2 ^ 31

/-- the error of an attempt that was rejected -/
noncomputable def rejection (env : CrudEnv) (cfg : CrudCfg) (trace : List Ev) (k : Nat) : Option CrudError :=
  match (attempt env cfg k (beforeAttempt env cfg trace k)).1 with
  | .fail e => some e
  | _ => none

/-- the text of an error -/
def rejectionText (e : CrudError) : String := "CRUD complexity analysis assertion failed: " ++ e.failedAssertionMsg

/-- what went wrong, in words: operation and class -/
def failureName (e : CrudError) : String := e.failedOperation ++ " with " ++ e.failedComplexity.debug

/-- "once", "twice", ...: ` - <what> (<count> time[s])` -/
def summaryLine (what : String) (count : Nat) : String :=
  " - " ++ what ++ " (" ++ toString count ++ (if count = 1 then " time" else " times") ++ ")\n"

/-- a summary of failures: each kind is listed once, with the number of failures of that kind, in descending order -/
def SummaryOf (errors : List CrudError) (text : String) : Prop :=
  ∃ kinds : List String, kinds.Pairwise (· > ·) ∧ (∀ w, w ∈ kinds ↔ ∃ e ∈ errors, failureName e = w) ∧
    text = String.join (kinds.map fun w => summaryLine w (errors.countP fun e => failureName e = w))

end BigO
