import Verif.Model.Retry
import Verif.Model.Crud

/-!
# Model of the test runner for regular algorithms

`/repo/src/runners/standard.rs` 32-122 and `run_sync_pass_verbosely`, `/repo/src/runners/common.rs` 32-41.

The user's closures, the clock and the allocator are the environment: `RegEnv.run` gives the outcome of a call (what was
measured and the returned number, or a panic), as an arbitrary function of everything that happened before.
-/
namespace BigO

/-- the closures -/
inductive RegCall
  | reset | pass1 | pass2
  deriving DecidableEq, Repr

/-- observable events: texts, calls of the closures with what was measured (nothing if it panicked), sleeping 5 s -/
inductive RegEv
  | out (s : String)
  | call (c : RegCall) (measured : Option PassResult)
  | sleep
  deriving DecidableEq, Repr

/-- the environment of a run -/
structure RegEnv where
  profile : Profile
  f64 : FloatEnv
  text : TextEnv
  /-- `loggable_retry_errors` -/
  errors : List String → String
  run : List RegEv → RegCall → Rs (PassResult × Nat)

/-- the arguments of a test, standard.rs 32-40 -/
structure RegCfg where
  name : String
  maxRetry : Nat
  n1 : Nat
  n2 : Nat
  tmax : Complexity
  smax : Complexity
  deriving DecidableEq, Repr

section
variable (env : RegEnv)

/-- `run_sync_pass`, common.rs 191-225 -/
def runSync (c : RegCall) : P RegEv (PassResult × Nat) := fun t =>
  match env.run t c with
  | .error e => (.error e, t ++ [.call c none])
  | .ok x => (.ok x, t ++ [.call c (some x.1)])

/-- `run_sync_pass_verbosely`, common.rs 32-41 -/
noncomputable def runSyncVerbosely (pref suff : String) (c : RegCall) : P RegEv (PassResult × Nat) := do
  let x ← runSync env c
  let sp ← P.lift (displaySpacePass env.text env.profile x.1.space)
  P.log (.out (pref ++ env.text.dur x.1.time ++ "/" ++ sp ++ suff))
  return x

/-- standard.rs 108 -/
def regSpaceMsg (cfg : RegCfg) (space : Complexity) : String :=
  "\n ** Aborted due to SPACE complexity mismatch on '" ++ cfg.name ++ "' operation: maximum: " ++ cfg.smax.debug ++
    ", measured: " ++ space.debug ++ "\n\n"

/-- standard.rs 112 -/
def regTimeMsg (cfg : RegCfg) (time : Complexity) : String :=
  "\n ** TIME complexity mismatch on '" ++ cfg.name ++ "' operation: maximum: " ++ cfg.tmax.debug ++
    ", measured: " ++ time.debug ++ " -- a reattempt may be performed...\n\n"

/-- what `analyse_algorithm` measures, standard.rs 72-98 (`pass1_measurements` and `pass2_measurements`, which nothing reads,
are omitted) -/
def regMeasurements (cfg : RegCfg) (m1 m2 : PassResult) : RegularMeasurements :=
  ⟨cfg.name, ⟨cfg.n1, cfg.n2⟩, ⟨m1.time, m2.time⟩, ⟨m1.space, m2.space⟩⟩

/-- `analyse_algorithm`, standard.rs 57-122 -/
noncomputable def analyseAlgorithm (cfg : RegCfg) : P RegEv (RetryResult Unit) := do
  P.log (.out ("Running '" ++ cfg.name ++ "' algorithm:\n"))
  let _x0 ← runSyncVerbosely env "  Resetting: " "" .reset
  let x1 ← runSyncVerbosely env "; Pass 1: " "" .pass1
  let x2 ← runSyncVerbosely env "; Pass 2: " "" .pass2
  let time := analyseTime env.f64 (regMeasurements cfg x1.1 x2.1).info (regMeasurements cfg x1.1 x2.1).time
  let space ← P.lift (analyseSpace env.f64 env.profile (regMeasurements cfg x1.1 x2.1).info (regMeasurements cfg x1.1 x2.1).space)
  P.log (.out "\n\n")
  let report ← P.lift (reportRegular env.f64 env.text env.profile ⟨time, space, regMeasurements cfg x1.1 x2.1⟩)
  P.log (.out (report ++ "\n"))
  if space.asU32 > cfg.smax.asU32 then do
    P.log (.out (regSpaceMsg cfg space))
    return .fatal (regSpaceMsg cfg space)
  else if time.asU32 > cfg.tmax.asU32 then do
    P.log (.out (regTimeMsg cfg time))
    return .transient () (regTimeMsg cfg time)
  else do
    P.log (.out ("r=" ++ toString (0 ^^^ x1.2 ^^^ x2.2) ++ "\n\n"))
    return .ok

/-- `test_algorithm`, standard.rs 32-54 -/
noncomputable def testAlgorithm (cfg : RegCfg) : P RegEv Unit := do
  let result ← retryWith .sleep (analyseAlgorithm env cfg) (fun _ => analyseAlgorithm env cfg) cfg.maxRetry
  resolveOrPanic env.errors cfg.maxRetry result

end
end BigO
