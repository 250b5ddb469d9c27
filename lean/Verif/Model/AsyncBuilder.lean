import Verif.Model.Retry
import Verif.Model.Crud
import Verif.Model.Measurer

/-!
# Model of the builder of tests of asynchronous regular algorithms

`/repo/src/api/builders/regular_async_builder.rs` 20-196 and 314-471, `run_async_pass_verbosely`,
`/repo/src/runners/common.rs` 44-57, and `run_async_pass`, common.rs 239-281.

The user's closures, the clock and the allocator are the environment: a closure gives the outcome of a call (what was measured
and the data, or a panic) as an arbitrary function of everything that happened before and of its argument.  Awaiting a future
is a call.  Simplifications: `first_pass_measurements` and `second_pass_measurements`, which `test_algorithm` neither reads nor
writes, are omitted. `test_run` (regular_async_builder.rs 198-312) is in `Model/DryRun.lean`.
-/
namespace BigO

/-- observable events: texts, calls of closures (nothing measured if they panicked), assertions on data, sleeping 1 s -/
inductive AEv (D : Type)
  | out (s : String)
  | call (s : AStep) (input : Option D) (res : Option (PassResult × D))
  | check (second : Bool) (data : D) (passed : Bool)
  | sleep

/-- an `AlgoManipulationAsyncFn` or a pass, with what is measured while it runs -/
abbrev AFn (D : Type) := List (AEv D) → Option D → Rs (PassResult × D)

/-- an `AlgoAssertionAsyncFn` -/
abbrev ACheck (D : Type) := List (AEv D) → D → Rs Unit

/-- `RegularAsyncAnalyzerBuilder`, regular_async_builder.rs 21-51 -/
structure Builder (D B : Type) where
  name : String
  resetFn : Option (AFn D)
  maxReattempts : Option Nat
  warmupFn : Option (AFn D)
  n1 : Nat
  fn1 : Option (AFn D)
  check1 : Option (ACheck D)
  n2 : Nat
  fn2 : Option (AFn D)
  check2 : Option (ACheck D)
  tmax : Option Complexity
  smax : Option Complexity
  auxSpace : Option Complexity
  measurers : List (Measurer D B)

/-- what is fixed during a run -/
structure AEnv where
  profile : Profile
  f64 : FloatEnv
  text : TextEnv
  /-- `loggable_retry_errors` -/
  errors : List String → String

section
variable {D B : Type} (env : AEnv)

/-- `run_async_pass`, common.rs 239-281 -/
def runAsync (s : AStep) (f : AFn D) (input : Option D) : P (AEv D) (PassResult × D) := fun t =>
  match f t input with
  | .error e => (.error e, t ++ [.call s input none])
  | .ok x => (.ok x, t ++ [.call s input (some x)])

/-- `run_async_pass_verbosely`, common.rs 44-57 -/
noncomputable def runAsyncVerbosely (pref suff : String) (s : AStep) (f : AFn D) (input : Option D) : P (AEv D) (PassResult × D) := do
  let x ← runAsync s f input
  let sp ← P.lift (displaySpacePass env.text env.profile x.1.space)
  P.log (.out (pref ++ env.text.dur x.1.time ++ "/" ++ sp ++ suff))
  return x

/-- the first reset, regular_async_builder.rs 87-93 -/
noncomputable def firstReset (b : Builder D B) (prev : Option D) : P (AEv D) (Option D) :=
  match b.resetFn with
  | some f => do
    let x ← runAsyncVerbosely env "  Resetting: " ";" .reset f prev
    return some x.2
  | none => pure none

/-- the reset after the warm-up, regular_async_builder.rs 100-105 -/
noncomputable def resetAgain (b : Builder D B) (warm : D) : P (AEv D) (Option D) :=
  match b.resetFn with
  | some f => do
    let x ← runAsyncVerbosely env "  Resetting again: " ";" .reset f none
    return some x.2
  | none => pure (some warm)

/-- the warm-up, regular_async_builder.rs 96-108 -/
noncomputable def warmUp (b : Builder D B) (data : Option D) : P (AEv D) (Option D) :=
  match b.warmupFn with
  | some f => do
    let x ← runAsyncVerbosely env "  Warming up: " ";" .warmup f data
    resetAgain env b x.2
  | none => pure data

/-- `Option::expect` -/
def expectFn (f : Option (AFn D)) (msg : String) : P (AEv D) (AFn D) :=
  match f with
  | some f => pure f
  | none => P.lift (.error (.msg msg))

/-- an optional assertion, regular_async_builder.rs 119-122 and 136-138 -/
def runCheck (second : Bool) (c : Option (ACheck D)) (data : D) : P (AEv D) Unit :=
  match c with
  | none => pure ()
  | some c => fun t =>
    match c t data with
    | .error e => (.error e, t ++ [.check second data false])
    | .ok _ => (.ok (), t ++ [.check second data true])

/-- the reset between the passes, regular_async_builder.rs 124-131 -/
noncomputable def resetBetween (b : Builder D B) (data : D) : P (AEv D) (Option D) :=
  match b.resetFn with
  | some f => do
    let x ← runAsyncVerbosely env "  In-between-passes Reset: " ";" .reset f (some data)
    return some x.2
  | none => pure (some data)

/-- regular_async_builder.rs 177-178 -/
def asyncSpaceMsg (name : String) (max space : Complexity) : String :=
  "\n ** Aborted due to SPACE complexity mismatch on '" ++ name ++ "' operation: maximum: " ++ max.debug ++
    ", measured: " ++ space.debug ++ "\n\n"

/-- regular_async_builder.rs 186-187 -/
def asyncTimeMsg (name : String) (max time : Complexity) : String :=
  "\n ** TIME complexity mismatch on '" ++ name ++ "' operation: maximum: " ++ max.debug ++
    ", measured: " ++ time.debug ++ " -- a reattempt may be performed...\n\n"

/-- what is measured, regular_async_builder.rs 141-165 (`pass1_measurements` and `pass2_measurements`, which nothing reads,
are omitted) -/
def asyncMeasurements (b : Builder D B) (m1 m2 : PassResult) : RegularMeasurements :=
  ⟨b.name, ⟨b.n1, b.n2⟩, ⟨m1.time, m2.time⟩, ⟨m1.space, m2.space⟩⟩

/-- the limit on time, regular_async_builder.rs 184-193 -/
def judgeTime (b : Builder D B) (data : D) (time : Complexity) : P (AEv D) (RetryResult D) :=
  match b.tmax with
  | none => pure .ok
  | some tmax =>
    if time.asU32 > tmax.asU32 then do
      P.log (.out (asyncTimeMsg b.name tmax time))
      return .transient data (asyncTimeMsg b.name tmax time)
    else pure .ok

/-- the limits on space and time, regular_async_builder.rs 175-194 -/
def judgeSpace (b : Builder D B) (data : D) (time space : Complexity) : P (AEv D) (RetryResult D) :=
  match b.smax with
  | none => judgeTime b data time
  | some smax =>
    if space.asU32 > smax.asU32 then do
      P.log (.out (asyncSpaceMsg b.name smax space))
      return .fatal (asyncSpaceMsg b.name smax space)
    else judgeTime b data time

/-- the analysis, regular_async_builder.rs 140-194 -/
noncomputable def analyseAsync (b : Builder D B) (m1 m2 : PassResult) (data : D) : P (AEv D) (RetryResult D) := do
  let time := analyseTime env.f64 (asyncMeasurements b m1 m2).info (asyncMeasurements b m1 m2).time
  let space ← P.lift (analyseSpace env.f64 env.profile (asyncMeasurements b m1 m2).info (asyncMeasurements b m1 m2).space)
  P.log (.out "\n\n")
  let report ← P.lift (reportRegular env.f64 env.text env.profile ⟨time, space, asyncMeasurements b m1 m2⟩)
  P.log (.out (report ++ "\n"))
  judgeSpace b data time space

/-- `raw_analyse_algorithm`, regular_async_builder.rs 83-196 -/
noncomputable def rawAnalyse (b : Builder D B) (prev : Option D) : P (AEv D) (RetryResult D) := do
  P.log (.out ("Running '" ++ b.name ++ "' async algorithm:\n"))
  let d0 ← firstReset env b prev
  let d1 ← warmUp env b d0
  let f1 ← expectFn b.fn1 "BUG! First pass function not present"
  let f2 ← expectFn b.fn2 "BUG! Second pass function not present"
  let x1 ← runAsyncVerbosely env "  Pass 1: " ";" .pass1 f1 d1
  runCheck false b.check1 x1.2
  let d2 ← resetBetween env b x1.2
  let x2 ← runAsyncVerbosely env "  Pass 2: " "" .pass2 f2 d2
  runCheck true b.check2 x2.2
  analyseAsync env b x1.1 x2.1 x2.2

/-- `test_algorithm`, regular_async_builder.rs 61-80 -/
noncomputable def testAsync (b : Builder D B) : P (AEv D) Unit := do
  let result ← retryWith .sleep (rawAnalyse env b none)
    (fun data => do
      P.log (.out "retrying...\n")
      rawAnalyse env b (some data))
    (b.maxReattempts.getD 0)
  resolveOrPanic env.errors (b.maxReattempts.getD 0) result

end

/-! ## the builder methods -/

/-- a call of a builder method, with its arguments -/
inductive Setter (D B : Type)
  | maxReattempts (n : Nat)
  | resetFn (f : AFn D)
  | warmup (f : AFn D)
  | firstPass (n : Nat) (f : AFn D)
  | firstCheck (c : ACheck D)
  | secondPass (n : Nat) (f : AFn D)
  | secondCheck (c : ACheck D)
  | time (c : Complexity)
  | space (c : Complexity)
  | auxSpace (c : Complexity)
  /-- `add_custom_measurement` and `add_custom_measurement_with_averages`, which do the same -/
  | measurement (m : Measurer D B)

section
variable {D B : Type}

/-- `new`, regular_async_builder.rs 321-350 -/
def Builder.new (name : String) : Builder D B :=
  { name := name, resetFn := none, warmupFn := none, maxReattempts := none, n1 := 0, fn1 := none, check1 := none,
    n2 := 0, fn2 := none, check2 := none, tmax := none, smax := none, auxSpace := none, measurers := [] }

/-- the builder methods, regular_async_builder.rs 353-470 -/
def Setter.apply (s : Setter D B) (b : Builder D B) : Builder D B :=
  match s with
  | .maxReattempts n => { b with maxReattempts := some n }
  | .resetFn f => { b with resetFn := some f }
  | .warmup f => { b with warmupFn := some f }
  | .firstPass n f => { b with n1 := n, fn1 := some f }
  | .firstCheck c => { b with check1 := some c }
  | .secondPass n f => { b with n2 := n, fn2 := some f }
  | .secondCheck c => { b with check2 := some c }
  | .time c => { b with tmax := some c }
  | .space c => { b with smax := some c }
  | .auxSpace c => { b with auxSpace := some c }
  | .measurement m => { b with measurers := b.measurers ++ [m] }

/-- a chain of builder methods -/
def Builder.build (name : String) (l : List (Setter D B)) : Builder D B := l.foldl (fun b s => s.apply b) (.new name)

end
end BigO
