import Verif.Spec.RegularSpec
import Verif.Spec.AsyncSpec

/-!
# What a test of a regular or asynchronous algorithm prints, and the message it fails with
-/
namespace BigO

/-! ## regular algorithms -/

/-- a complete attempt: what was measured of the reset and of the passes, the numbers that the passes returned, the texts of the
space figures, the classes and the report -/
structure RegRun where
  m0 : PassResult
  m1 : PassResult
  m2 : PassResult
  r1 : Nat
  r2 : Nat
  s0 : String
  s1 : String
  s2 : String
  time : Complexity
  space : Complexity
  report : String

section
variable (env : RegEnv) (cfg : RegCfg)

/-- the start of an attempt -/
def regHead : List RegEv := [.out ("Running '" ++ cfg.name ++ "' algorithm:\n")]

/-- a call that returned, and its line -/
def regStep (c : RegCall) (m : PassResult) (title s : String) : List RegEv :=
  [.call c (some m), .out (title ++ env.text.dur m.time ++ "/" ++ s)]

/-- the transcript of an attempt, up to the last line -/
def RegRun.shown (a : RegRun) : List RegEv :=
  regHead cfg ++ regStep env .reset a.m0 "  Resetting: " a.s0 ++ regStep env .pass1 a.m1 "; Pass 1: " a.s1 ++
    regStep env .pass2 a.m2 "; Pass 2: " a.s2 ++ [.out "\n\n", .out (a.report ++ "\n")]

/-- the closures did what is recorded, given all that happened before (`h` is what happened before the attempt), and the texts and
classes are those of the measurements -/
structure RegRun.Valid (h : List RegEv) (a : RegRun) : Prop where
  reset : ∃ r0, env.run (h ++ regHead cfg) .reset = .ok (a.m0, r0)
  pass1 : env.run (h ++ regHead cfg ++ regStep env .reset a.m0 "  Resetting: " a.s0) .pass1 = .ok (a.m1, a.r1)
  pass2 : env.run (h ++ regHead cfg ++ regStep env .reset a.m0 "  Resetting: " a.s0 ++ regStep env .pass1 a.m1 "; Pass 1: " a.s1) .pass2 =
    .ok (a.m2, a.r2)
  s0 : displaySpacePass env.text env.profile a.m0.space = .ok a.s0
  s1 : displaySpacePass env.text env.profile a.m1.space = .ok a.s1
  s2 : displaySpacePass env.text env.profile a.m2.space = .ok a.s2
  time : analyseTime env.f64 ⟨cfg.n1, cfg.n2⟩ ⟨a.m1.time, a.m2.time⟩ = a.time
  space : analyseSpace env.f64 env.profile ⟨cfg.n1, cfg.n2⟩ ⟨a.m1.space, a.m2.space⟩ = .ok a.space
  report : reportRegular env.f64 env.text env.profile
    ⟨a.time, a.space, ⟨cfg.name, ⟨cfg.n1, cfg.n2⟩, ⟨a.m1.time, a.m2.time⟩, ⟨a.m1.space, a.m2.space⟩⟩⟩ = .ok a.report

/-- the message about space -/
def spaceMismatch (name : String) (max measured : Complexity) : String :=
  "\n ** Aborted due to SPACE complexity mismatch on '" ++ name ++ "' operation: maximum: " ++ max.debug ++
    ", measured: " ++ measured.debug ++ "\n\n"

/-- the message about time -/
def timeMismatch (name : String) (max measured : Complexity) : String :=
  "\n ** TIME complexity mismatch on '" ++ name ++ "' operation: maximum: " ++ max.debug ++
    ", measured: " ++ measured.debug ++ " -- a reattempt may be performed...\n\n"

/-- the message of a test whose last attempt exceeded the limit on space; `errs` are the earlier mismatches -/
def stoppedMsg (errors : List String → String) (max : Nat) (errs : List String) (e : String) : String :=
  if errs = [] then e
  else "Stopped after retrying for " ++ toString max ++ " attempts due to the fatal outcome '" ++ e ++
    "'. Previous transient errors: " ++ errors errs

/-- the message of a test that exceeded the limit on time at every attempt -/
def givenUpMsg (errors : List String → String) (max : Nat) (errs : List String) (e : String) : String :=
  "Given up with '" ++ e ++ "' after " ++ toString max ++ " attempts. Previous transient errors: " ++ errors errs

/-- the mismatch of an attempt that exceeded the limit on time -/
def RegRun.timeMsg (a : RegRun) : String := timeMismatch cfg.name cfg.tmax a.time

/-- an attempt after which there is another one: beyond the limit on time only; its transcript, with the pause -/
def RegRun.retried (a : RegRun) : List RegEv := a.shown env cfg ++ [.out (a.timeMsg cfg), .sleep]

/-- the attempts `as`, one after the other from `h` on, all valid and beyond the limit on time only -/
def RegRetried (h : List RegEv) (as : List RegRun) : Prop :=
  ∀ l a l', as = l ++ a :: l' →
    a.Valid env cfg (h ++ l.flatMap (RegRun.retried env cfg)) ∧ a.space.asU32 ≤ cfg.smax.asU32 ∧ cfg.tmax.asU32 < a.time.asU32

/-- an attempt that starts after `h` and is ended by the panic `e`: of a closure, or of the code that shows what was measured -/
inductive RegCut (h : List RegEv) : List RegEv → Panic → Prop
  | reset {e : Panic} (x : env.run (h ++ regHead cfg) .reset = .error e) : RegCut h (regHead cfg ++ [.call .reset none]) e
  | resetText {m : PassResult} {r : Nat} {e : Panic} (x : env.run (h ++ regHead cfg) .reset = .ok (m, r))
      (y : displaySpacePass env.text env.profile m.space = .error e) : RegCut h (regHead cfg ++ [.call .reset (some m)]) e
  | pass1 {m0 : PassResult} {r0 : Nat} {s0 : String} {e : Panic} (x0 : env.run (h ++ regHead cfg) .reset = .ok (m0, r0))
      (y0 : displaySpacePass env.text env.profile m0.space = .ok s0)
      (x : env.run (h ++ regHead cfg ++ regStep env .reset m0 "  Resetting: " s0) .pass1 = .error e) :
      RegCut h (regHead cfg ++ regStep env .reset m0 "  Resetting: " s0 ++ [.call .pass1 none]) e
  | pass1Text {m0 m : PassResult} {r0 r : Nat} {s0 : String} {e : Panic} (x0 : env.run (h ++ regHead cfg) .reset = .ok (m0, r0))
      (y0 : displaySpacePass env.text env.profile m0.space = .ok s0)
      (x : env.run (h ++ regHead cfg ++ regStep env .reset m0 "  Resetting: " s0) .pass1 = .ok (m, r))
      (y : displaySpacePass env.text env.profile m.space = .error e) :
      RegCut h (regHead cfg ++ regStep env .reset m0 "  Resetting: " s0 ++ [.call .pass1 (some m)]) e
  | pass2 {m0 m1 : PassResult} {r0 r1 : Nat} {s0 s1 : String} {e : Panic} (x0 : env.run (h ++ regHead cfg) .reset = .ok (m0, r0))
      (y0 : displaySpacePass env.text env.profile m0.space = .ok s0)
      (x1 : env.run (h ++ regHead cfg ++ regStep env .reset m0 "  Resetting: " s0) .pass1 = .ok (m1, r1))
      (y1 : displaySpacePass env.text env.profile m1.space = .ok s1)
      (x : env.run (h ++ regHead cfg ++ regStep env .reset m0 "  Resetting: " s0 ++ regStep env .pass1 m1 "; Pass 1: " s1) .pass2 = .error e) :
      RegCut h (regHead cfg ++ regStep env .reset m0 "  Resetting: " s0 ++ regStep env .pass1 m1 "; Pass 1: " s1 ++ [.call .pass2 none]) e
  | pass2Text {m0 m1 m : PassResult} {r0 r1 r : Nat} {s0 s1 : String} {e : Panic} (x0 : env.run (h ++ regHead cfg) .reset = .ok (m0, r0))
      (y0 : displaySpacePass env.text env.profile m0.space = .ok s0)
      (x1 : env.run (h ++ regHead cfg ++ regStep env .reset m0 "  Resetting: " s0) .pass1 = .ok (m1, r1))
      (y1 : displaySpacePass env.text env.profile m1.space = .ok s1)
      (x : env.run (h ++ regHead cfg ++ regStep env .reset m0 "  Resetting: " s0 ++ regStep env .pass1 m1 "; Pass 1: " s1) .pass2 = .ok (m, r))
      (y : displaySpacePass env.text env.profile m.space = .error e) :
      RegCut h (regHead cfg ++ regStep env .reset m0 "  Resetting: " s0 ++ regStep env .pass1 m1 "; Pass 1: " s1 ++ [.call .pass2 (some m)]) e
  | analysis {m0 m1 m2 : PassResult} {r0 r1 r2 : Nat} {s0 s1 s2 : String} {e : Panic} (x0 : env.run (h ++ regHead cfg) .reset = .ok (m0, r0))
      (y0 : displaySpacePass env.text env.profile m0.space = .ok s0)
      (x1 : env.run (h ++ regHead cfg ++ regStep env .reset m0 "  Resetting: " s0) .pass1 = .ok (m1, r1))
      (y1 : displaySpacePass env.text env.profile m1.space = .ok s1)
      (x2 : env.run (h ++ regHead cfg ++ regStep env .reset m0 "  Resetting: " s0 ++ regStep env .pass1 m1 "; Pass 1: " s1) .pass2 = .ok (m2, r2))
      (y2 : displaySpacePass env.text env.profile m2.space = .ok s2)
      (z : analyseSpace env.f64 env.profile ⟨cfg.n1, cfg.n2⟩ ⟨m1.space, m2.space⟩ = .error e) :
      RegCut h (regHead cfg ++ regStep env .reset m0 "  Resetting: " s0 ++ regStep env .pass1 m1 "; Pass 1: " s1 ++
        regStep env .pass2 m2 "; Pass 2: " s2) e
  | report {m0 m1 m2 : PassResult} {r0 r1 r2 : Nat} {s0 s1 s2 : String} {c : Complexity} {e : Panic}
      (x0 : env.run (h ++ regHead cfg) .reset = .ok (m0, r0))
      (y0 : displaySpacePass env.text env.profile m0.space = .ok s0)
      (x1 : env.run (h ++ regHead cfg ++ regStep env .reset m0 "  Resetting: " s0) .pass1 = .ok (m1, r1))
      (y1 : displaySpacePass env.text env.profile m1.space = .ok s1)
      (x2 : env.run (h ++ regHead cfg ++ regStep env .reset m0 "  Resetting: " s0 ++ regStep env .pass1 m1 "; Pass 1: " s1) .pass2 = .ok (m2, r2))
      (y2 : displaySpacePass env.text env.profile m2.space = .ok s2)
      (z : analyseSpace env.f64 env.profile ⟨cfg.n1, cfg.n2⟩ ⟨m1.space, m2.space⟩ = .ok c)
      (w : reportRegular env.f64 env.text env.profile ⟨analyseTime env.f64 ⟨cfg.n1, cfg.n2⟩ ⟨m1.time, m2.time⟩, c,
        ⟨cfg.name, ⟨cfg.n1, cfg.n2⟩, ⟨m1.time, m2.time⟩, ⟨m1.space, m2.space⟩⟩⟩ = .error e) :
      RegCut h (regHead cfg ++ regStep env .reset m0 "  Resetting: " s0 ++ regStep env .pass1 m1 "; Pass 1: " s1 ++
        regStep env .pass2 m2 "; Pass 2: " s2 ++ [.out "\n\n"]) e

/-- **the specification**: a test that starts after `h` appends `ext` to the history and ends with `r` -/
inductive RegTold (h : List RegEv) : List RegEv → Rs Unit → Prop
  /-- an attempt within both limits, after at most `max_retry_attempts` others -/
  | accepted {as : List RegRun} {a : RegRun} (retried : RegRetried env cfg h as) (few : as.length ≤ cfg.maxRetry)
      (valid : a.Valid env cfg (h ++ as.flatMap (RegRun.retried env cfg)))
      (within : a.space.asU32 ≤ cfg.smax.asU32 ∧ a.time.asU32 ≤ cfg.tmax.asU32) :
      RegTold h (as.flatMap (RegRun.retried env cfg) ++ a.shown env cfg ++ [.out ("r=" ++ toString (a.r1 ^^^ a.r2) ++ "\n\n")]) (.ok ())
  /-- an attempt beyond the limit on space, after at most `max_retry_attempts` others -/
  | space {as : List RegRun} {a : RegRun} (retried : RegRetried env cfg h as) (few : as.length ≤ cfg.maxRetry)
      (valid : a.Valid env cfg (h ++ as.flatMap (RegRun.retried env cfg)))
      (beyond : cfg.smax.asU32 < a.space.asU32) :
      RegTold h (as.flatMap (RegRun.retried env cfg) ++ a.shown env cfg ++ [.out (spaceMismatch cfg.name cfg.smax a.space)])
        (.error (.msg (stoppedMsg env.errors cfg.maxRetry (as.map (RegRun.timeMsg cfg)) (spaceMismatch cfg.name cfg.smax a.space))))
  /-- all attempts beyond the limit on time only -/
  | time {as : List RegRun} {a : RegRun} (retried : RegRetried env cfg h as) (all : as.length = cfg.maxRetry)
      (valid : a.Valid env cfg (h ++ as.flatMap (RegRun.retried env cfg)))
      (beyond : a.space.asU32 ≤ cfg.smax.asU32 ∧ cfg.tmax.asU32 < a.time.asU32) :
      RegTold h (as.flatMap (RegRun.retried env cfg) ++ a.shown env cfg ++ [.out (a.timeMsg cfg)])
        (.error (.msg (givenUpMsg env.errors cfg.maxRetry (as.map (RegRun.timeMsg cfg)) (a.timeMsg cfg))))
  /-- a panic in an attempt, after at most `max_retry_attempts` others -/
  | panic {as : List RegRun} {cut : List RegEv} {e : Panic} (retried : RegRetried env cfg h as) (few : as.length ≤ cfg.maxRetry)
      (ended : RegCut env cfg (h ++ as.flatMap (RegRun.retried env cfg)) cut e) :
      RegTold h (as.flatMap (RegRun.retried env cfg) ++ cut) (.error e)

end

/-! ## asynchronous algorithms -/

/-- a step of an attempt: a closure, with the title and the end of its line, that is given nothing (`fresh`) or the data so far; or an
assertion -/
inductive ALine
  | step (title suff : String) (s : AStep) (fresh : Bool)
  | check (second : Bool)

/-- the closure of a step -/
def fnOf {D B : Type} (b : Builder D B) : AStep → Option (AFn D)
  | .reset => b.resetFn
  | .warmup => b.warmupFn
  | .pass1 => b.fn1
  | .pass2 => b.fn2

/-- an assertion -/
def checkOf {D B : Type} (b : Builder D B) (second : Bool) : Option (ACheck D) := if second then b.check2 else b.check1

section
variable {D B : Type} (env : AEnv) (b : Builder D B)

/-- the steps before the passes -/
def linesBefore : List ALine :=
  (if b.resetFn.isSome then [.step "  Resetting: " ";" .reset false] else []) ++
  (if b.warmupFn.isSome then
    [.step "  Warming up: " ";" .warmup false] ++ (if b.resetFn.isSome then [.step "  Resetting again: " ";" .reset true] else [])
   else [])

/-- the passes -/
def linesOfPasses : List ALine :=
  [.step "  Pass 1: " ";" .pass1 false] ++
  (if b.check1.isSome then [.check false] else []) ++
  (if b.resetFn.isSome then [.step "  In-between-passes Reset: " ";" .reset false] else []) ++
  [.step "  Pass 2: " "" .pass2 false] ++
  (if b.check2.isSome then [.check true] else [])

/-- what a step is given -/
def given (fresh : Bool) (d : Option D) : Option D := if fresh then none else d

/-- a call that returned, and its line -/
def asyncStep (s : AStep) (i : Option D) (m : PassResult) (x : D) (title sp suff : String) : List (AEv D) :=
  [.call s i (some (m, x)), .out (title ++ env.text.dur m.time ++ "/" ++ sp ++ suff)]

/-- `Played h d ls evs d'`: the steps `ls`, made after the history `h` with the data `d`, all succeeded, as recorded in `evs`, and the
data in the end is `d'` -/
inductive Played : List (AEv D) → Option D → List ALine → List (AEv D) → Option D → Prop
  | nil (h : List (AEv D)) (d : Option D) : Played h d [] [] d
  | step {h evs : List (AEv D)} {d d' : Option D} {title suff sp : String} {s : AStep} {fresh : Bool} {ls : List ALine} {f : AFn D}
      {m : PassResult} {x : D} (fn : fnOf b s = some f) (run : f h (given fresh d) = .ok (m, x))
      (text : displaySpacePass env.text env.profile m.space = .ok sp)
      (rest : Played (h ++ asyncStep env s (given fresh d) m x title sp suff) (some x) ls evs d') :
      Played h d (.step title suff s fresh :: ls) (asyncStep env s (given fresh d) m x title sp suff ++ evs) d'
  | check {h evs : List (AEv D)} {d' : Option D} {second : Bool} {ls : List ALine} {c : ACheck D} {x : D}
      (fn : checkOf b second = some c) (run : c h x = .ok ())
      (rest : Played (h ++ [.check second x true]) (some x) ls evs d') :
      Played h (some x) (.check second :: ls) ([.check second x true] ++ evs) d'

/-- `PlayedCut h d ls evs e`: the steps `ls` were begun after the history `h` with the data `d`, as recorded in `evs`, and the panic `e`
ended them: of a closure, or of the code that shows what was measured -/
inductive PlayedCut : List (AEv D) → Option D → List ALine → List (AEv D) → Panic → Prop
  | call {h : List (AEv D)} {d : Option D} {title suff : String} {s : AStep} {fresh : Bool} {ls : List ALine} {f : AFn D} {e : Panic}
      (fn : fnOf b s = some f) (run : f h (given fresh d) = .error e) :
      PlayedCut h d (.step title suff s fresh :: ls) [.call s (given fresh d) none] e
  | text {h : List (AEv D)} {d : Option D} {title suff : String} {s : AStep} {fresh : Bool} {ls : List ALine} {f : AFn D}
      {m : PassResult} {x : D} {e : Panic} (fn : fnOf b s = some f) (run : f h (given fresh d) = .ok (m, x))
      (text : displaySpacePass env.text env.profile m.space = .error e) :
      PlayedCut h d (.step title suff s fresh :: ls) [.call s (given fresh d) (some (m, x))] e
  | check {h : List (AEv D)} {second : Bool} {ls : List ALine} {c : ACheck D} {x : D} {e : Panic}
      (fn : checkOf b second = some c) (run : c h x = .error e) :
      PlayedCut h (some x) (.check second :: ls) [.check second x false] e
  | later {h evs evs' : List (AEv D)} {d d' : Option D} {ls ls' : List ALine} {e : Panic} (ran : Played env b h d ls evs d')
      (rest : PlayedCut (h ++ evs) d' ls' evs' e) : PlayedCut h d (ls ++ ls') (evs ++ evs') e

/-- the start of an attempt -/
def asyncHead : List (AEv D) := [.out ("Running '" ++ b.name ++ "' async algorithm:\n")]

/-- the data at the start of an attempt: that of the previous one, but only if there is a reset function -/
def startData (prev : Option D) : Option D := if b.resetFn.isSome then prev else none

/-- a complete attempt: the steps, what was measured of the passes, the data in the end, the classes and the report -/
structure AsyncRun (D : Type) where
  evs : List (AEv D)
  m1 : PassResult
  m2 : PassResult
  data : D
  time : Complexity
  space : Complexity
  report : String

/-- the transcript of an attempt, up to the last line -/
def AsyncRun.shown (a : AsyncRun D) : List (AEv D) := asyncHead b ++ a.evs ++ [.out "\n\n", .out (a.report ++ "\n")]

/-- the closures did what is recorded, given all that happened before, and the texts and classes are those of the measurements -/
structure AsyncRun.Valid (h : List (AEv D)) (prev : Option D) (a : AsyncRun D) : Prop where
  steps : Played env b (h ++ asyncHead b) (startData b prev) (linesBefore b ++ linesOfPasses b) a.evs (some a.data)
  pass1 : ∃ i d, .call .pass1 i (some (a.m1, d)) ∈ a.evs
  pass2 : ∃ i d, .call .pass2 i (some (a.m2, d)) ∈ a.evs
  time : analyseTime env.f64 ⟨b.n1, b.n2⟩ ⟨a.m1.time, a.m2.time⟩ = a.time
  space : analyseSpace env.f64 env.profile ⟨b.n1, b.n2⟩ ⟨a.m1.space, a.m2.space⟩ = .ok a.space
  report : reportRegular env.f64 env.text env.profile
    ⟨a.time, a.space, ⟨b.name, ⟨b.n1, b.n2⟩, ⟨a.m1.time, a.m2.time⟩, ⟨a.m1.space, a.m2.space⟩⟩⟩ = .ok a.report

/-- within the limit on space, if there is one -/
def AsyncRun.spaceOk (a : AsyncRun D) : Prop := ∀ l, b.smax = some l → a.space.asU32 ≤ l.asU32

/-- within the limit on time, if there is one -/
def AsyncRun.timeOk (a : AsyncRun D) : Prop := ∀ l, b.tmax = some l → a.time.asU32 ≤ l.asU32

/-- the mismatch of an attempt that exceeded the limit on time -/
def AsyncRun.timeMsg (a : AsyncRun D) : String :=
  match b.tmax with
  | some l => timeMismatch b.name l a.time
  | none => ""

/-- an attempt after which there is another one: its transcript, with the pause and the announcement -/
def AsyncRun.retried (a : AsyncRun D) : List (AEv D) := a.shown b ++ [.out (a.timeMsg b), .sleep, .out "retrying...\n"]

/-- the data that the last of the attempts produced -/
def lastData (as : List (AsyncRun D)) : Option D := as.getLast?.map AsyncRun.data

/-- the attempts `as`, one after the other from `h` on, all valid and beyond the limit on time only -/
def AsyncRetried (h : List (AEv D)) (as : List (AsyncRun D)) : Prop :=
  ∀ l a l', as = l ++ a :: l' →
    a.Valid env b (h ++ l.flatMap (AsyncRun.retried b)) (lastData l) ∧ a.spaceOk b ∧ ¬ a.timeOk b

/-- an attempt that starts after `h` with the data `prev` of the previous one, ended by the panic `e` -/
inductive AsyncCut (h : List (AEv D)) (prev : Option D) : List (AEv D) → Panic → Prop
  /-- before the passes -/
  | before {evs : List (AEv D)} {e : Panic} (cut : PlayedCut env b (h ++ asyncHead b) (startData b prev) (linesBefore b) evs e) :
      AsyncCut h prev (asyncHead b ++ evs) e
  /-- there is no first pass -/
  | noFirst {evs : List (AEv D)} {d : Option D} (ran : Played env b (h ++ asyncHead b) (startData b prev) (linesBefore b) evs d)
      (none1 : b.fn1 = none) : AsyncCut h prev (asyncHead b ++ evs) (.msg "BUG! First pass function not present")
  /-- there is no second pass -/
  | noSecond {evs : List (AEv D)} {d : Option D} (ran : Played env b (h ++ asyncHead b) (startData b prev) (linesBefore b) evs d)
      (some1 : b.fn1.isSome) (none2 : b.fn2 = none) :
      AsyncCut h prev (asyncHead b ++ evs) (.msg "BUG! Second pass function not present")
  /-- in the passes -/
  | passes {evs evs' : List (AEv D)} {d : Option D} {e : Panic}
      (ran : Played env b (h ++ asyncHead b) (startData b prev) (linesBefore b) evs d) (some1 : b.fn1.isSome) (some2 : b.fn2.isSome)
      (cut : PlayedCut env b (h ++ asyncHead b ++ evs) d (linesOfPasses b) evs' e) :
      AsyncCut h prev (asyncHead b ++ evs ++ evs') e
  /-- in the analysis of space -/
  | analysis {evs : List (AEv D)} {d : Option D} {m1 m2 : PassResult} {e : Panic}
      (ran : Played env b (h ++ asyncHead b) (startData b prev) (linesBefore b ++ linesOfPasses b) evs d)
      (pass1 : ∃ i d, .call .pass1 i (some (m1, d)) ∈ evs) (pass2 : ∃ i d, .call .pass2 i (some (m2, d)) ∈ evs)
      (z : analyseSpace env.f64 env.profile ⟨b.n1, b.n2⟩ ⟨m1.space, m2.space⟩ = .error e) : AsyncCut h prev (asyncHead b ++ evs) e
  /-- in the report -/
  | report {evs : List (AEv D)} {d : Option D} {m1 m2 : PassResult} {c : Complexity} {e : Panic}
      (ran : Played env b (h ++ asyncHead b) (startData b prev) (linesBefore b ++ linesOfPasses b) evs d)
      (pass1 : ∃ i d, .call .pass1 i (some (m1, d)) ∈ evs) (pass2 : ∃ i d, .call .pass2 i (some (m2, d)) ∈ evs)
      (z : analyseSpace env.f64 env.profile ⟨b.n1, b.n2⟩ ⟨m1.space, m2.space⟩ = .ok c)
      (w : reportRegular env.f64 env.text env.profile ⟨analyseTime env.f64 ⟨b.n1, b.n2⟩ ⟨m1.time, m2.time⟩, c,
        ⟨b.name, ⟨b.n1, b.n2⟩, ⟨m1.time, m2.time⟩, ⟨m1.space, m2.space⟩⟩⟩ = .error e) :
      AsyncCut h prev (asyncHead b ++ evs ++ [.out "\n\n"]) e

/-- the number of reattempts allowed; 0 if it was not set -/
def reattempts : Nat := b.maxReattempts.getD 0

/-- **the specification**: a test that starts after `h` appends `ext` to the history and ends with `r` -/
inductive AsyncTold (h : List (AEv D)) : List (AEv D) → Rs Unit → Prop
  /-- an attempt within the limits -/
  | accepted {as : List (AsyncRun D)} {a : AsyncRun D} (retried : AsyncRetried env b h as) (few : as.length ≤ reattempts b)
      (valid : a.Valid env b (h ++ as.flatMap (AsyncRun.retried b)) (lastData as)) (within : a.spaceOk b ∧ a.timeOk b) :
      AsyncTold h (as.flatMap (AsyncRun.retried b) ++ a.shown b) (.ok ())
  /-- an attempt beyond the limit on space -/
  | space {as : List (AsyncRun D)} {a : AsyncRun D} {l : Complexity} (retried : AsyncRetried env b h as) (few : as.length ≤ reattempts b)
      (valid : a.Valid env b (h ++ as.flatMap (AsyncRun.retried b)) (lastData as)) (limit : b.smax = some l)
      (beyond : l.asU32 < a.space.asU32) :
      AsyncTold h (as.flatMap (AsyncRun.retried b) ++ a.shown b ++ [.out (spaceMismatch b.name l a.space)])
        (.error (.msg (stoppedMsg env.errors (reattempts b) (as.map (AsyncRun.timeMsg b)) (spaceMismatch b.name l a.space))))
  /-- all attempts beyond the limit on time only -/
  | time {as : List (AsyncRun D)} {a : AsyncRun D} (retried : AsyncRetried env b h as) (all : as.length = reattempts b)
      (valid : a.Valid env b (h ++ as.flatMap (AsyncRun.retried b)) (lastData as)) (beyond : a.spaceOk b ∧ ¬ a.timeOk b) :
      AsyncTold h (as.flatMap (AsyncRun.retried b) ++ a.shown b ++ [.out (a.timeMsg b)])
        (.error (.msg (givenUpMsg env.errors (reattempts b) (as.map (AsyncRun.timeMsg b)) (a.timeMsg b))))
  /-- a panic in an attempt -/
  | panic {as : List (AsyncRun D)} {cut : List (AEv D)} {e : Panic} (retried : AsyncRetried env b h as) (few : as.length ≤ reattempts b)
      (ended : AsyncCut env b (h ++ as.flatMap (AsyncRun.retried b)) (lastData as) cut e) :
      AsyncTold h (as.flatMap (AsyncRun.retried b) ++ cut) (.error e)

end
end BigO
