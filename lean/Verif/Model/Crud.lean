import Verif.Model.Display
import Verif.Model.Pass

/-!
# Model of the CRUD runner

`/repo/src/runners/crud.rs` 24-507 and `run_iterator_pass_verbosely`, `/repo/src/runners/common.rs` 15-29.

The user's closures, the clock and the allocator are the environment: `CrudEnv.measure` gives the outcome of a pass (or a
panic), as an arbitrary function of everything that happened before.  Which elements a pass gives to the closure is
`Verif.Model.Pass`.
Simplification: flushing of stdout (crud.rs 438) is not modelled.
-/
namespace BigO

/-- the four operations -/
inductive Op
  | create | read | update | delete
  deriving DecidableEq, Repr

/-- the names used in reports, crud.rs 394, 403, 409 and 415 -/
def Op.name : Op → String
  | .create => "Create"
  | .read => "Read"
  | .update => "Update"
  | .delete => "Delete"

/-- what a pass is run for; a ghost annotation of the trace -/
inductive Phase
  | warmup | pass1 | pass2
  deriving DecidableEq, Repr

/-- observable events: texts sent to `OUTPUT`, runs of a closure over a range, calls of `reset_fn` -/
inductive Ev
  | out (s : String)
  | pass (ph : Phase) (op : Op) (start stop threads : Nat)
  | reset (n : Nat)
  deriving DecidableEq, Repr

/-- the arguments of one operation, crud.rs 33-40 -/
structure OpCfg where
  iters : Nat
  threads : Nat
  tmax : Complexity
  smax : Complexity
  deriving DecidableEq, Repr

/-- the arguments of an analysis, crud.rs 32-40 -/
structure CrudCfg where
  name : String
  warmup : Nat
  op : Op → OpCfg

/-- `CRUDComplexityAnalysisError`, crud.rs 182-190 -/
structure CrudError where
  failedOperation : String
  failedAnalysis : String
  failedComplexity : Complexity
  failedAssertionMsg : String
  partialReport : String
  deriving DecidableEq, Repr

/-- the environment of a run -/
structure CrudEnv where
  profile : Profile
  f64 : FloatEnv
  text : TextEnv
  /-- outcome of a pass: what was measured and the computed number, or a panic of the closure -/
  measure : List Ev → Phase → Op → Nat → Nat → Nat → Rs (PassResult × Nat)
  /-- duration of the warm-up -/
  warmupTime : List Ev → Duration
  /-- outcome of a call of `reset_fn` (the `u32` it returns is ignored): it returns or panics -/
  resetFn : List Ev → Nat → Rs Unit

/-- local variables of an analysis, and the trace -/
structure CrudSt where
  trace : List Ev
  /-- `full_report`, crud.rs 220 -/
  report : String
  /-- `r`, crud.rs 237 -/
  r : Nat
  /-- the four `*_passes_results` arrays, crud.rs 228-231 -/
  res : Op → Nat → PassResult

/-- how a computation ends: normally, with `return Err(..)`, or with a panic -/
inductive Res (α : Type)
  | ok (a : α)
  | fail (e : CrudError)
  | panic (e : Panic)

/-- a computation -/
def M (α : Type) := CrudSt → Res α × CrudSt

/-- sequencing -/
def M.andThen {α β : Type} (m : M α) (f : α → M β) : M β := fun s =>
  match m s with
  | (.ok a, s') => f a s'
  | (.fail e, s') => (.fail e, s')
  | (.panic e, s') => (.panic e, s')

instance : Monad M where
  pure a := fun s => (.ok a, s)
  bind := M.andThen

/-- may panic -/
def M.lift {α : Type} (x : Rs α) : M α := fun s =>
  match x with
  | .ok a => (.ok a, s)
  | .error e => (.panic e, s)

/-- the closure `_output`, crud.rs 223-226 -/
def output (msg : String) : M Unit := fun s =>
  (.ok (), { s with report := s.report ++ msg, trace := s.trace ++ [.out msg] })

/-- a call of `reset_fn`, crud.rs 461 -/
def callReset (env : CrudEnv) (n : Nat) : M Unit := fun s =>
  match env.resetFn s.trace n with
  | .ok () => (.ok (), { s with trace := s.trace ++ [.reset n] })
  | .error e => (.panic e, { s with trace := s.trace ++ [.reset n] })

/-- `r ^= pass_r` -/
def xorR (x : Nat) : M Unit := fun s => (.ok (), { s with r := s.r ^^^ x })

/-- `passes_results[pass_number] = pass_result` -/
def setRes (op : Op) (k : Nat) (pr : PassResult) : M Unit := fun s =>
  (.ok (), { s with res := fun o j => if o = op ∧ j = k then pr else s.res o j })

/-- the current value of a variable -/
def M.get {α : Type} (f : CrudSt → α) : M α := fun s => (.ok (f s), s)

/-- `return Err(..)`; the error carries the report so far, crud.rs 365-372 and 378-385 -/
def failWith (mk : String → CrudError) : M α := fun s => (.fail (mk s.report), s)

/-- `{:?}` of the enum, types.rs 12-31 (derived `Debug`: the variant's name) -/
def Complexity.debug : Complexity → String
  | .betterThanO1 => "BetterThanO1"
  | .o1 => "O1"
  | .betweenO1AndOLogN => "BetweenO1AndOLogN"
  | .oLogN => "OLogN"
  | .betweenOLogNAndON => "BetweenOLogNAndON"
  | .oN => "ON"
  | .betweenONAndONLogN => "BetweenONAndONLogN"
  | .oNLogN => "ONLogN"
  | .betweenONLogNAndON2 => "BetweenONLogNAndON2"
  | .oN2 => "ON2"
  | .betweenON2AndON3 => "BetweenON2AndON3"
  | .oN3 => "ON3"
  | .betweenON3AndON4 => "BetweenON3AndON4"
  | .oN4 => "ON4"
  | .betweenON4AndOkN => "BetweenON4AndOkN"
  | .okN => "OkN"
  | .worseThanExponential => "WorseThanExponential"

section
variable (env : CrudEnv)

/-- `run_iterator_pass`, common.rs 72-178: the chunk arithmetic may panic before any closure runs; then the closures run -/
def runIteratorPass (ph : Phase) (op : Op) (start stop threads : Nat) : M (PassResult × Nat) := fun s =>
  match passChunks env.profile start stop threads with
  | .error e => (.panic e, s)
  | .ok _ =>
    let s' := { s with trace := s.trace ++ [.pass ph op start stop threads] }
    match env.measure s.trace ph op start stop threads with
    | .error e => (.panic e, s')
    | .ok x => (.ok x, s')

/-- `run_iterator_pass_verbosely`, common.rs 16-29 -/
noncomputable def runVerbosely (pref suff : String) (ph : Phase) (op : Op) (range : Nat × Nat) (threads : Nat) :
    M (PassResult × Nat) := do
  let x ← runIteratorPass env ph op range.1 range.2 threads
  let sp ← M.lift (displaySpacePass env.text env.profile x.1.space)
  output (pref ++ env.text.dur x.1.time ++ "/" ++ sp ++ suff)
  return x

/-- the phase of pass number 0 or 1 -/
def phaseOf (k : Nat) : Phase := if k = 0 then .pass1 else .pass2

/-- `calc_regular_cru_range`, crud.rs 241 -/
def cruRange (n k : Nat) : Rs (Nat × Nat) := do
  let a ← u32Mul env.profile n k
  let k1 ← u32Add env.profile k 1
  let b ← u32Mul env.profile n k1
  return (a, b)

/-- `calc_regular_d_range`, crud.rs 242 -/
def dRange (n k : Nat) : Rs (Nat × Nat) := do
  let k1 ← u32Add env.profile k 1
  let a ← u32Mul env.profile n k1
  let b ← u32Mul env.profile n k
  return (a, b)

/-- the text of an aborted analysis, crud.rs 364 and 377 -/
def abortText (kind : String) (op : Op) (max measured : Complexity) : String :=
  " ** Aborted due to " ++ kind ++ " complexity mismatch on '" ++ op.name ++ "' operation: maximum: " ++ max.debug ++
    ", measured: " ++ measured.debug ++ "\n\n"

/-- the error of an aborted analysis, crud.rs 365-372 and 378-385 -/
def abortError (kind kindUpper : String) (op : Op) (max measured : Complexity) (report : String) : CrudError where
  failedOperation := op.name
  failedAnalysis := kind
  failedComplexity := measured
  failedAssertionMsg := "'" ++ op.name ++ "' algorithm was expected to match a maximum " ++ kindUpper ++ " complexity of '" ++
    max.debug ++ "', but '" ++ measured.debug ++ "' was measured"
  partialReport := report

/-- `yield_analysis_or_return_with_error!`, crud.rs 358-388 -/
def yieldAnalysis {α : Type} (op : Op) (c : OpCfg) (m : α) (time space : Complexity) : M (Option (AnalysisOf α)) :=
  if time.asU32 > c.tmax.asU32 then do
    output (abortText "TIME" op c.tmax time)
    failWith (abortError "Time" "TIME" op c.tmax time)
  else if space.asU32 > c.smax.asU32 then do
    output (abortText "SPACE" op c.smax space)
    failWith (abortError "Space" "SPACE" op c.smax space)
  else return some ⟨time, space, m⟩

/-- `run_constant_set_pass!`, crud.rs 254-303: read and update -/
noncomputable def constantSetPass (cfg : CrudCfg) (op : Op) (suff pref : String) (k : Nat) :
    M (Option (AnalysisOf ConstantSetMeasurements)) :=
  if (cfg.op op).iters > 0 then do
    let range ← M.lift (cruRange env (cfg.op op).iters k)
    let x ← runVerbosely env pref suff (phaseOf k) op range (cfg.op op).threads
    setRes op k x.1
    xorR x.2
    if k = 1 then do
      let size2 ← M.lift (u32Mul env.profile (cfg.op .create).iters 2)
      let p1 ← M.get fun s => s.res op 0
      let p2 ← M.get fun s => s.res op 1
      let m : ConstantSetMeasurements := ⟨op.name, ⟨(cfg.op .create).iters, size2, (cfg.op op).iters⟩, ⟨p1.time, p2.time⟩, ⟨p1.space, p2.space⟩⟩
      let space ← M.lift (analyseSpaceConstantSet env.f64 env.profile m.info m.space)
      yieldAnalysis op (cfg.op op) m (analyseTimeConstantSet env.f64 m.info m.time) space
    else return none
  else return none

/-- `run_set_resizing_pass!`, crud.rs 317-354: create and delete; `last` is the pass after which the analysis is made -/
noncomputable def setResizingPass (cfg : CrudCfg) (op : Op) (suff pref : String)
    (rangeFn : Nat → Nat → Rs (Nat × Nat)) (last k : Nat) : M (Option (AnalysisOf SetResizingMeasurements)) :=
  if (cfg.op op).iters > 0 then do
    let range ← M.lift (rangeFn (cfg.op op).iters k)
    let x ← runVerbosely env pref suff (phaseOf k) op range (cfg.op op).threads
    setRes op k x.1
    xorR x.2
    if k = last then do
      let p1 ← M.get fun s => s.res op 0
      let p2 ← M.get fun s => s.res op 1
      let m : SetResizingMeasurements := ⟨op.name, ⟨(cfg.op op).iters⟩, ⟨p1.time, p2.time⟩, ⟨p1.space, p2.space⟩⟩
      let space ← M.lift (analyseSpaceSetResizing env.f64 env.profile m.info m.space)
      yieldAnalysis op (cfg.op op) m (analyseTimeSetResizing env.f64 m.info m.time) space
    else return none
  else return none

/-- `run_create_pass!`, crud.rs 390-398 -/
noncomputable def createPass (cfg : CrudCfg) (k : Nat) : M (Option (AnalysisOf SetResizingMeasurements)) :=
  setResizingPass env cfg .create (if (cfg.op .read).iters > 0 ∨ (cfg.op .update).iters > 0 then ", " else "") "create: "
    (cruRange env) 1 k

/-- `run_read_pass!`, crud.rs 399-404 -/
noncomputable def readPass (cfg : CrudCfg) (k : Nat) : M (Option (AnalysisOf ConstantSetMeasurements)) :=
  constantSetPass env cfg .read (if (cfg.op .update).iters > 0 then ", " else "") "read: " k

/-- `run_update_pass!`, crud.rs 405-410 -/
noncomputable def updatePass (cfg : CrudCfg) (k : Nat) : M (Option (AnalysisOf ConstantSetMeasurements)) :=
  constantSetPass env cfg .update "" "update: " k

/-- `run_delete_pass!`, crud.rs 411-425 -/
noncomputable def deletePass (cfg : CrudCfg) (k : Nat) : M (Option (AnalysisOf SetResizingMeasurements)) :=
  setResizingPass env cfg .delete "" (if k = 1 then "2nd: " else "; 1st: ") (dRange env) 0 k

/-- one closure of the warm-up, crud.rs 439-458 -/
noncomputable def warmupOp (cfg : CrudCfg) (op : Op) (letter : String) : M Unit :=
  if (cfg.op op).iters > 0 then do
    output letter
    let m ← M.lift (u32Mul env.profile (cfg.op op).iters cfg.warmup)
    let x ← if op = .delete then runIteratorPass env .warmup op (m / 100) 0 (cfg.op op).threads
      else runIteratorPass env .warmup op 0 (m / 100) (cfg.op op).threads
    xorR x.2
  else return ()

/-- the warm-up, crud.rs 430-466 -/
noncomputable def warmup (cfg : CrudCfg) : M Unit :=
  if cfg.warmup > 0 then do
    output "warming up ["
    warmupOp env cfg .create "C"
    warmupOp env cfg .read "R"
    warmupOp env cfg .update "U"
    warmupOp env cfg .delete "D"
    output "] "
    let m ← M.lift (u32Mul env.profile (cfg.op .create).iters cfg.warmup)
    callReset env (m / 100)
    let tr ← M.get CrudSt.trace
    output (env.text.dur (env.warmupTime tr) ++ ", ")
  else return ()

/-- the result of an analysis, crud.rs 213-218: without the report -/
structure CrudAnalyses where
  create : Option (AnalysisOf SetResizingMeasurements)
  read : Option (AnalysisOf ConstantSetMeasurements)
  update : Option (AnalysisOf ConstantSetMeasurements)
  delete : Option (AnalysisOf SetResizingMeasurements)

/-- one analysis report, crud.rs 480-489 and 500: `unwrap()` of a missing analysis would panic -/
def outputReport {α : Type} (c : OpCfg) (a : Option α) (display : α → Rs String) : M Unit :=
  if c.iters > 0 then do
    let x ← M.lift (match a with | some x => .ok x | none => .error (.msg "called `Option::unwrap()` on a `None` value"))
    let t ← M.lift (display x)
    output (t ++ "\n\n")
  else return ()

/-- the delete passes, crud.rs 491-504 -/
noncomputable def deletePasses (cfg : CrudCfg) : M (Option (AnalysisOf SetResizingMeasurements)) :=
  if (cfg.op .delete).iters > 0 then do
    output "Delete Passes ("
    let _ ← deletePass env cfg 1
    let d ← deletePass env cfg 0
    let r ← M.get CrudSt.r
    output (") r=" ++ toString r ++ ":\n")
    outputReport (cfg.op .delete) d (reportSetResizing env.f64 env.text env.profile)
    return d
  else return none

/-- the body of `internal_analyse_crud_algorithms`, crud.rs 428-506 -/
noncomputable def analyseBody (cfg : CrudCfg) : M CrudAnalyses := do
  output (cfg.name ++ " CRUD Algorithm Complexity Analysis:\n  ")
  warmup env cfg
  output "First Pass ("
  let _ ← createPass env cfg 0
  let _ ← readPass env cfg 0
  let _ ← updatePass env cfg 0
  output "); Second Pass ("
  let c ← createPass env cfg 1
  let r ← readPass env cfg 1
  let u ← updatePass env cfg 1
  output "):\n\n"
  outputReport (cfg.op .create) c (reportSetResizing env.f64 env.text env.profile)
  outputReport (cfg.op .read) r (reportConstantSet env.f64 env.text env.profile)
  outputReport (cfg.op .update) u (reportConstantSet env.f64 env.text env.profile)
  let d ← deletePasses env cfg
  return ⟨c, r, u, d⟩

/-- `internal_analyse_crud_algorithms`, crud.rs 200-507: the local variables start fresh (220-237), only the trace goes on;
the report is returned with the analyses -/
noncomputable def internalAnalyse (cfg : CrudCfg) (trace : List Ev) : Res (CrudAnalyses × String) × List Ev :=
  match analyseBody env cfg { trace := trace, report := "", r := 0, res := fun _ _ => PassResult.default } with
  | (.ok a, s) => (.ok (a, s.report), s.trace)
  | (.fail e, s) => (.fail e, s.trace)
  | (.panic e, s) => (.panic e, s.trace)

/-- without limits -/
def CrudCfg.unlimited (cfg : CrudCfg) : CrudCfg :=
  { cfg with op := fun o => { cfg.op o with tmax := .worseThanExponential, smax := .worseThanExponential } }

/-- `analyse_crud_algorithms`, crud.rs 153-180 -/
noncomputable def analyseCrud (cfg : CrudCfg) (trace : List Ev) : Rs (CrudAnalyses × String) × List Ev :=
  match internalAnalyse env cfg.unlimited trace with
  | (.ok a, t) => (.ok a, t)
  | (.fail _, t) => (.error (.msg "called `Result::unwrap()` on an `Err` value"), t)
  | (.panic e, t) => (.error e, t)

/-- `adapt`, crud.rs 45-56 -/
def adapt (p : Profile) (attempt n : Nat) : Rs Nat :=
  let factor := 10 - ((attempt % 15) / 3) * 2
  if attempt = 0 then .ok n
  else match (attempt - 1) % 3 with
    | 0 => .ok (n / factor)
    | 1 => u32Sub p n (n / factor)
    | _ => u32Add p n (n / factor)

/-- the four adapted iteration counts of an attempt, crud.rs 66-69 -/
def adaptCfg (p : Profile) (attempt : Nat) (cfg : CrudCfg) : Rs CrudCfg := do
  let c ← adapt p attempt (cfg.op .create).iters
  let r ← adapt p attempt (cfg.op .read).iters
  let u ← adapt p attempt (cfg.op .update).iters
  let d ← adapt p attempt (cfg.op .delete).iters
  return { cfg with op := fun o => { cfg.op o with iters := match o with | .create => c | .read => r | .update => u | .delete => d } }

/-- the keys of the summary of earlier errors, crud.rs 93 -/
def errorKey (e : CrudError) : String := e.failedOperation ++ " with " ++ e.failedComplexity.debug

/-- `BTreeMap::get_mut` and `insert` of the counting, crud.rs 94-100: the map as the list of its entries by ascending key (Rust compares
the bytes of the UTF-8 texts, which is the order of their characters); the counts stay below the number of attempts, so they
do not overflow -/
def bumpCount (k : String) : List (String × Nat) → List (String × Nat)
  | [] => [(k, 1)]
  | (k', c) :: l => if k = k' then (k', c + 1) :: l else if k < k' then (k, 1) :: (k', c) :: l else (k', c) :: bumpCount k l

/-- one line of the summary, crud.rs 108 -/
def errorLine (x : String × Nat) : String :=
  " - " ++ x.1 ++ " (" ++ toString x.2 ++ " time" ++ (if x.2 = 1 then "" else "s") ++ ")\n"

/-- the summary of earlier errors, crud.rs 90-111: counted from the last to the first, listed from the largest key to the smallest -/
def previousErrors (errors : List CrudError) : String :=
  let counts := errors.foldr (fun e acc => bumpCount (errorKey e) acc) []
  counts.foldr (fun x acc => acc ++ errorLine x) ""

/-- the text of an error, crud.rs 191-195 -/
def CrudError.text (e : CrudError) : String := "CRUD complexity analysis assertion failed: " ++ e.failedAssertionMsg

/-- the loop of `test_crud_algorithms`, crud.rs 62-121: `left` iterations to go, starting at `attempt`; `errors` is
`collected_errors` -/
noncomputable def testLoop (cfg : CrudCfg) (max : Nat) : (left attempt : Nat) → List CrudError → List Ev → Rs Unit × List Ev
  | 0, _, _, trace => (.ok (), trace)
  | left + 1, attempt, errors, trace =>
    match adaptCfg env.profile attempt cfg with
    | .error e => (.error e, trace)
    | .ok cfg' =>
      match internalAnalyse env cfg' trace with
      | (.panic e, trace') => (.error e, trace')
      | (.ok _, trace') => (.ok (), trace')
      | (.fail e, trace') =>
        if e.failedAnalysis = "Time" then
          if attempt < max - 1 then
            let msg := "\nAttempt " ++ toString (attempt + 1) ++ " failed. Resetting before retrying"
            match env.resetFn (trace' ++ [.out msg]) 100 with
            | .error p => (.error p, trace' ++ [.out msg, .reset 100])
            | .ok () => testLoop cfg max left (attempt + 1) (errors ++ [e]) (trace' ++ [.out msg, .reset 100, .out "...\n"])
          else (.error (.msg ("After " ++ toString max ++ " attempts, gave up retrying: " ++ e.text ++
            ".\nPrevious attempts failed at:\n" ++ previousErrors errors)), trace')
        else (.error (.msg ("At attempt #" ++ toString (attempt + 1) ++ ", SPACE complexity mismatch: " ++ e.text ++ "\n")), trace')

/-- `test_crud_algorithms`, crud.rs 27-122 -/
noncomputable def testCrud (cfg : CrudCfg) (max : Nat) (trace : List Ev) : Rs Unit × List Ev := testLoop env cfg max max 0 [] trace

end
end BigO
