import Verif.Model.Measurer

/-!
# Model of the dry run of an asynchronous test

`test_run`, `/repo/src/api/builders/regular_async_builder.rs` 198-312 (private; the unit tests call it). It is the only code that
runs custom measurers around passes.

The closures are arbitrary functions of everything that happened before and may panic; awaiting a future is a call. Simplifications: showing
data (`Debug`) does not panic and depends on the data only; the fields of the builder that `test_run` does not use are omitted.
-/
namespace BigO

/-- the part of `RegularAsyncAnalyzerBuilder` (regular_async_builder.rs 21-51) that `test_run` uses -/
structure DryTest (D B : Type) where
  resetFn : Option (List (MEv D B) → Option D → Rs D)
  warmupFn : Option (List (MEv D B) → Option D → Rs D)
  fn1 : Option (List (MEv D B) → Option D → Rs D)
  check1 : Option (List (MEv D B) → D → Rs Unit)
  fn2 : Option (List (MEv D B) → Option D → Rs D)
  check2 : Option (List (MEv D B) → D → Rs Unit)
  measurers : List (Measurer D B)
  maxReattempts : Option Nat
  /-- the `Debug` text of the data -/
  dbg : D → String

section
variable {D B : Type} (E : FloatEnv) (N : NumText)

/-- `run_if!` on a closure that gives data, regular_async_builder.rs 215-236 -/
def runIf (s : AStep) (f : Option (List (MEv D B) → Option D → Rs D)) (input : Option D) : P (MEv D B) (Option D) :=
  match f with
  | none => pure none
  | some f => fun t =>
    match f t input with
    | .error e => (.error e, t ++ [.call s input none])
    | .ok d => (.ok (some d), t ++ [.call s input (some d)])

/-- `presence`, regular_async_builder.rs 205-207 -/
def presence {α : Type} : Option α → String
  | some _ => "present"
  | none => "absent"

/-- `run_if!` on an optional closure and what is printed after it: regular_async_builder.rs 238-243, 245-250, 252-257 and 284-289 -/
def runTold (dbg : D → String) (s : AStep) (f : Option (List (MEv D B) → Option D → Rs D)) (input : Option D) (did didnt : String) :
    P (MEv D B) (Option D) := do
  let r ← runIf s f input
  match r with
  | some d => P.log (.line (did ++ "Some(" ++ dbg d ++ ")"))
  | none => P.log (.line didnt)
  return r

/-- `run_if!` on an assertion, regular_async_builder.rs 215-236; gives whether it ran -/
def checkIf (second : Bool) (f : Option (List (MEv D B) → D → Rs Unit)) (data : D) : P (MEv D B) Bool :=
  match f with
  | none => pure false
  | some f => fun t =>
    match f t data with
    | .error e => (.error e, t ++ [.check second data false])
    | .ok _ => (.ok true, t ++ [.check second data true])

/-- an assertion and what is printed after it: regular_async_builder.rs 277-282 and 305-310 -/
def checkTold (second : Bool) (f : Option (List (MEv D B) → D → Rs Unit)) (data : D) (did didnt : String) : P (MEv D B) Unit := do
  let ran ← checkIf second f data
  P.log (.line (if ran then did else didnt))

/-- `Option::expect` -/
def expectData (msg : String) : Option D → P (MEv D B) D
  | some d => pure d
  | none => P.lift (.error (.msg msg))

/-- the loops that print the measurements, regular_async_builder.rs 272-274 and 300-302 -/
noncomputable def dumpAll : List CustomMeasurement → P (MEv D B) Unit
  | [] => pure ()
  | c :: l => do
    let s ← P.lift (c.measured.display E N)
    P.log (.line ("  ## " ++ c.name ++ " = " ++ s))
    dumpAll l

/-- the texts printed around a pass -/
structure PassTexts where
  pre : String
  executed : String
  missing : String
  post : String
  dump : String
  checked : String
  unchecked : String

/-- regular_async_builder.rs 259-282; the text before the measurements says "2nd" in the code -/
def firstTexts : PassTexts where
  pre := "## taking pre-1st pass measurements -- in the reverse order they were declared"
  executed := "## first_pass_fn was executed. first_pass_result: "
  missing := "BUG!!! 1st pass function is not present! That should be impossible!"
  post := "## taking post-1st pass delta measurements -- in the same order they were declared"
  dump := "## dumping 2nd pass measurements:"
  checked := "## first_pass_assertion_fn is present and was executed after the first pass."
  unchecked := "## not executing first_pass_assertion_fn as it is not present"

/-- regular_async_builder.rs 291-310 -/
def secondTexts : PassTexts where
  pre := "## taking pre-2nd pass measurements -- in the reverse order they were declared"
  executed := "## second_pass_fn was executed. second_pass_result: "
  missing := "BUG!!! 2st pass function is not present! That should be impossible!"
  post := "## taking post-2nd pass delta measurements -- in the same order they were declared"
  dump := "## dumping 2nd pass measurements:"
  checked := "## second_pass_assertion_fn is present and was executed after the second pass."
  unchecked := "## not executing second_pass_assertion_fn as it is not present"

/-- one measured pass: pre-event steps, pass, post-event steps, printing, assertion (regular_async_builder.rs 259-282 and 291-310) -/
noncomputable def dryPass (dbg : D → String) (s : AStep) (x : PassTexts) (second : Bool) (f : Option (List (MEv D B) → Option D → Rs D))
    (check : Option (List (MEv D B) → D → Rs Unit)) (input : Option D) (ms : List (Measurer D B)) :
    P (MEv D B) (D × List CustomMeasurement × List (Measurer D B)) := do
  P.log (.line x.pre)
  let ms' ← measureAllBefore input ms
  let r ← runIf s f input
  let d ← expectData x.missing r
  P.log (.line (x.executed ++ dbg d))
  P.log (.line x.post)
  let y ← measureAllAfter (some d) ms'
  P.log (.line x.dump)
  dumpAll E N y.1
  checkTold second check d x.checked x.unchecked
  return (d, y.1, y.2)

/-- the lines before anything runs, regular_async_builder.rs 199-210 -/
def dryIntro (b : DryTest D B) : P (MEv D B) Unit := do
  P.log (.line "## Wonderful!! We are ready to run.")
  P.log (.line "## This is the data we got:")
  P.log (.line ("##   max_reattempts: " ++ (match b.maxReattempts with | some n => "Some(" ++ toString n ++ ")" | none => "None")))
  P.log (.line ("##   warmup_fn: " ++ presence b.warmupFn))
  P.log (.line ("##   reset_fn: " ++ presence b.resetFn))
  P.log (.line "##")
  P.log (.line "## running:")

/-- `test_run`, regular_async_builder.rs 198-312; gives what it stores in `first_pass_measurements` and `second_pass_measurements` -/
noncomputable def testRun (b : DryTest D B) : P (MEv D B) (List CustomMeasurement × List CustomMeasurement) := do
  dryIntro b
  let r0 ← runTold b.dbg .reset b.resetFn none
    "## reset_fn is present and was executed before any passes. reset_optional_result: " "## not executing reset_fn as it is not present"
  let w ← runTold b.dbg .warmup b.warmupFn r0
    "## warmup_fn is present and was executed. warmup_optional_result: " "## not executing warmup_fn as it is not present"
  let r1 ← runTold b.dbg .reset b.resetFn w
    "## reset_fn is present and was executed after the warmup pass. reset_optional_result: "
    "## again, not executing reset_fn as it is not present"
  let x1 ← dryPass E N b.dbg .pass1 firstTexts false b.fn1 b.check1 r1 b.measurers
  let r2 ← runTold b.dbg .reset b.resetFn (some x1.1)
    "## reset_fn is present and was executed after the first pass. reset_optional_result: "
    "## again, not executing reset_fn as it is not present"
  let x2 ← dryPass E N b.dbg .pass2 secondTexts true b.fn2 b.check2 r2 x1.2.2
  return (x1.2.1, x2.2.1)

end
end BigO
