import Verif.Model.DryRun
import Verif.Spec.MeasurerSpec

/-!
# What is expected of a dry run
-/
namespace BigO
variable {D B : Type}

/-- `Ran dbg s f i did didnt o es`: an optional closure either is absent, there is no data and the line `didnt` is printed, or was called with
`i`, gave the data, and the line `did` with the data is printed -/
inductive Ran (dbg : D → String) (s : AStep) (f : Option (List (MEv D B) → Option D → Rs D)) (i : Option D) (did didnt : String) :
    Option D → List (MEv D B) → Prop
  | absent (h : f = none) : Ran dbg s f i did didnt none [.line didnt]
  | called (h : f.isSome) (d : D) : Ran dbg s f i did didnt (some d) [.call s i (some d), .line (did ++ "Some(" ++ dbg d ++ ")")]

/-- the pre-event steps, from the last declared measurer to the first -/
def preCalls (data : Option D) (ms : List (Measurer D B)) (os : List (Taken B)) : List (MEv D B) :=
  ((ms.zip os).map (fun p => MEv.before p.1.key data (some p.2.value))).reverse

/-- the post-event steps, from the first declared measurer to the last; each is given the value of its pre-event step -/
def postCalls (data : D) (ms : List (Measurer D B)) (os : List (Taken B)) : List (MEv D B) :=
  (ms.zip os).map (fun p => MEv.after p.1.key (some data) p.2.value (some p.2.measured))

/-- the printed measurements: name and value of each measurer, in the order of declaration -/
def Printed (E : FloatEnv) (N : NumText) (ms : List (Measurer D B)) (os : List (Taken B)) (lines : List (MEv D B)) : Prop :=
  List.Forall₂ (fun p e => ∃ s, p.2.measured.display E N = .ok s ∧ e = MEv.line ("  ## " ++ p.1.name ++ " = " ++ s)) (ms.zip os) lines

/-- the assertion, if there is one, held of the data; it is told whether there is one -/
def checkCalls (second : Bool) (check : Option (List (MEv D B) → D → Rs Unit)) (d : D) : List (MEv D B) :=
  let ord := if second then "second" else "first"
  if check.isSome then
    [.check second d true, .line ("## " ++ ord ++ "_pass_assertion_fn is present and was executed after the " ++ ord ++ " pass.")]
  else [.line ("## not executing " ++ ord ++ "_pass_assertion_fn as it is not present")]

/-- a measured pass: the measurers are nested around the call of the pass; before it they see the data the pass is given, after it the data
it gave; each step is announced (both passes announce the measurements of the "2nd" pass) -/
def DryPassCalls (E : FloatEnv) (N : NumText) (dbg : D → String) (ms : List (Measurer D B)) (s : AStep) (second : Bool)
    (check : Option (List (MEv D B) → D → Rs Unit)) (input : Option D) (d : D) (os : List (Taken B)) (es : List (MEv D B)) : Prop :=
  let ord := if second then "second" else "first"
  let nth := if second then "2nd" else "1st"
  os.length = ms.length ∧ ∃ lines, Printed E N ms os lines ∧
    es = [.line ("## taking pre-" ++ nth ++ " pass measurements -- in the reverse order they were declared")] ++ preCalls input ms os ++
      [.call s input (some d), .line ("## " ++ ord ++ "_pass_fn was executed. " ++ ord ++ "_pass_result: " ++ dbg d),
        .line ("## taking post-" ++ nth ++ " pass delta measurements -- in the same order they were declared")] ++ postCalls d ms os ++
      [.line "## dumping 2nd pass measurements:"] ++ lines ++ checkCalls second check d

/-- what is told before anything is called -/
def dryHeading (b : DryTest D B) : List (MEv D B) :=
  let given := fun (x : Bool) => if x then "present" else "absent"
  [.line "## Wonderful!! We are ready to run.", .line "## This is the data we got:",
    .line ("##   max_reattempts: " ++ (match b.maxReattempts with | some n => "Some(" ++ toString n ++ ")" | none => "None")),
    .line ("##   warmup_fn: " ++ given b.warmupFn.isSome), .line ("##   reset_fn: " ++ given b.resetFn.isSome), .line "##", .line "## running:"]

/-- closures that do not panic and assertions that hold; both passes are set -/
structure DryTest.Calm (E : FloatEnv) (N : NumText) (b : DryTest D B) : Prop where
  fns : ∀ f, (b.resetFn = some f ∨ b.warmupFn = some f ∨ b.fn1 = some f ∨ b.fn2 = some f) → ∀ h i, ∃ d, f h i = .ok d
  checks : ∀ c, (b.check1 = some c ∨ b.check2 = some c) → ∀ h d, c h d = .ok ()
  fn1 : b.fn1.isSome
  fn2 : b.fn2.isSome
  measurers : ∀ m ∈ b.measurers, m.Calm
  /-- measurements that can be shown -/
  shown : ∀ m ∈ b.measurers, ∀ h d v x, m.afterFn h d v = .ok x → ∃ s, x.display E N = .ok s

/-- the closure that was configured for a step -/
def DryTest.fn (b : DryTest D B) : AStep → Option (List (MEv D B) → Option D → Rs D)
  | .reset => b.resetFn
  | .warmup => b.warmupFn
  | .pass1 => b.fn1
  | .pass2 => b.fn2

/-- the event, recorded after the history `h`, is what the closure that was given to the builder did -/
def DryGenuine (b : DryTest D B) (h : List (MEv D B)) : MEv D B → Prop
  | .before key data (some v) => ∃ m ∈ b.measurers, m.key = key ∧ m.beforeFn h data = .ok v
  | .before key data none => ∃ m ∈ b.measurers, ∃ e, m.key = key ∧ m.beforeFn h data = .error e
  | .after key data v (some x) => ∃ m ∈ b.measurers, m.key = key ∧ m.afterFn h data v = .ok x
  | .after key data v none => ∃ m ∈ b.measurers, ∃ e, m.key = key ∧ m.afterFn h data v = .error e
  | .call s i (some d) => ∃ f, b.fn s = some f ∧ f h i = .ok d
  | .call s i none => ∃ f e, b.fn s = some f ∧ f h i = .error e
  | .check second d true => ∃ c, (if second then b.check2 else b.check1) = some c ∧ c h d = .ok ()
  | .check second d false => ∃ c e, (if second then b.check2 else b.check1) = some c ∧ c h d = .error e
  | .line _ => True
  | .event => False

end BigO
