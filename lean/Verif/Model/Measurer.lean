import Verif.Model.Retry
import Verif.Model.Presentable
import Verif.Model.Complexity

/-!
# Model of custom measurers

`/repo/src/utils/measurements/measurer.rs` 11-151.

Simplifications: all measurers return pre-event values of one type `B` (in Rust each has its own type, erased by
`dyn CustomMeasurerExecutor`); awaiting a future is a call; `key` is a label of the measurer that only appears in the
recorded events.  The closures are arbitrary functions of everything that happened before, and may panic.
-/
namespace BigO

/-- the closures of a test that produce data (regular_async_builder.rs 29-41) -/
inductive AStep
  | reset | warmup | pass1 | pass2
  deriving DecidableEq, Repr

/-- calls of the closures, with what they received and returned (nothing if they panicked), and the measured event; and, in the
dry runs of `Model/DryRun.lean`, the calls of the test's closures and the printed measurements -/
inductive MEv (D B : Type)
  | before (key : Nat) (data : Option D) (res : Option B)
  | after (key : Nat) (data : Option D) (given : B) (res : Option Presented)
  | event
  | call (s : AStep) (input : Option D) (res : Option D)
  | check (second : Bool) (data : D) (passed : Bool)
  | line (text : String)

/-- `CustomMeasurer`, measurer.rs 64-78 -/
structure Measurer (D B : Type) where
  key : Nat
  name : String
  expected : Complexity
  description : String
  beforeFn : List (MEv D B) → Option D → Rs B
  /-- `before_event_measurement` -/
  pending : Option B
  afterFn : List (MEv D B) → Option D → B → Rs Presented

/-- `CustomMeasurement`, measurer.rs 50-56 -/
structure CustomMeasurement where
  name : String
  expected : Complexity
  description : String
  measured : Presented

section
variable {D B : Type}

/-- `CustomMeasurer::new`, measurer.rs 91-108 -/
def Measurer.new (key : Nat) (name : String) (expected : Complexity) (description : String)
    (beforeFn : List (MEv D B) → Option D → Rs B) (afterFn : List (MEv D B) → Option D → B → Rs Presented) : Measurer D B :=
  ⟨key, name, expected, description, beforeFn, none, afterFn⟩

/-- `measure_before_event`, measurer.rs 122-129 -/
def Measurer.before (data : Option D) (m : Measurer D B) : P (MEv D B) (Measurer D B) := fun t =>
  match m.beforeFn t data with
  | .error e => (.error e, t ++ [.before m.key data none])
  | .ok b => (.ok { m with pending := some b }, t ++ [.before m.key data (some b)])

/-- `measure_after_event`, measurer.rs 131-141 -/
def Measurer.after (data : Option D) (m : Measurer D B) : P (MEv D B) (Presented × Measurer D B) := fun t =>
  match m.pending with
  | none => (.error (.msg "BUG! Please, fix: \"after event measurer\" was called but no \"before event measurer\" took place"), t)
  | some b =>
    match m.afterFn t data b with
    | .error e => (.error e, t ++ [.after m.key data b none])
    | .ok x => (.ok (x, { m with pending := none }), t ++ [.after m.key data b (some x)])

/-- `as_custom_measurement`, measurer.rs 143-151 -/
def Measurer.asCustom (m : Measurer D B) (x : Presented) : CustomMeasurement := ⟨m.name, m.expected, m.description, x⟩

/-- runs over a list from the first to the last element -/
def inOrder {ε α β : Type} (f : α → P ε β) : List α → P ε (List β)
  | [] => pure []
  | a :: l => do
    let b ← f a
    let bs ← inOrder f l
    return b :: bs

/-- `measure_all_before_event`, measurer.rs 13-20: over the reversed list -/
def measureAllBefore (data : Option D) (ms : List (Measurer D B)) : P (MEv D B) (List (Measurer D B)) := do
  let l ← inOrder (Measurer.before data) ms.reverse
  return l.reverse

/-- one step of the loop of `measure_all_after_event`, measurer.rs 29-31 -/
def Measurer.afterCustom (data : Option D) (m : Measurer D B) : P (MEv D B) (CustomMeasurement × Measurer D B) := do
  let x ← m.after data
  return (m.asCustom x.1, x.2)

/-- `measure_all_after_event`, measurer.rs 24-34 (with the measurers after it) -/
def measureAllAfter (data : Option D) (ms : List (Measurer D B)) :
    P (MEv D B) (List CustomMeasurement × List (Measurer D B)) := do
  let l ← inOrder (Measurer.afterCustom data) ms
  return (l.map Prod.fst, l.map Prod.snd)

end
end BigO
