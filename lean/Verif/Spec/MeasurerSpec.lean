import Verif.Model.Measurer

/-!
# What is expected of custom measurers
-/
namespace BigO
variable {D B : Type}

/-- one measured event: all pre-event steps, the event, all post-event steps -/
def measuredRound (pre post : Option D) (ms : List (Measurer D B)) :
    P (MEv D B) (List CustomMeasurement × List (Measurer D B)) := do
  let ms' ← measureAllBefore pre ms
  P.log .event
  measureAllAfter post ms'

/-- any number of measured events with the same measurers -/
def measuredRounds : List (Option D × Option D) → List (Measurer D B) → P (MEv D B) (List (List CustomMeasurement))
  | [], _ => pure []
  | (pre, post) :: l, ms => do
    let x ← measuredRound pre post ms
    let xs ← measuredRounds l x.2
    return x.1 :: xs

/-- what one measurer did in a round: the value of its pre-event step and the measurement -/
structure Taken (B : Type) where
  value : B
  measured : Presented

/-- the calls of a properly nested round: pre-event steps from the last declared measurer to the first, the event, post-event
steps from the first to the last; each post-event step is given the value of the pre-event step of the same measurer -/
def nestedCalls (pre post : Option D) (ms : List (Measurer D B)) (os : List (Taken B)) : List (MEv D B) :=
  ((ms.zip os).map (fun p => MEv.before p.1.key pre (some p.2.value))).reverse ++ [.event] ++
    (ms.zip os).map (fun p => MEv.after p.1.key post p.2.value (some p.2.measured))

/-- the results: in the order of declaration, with names, expected complexities and descriptions -/
def namedResults (ms : List (Measurer D B)) (os : List (Taken B)) : List CustomMeasurement :=
  (ms.zip os).map (fun p => ⟨p.1.name, p.1.expected, p.1.description, p.2.measured⟩)

/-- closures that do not panic -/
def Measurer.Calm (m : Measurer D B) : Prop :=
  (∀ h d, ∃ b, m.beforeFn h d = .ok b) ∧ (∀ h d b, ∃ x, m.afterFn h d b = .ok x)

end BigO
