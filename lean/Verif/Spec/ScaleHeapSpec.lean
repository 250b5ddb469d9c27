import Verif.Model.ScaleHeap

/-! # What is said of the memory behind measurements of custom units -/
namespace BigO

/-- the measurements asked for: function, unit and value -/
def askedFor : List ScaleAct → List (ScaleFn × String × F)
  | [] => []
  | .call _ f v unit _ :: l => (f, unit, v) :: askedFor l
  | _ :: l => askedFor l

/-- the calls are made one after another: each by a thread that is ready to, which after a call is the one that made it, and those that
synchronise with a thread that is ready -/
def CallsHandedOn : (Nat → Prop) → List ScaleAct → Prop
  | _, [] => True
  | ready, .call t _ _ _ _ :: l => ready t ∧ CallsHandedOn (fun u => u = t) l
  | ready, .sync t u :: l => CallsHandedOn (fun x => ready x ∨ (x = t ∧ ready u)) l
  | ready, _ :: l => CallsHandedOn ready l

/-- all calls are of units that `f` was called with before -/
def KnownUnits (m : ScaleMem) : List ScaleAct → Prop
  | [] => True
  | .call _ f _ unit _ :: l => (∃ v a, (f, unit, v, a) ∈ m.given) ∧ KnownUnits m l
  | _ :: l => KnownUnits m l

end BigO
