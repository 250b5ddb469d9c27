import Verif.Model.RingWeak
import Verif.Spec.RingConcSpec

/-! # Observations on an execution of the ring buffer under the orderings of the code -/
namespace BigO

variable {α : Type} {T : Nat}

/-- the newest value of every location -/
def WRing.newest (s : WRing α T) : RState α T :=
  { ring := { reserved := s.reserved.last, published := s.published.last, slot := fun k => (s.slot k).last }
    heads := s.heads.map WCell.last, pc := s.pc, log := s.log, starts := s.starts, events := s.events }

/-- thread `t` has seen everything written to the ring so far -/
structure WRing.UpToDate (s : WRing α T) (t : Fin T) : Prop where
  reserved : s.reserved.top ≤ s.view t .reserved
  published : s.published.top ≤ s.view t .published
  heads : ∀ (c : Nat) l, s.heads[c]? = some l → l.top ≤ s.view t (.head c)
  slots : ∀ k, (s.slot k).top ≤ s.view t (.slot k)

/-- threads take turns: whenever another thread acts than the last one, which is `t`, it first synchronises with it -/
def TakingTurns : Fin T → List (WAct α T) → Prop
  | _, [] => True
  | t, .sync u v :: acts => (u = t ∨ v = t) ∧ TakingTurns u acts
  | t, .enqueue u _ :: acts => u = t ∧ TakingTurns t acts
  | t, .consumer u _ :: acts => u = t ∧ TakingTurns t acts
  | t, .dequeue u _ _ :: acts => u = t ∧ TakingTurns t acts
  | t, .peekAll u _ _ :: acts => u = t ∧ TakingTurns t acts
  | t, .next u _ _ _ :: acts => u = t ∧ TakingTurns t acts

end BigO
