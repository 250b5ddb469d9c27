import Verif.Spec.RingSpec

/-! # The log specification of a ring buffer whose 32-bit counters wrap around -/
namespace BigO

/-- a consumer at `cur` is before a multiple of 2^32 that the log has reached -/
def Straddles (cur len : Nat) : Prop := ∃ m, cur < m * 2 ^ 32 ∧ m * 2 ^ 32 ≤ len

/-- the call is a `dequeue` on a consumer whose pending elements straddle a multiple of 2^32 -/
def LogSys.Hangs {α : Type} (s : LogSys α) : RingOp α → Prop
  | .dequeue c => ∃ cur, s.cursors[c]? = some cur ∧ Straddles cur s.log.length
  | _ => False

open Classical in
/-- one call: it hangs (`none`) and changes nothing, or does what the log specification says -/
noncomputable def LogSys.stepWrap {α : Type} (N : Nat) (s : LogSys α) (op : RingOp α) : LogSys α × Option (LogOut α) :=
  if s.Hangs op then (s, none) else ((s.step N op).1, some (s.step N op).2)

/-- a history -/
noncomputable def LogSys.runWrap {α : Type} (N : Nat) (s : LogSys α) : List (RingOp α) → LogSys α × List (Option (LogOut α))
  | [] => (s, [])
  | op :: ops => (((s.stepWrap N op).1.runWrap N ops).1, (s.stepWrap N op).2 :: ((s.stepWrap N op).1.runWrap N ops).2)

/-- no consumer is 2^32 or more elements behind -/
def LogSys.Near {α : Type} (s : LogSys α) : Prop := ∀ cur ∈ s.cursors, s.log.length < cur + 2 ^ 32

/-- no consumer ever is -/
def StaysNear {α : Type} (N : Nat) (s : LogSys α) (ops : List (RingOp α)) : Prop := ∀ k, (s.runWrap N (ops.take k)).1.Near

end BigO
