import Verif.Model.PassPanic

/-!
# What is expected of an iterator pass whose closure may panic
-/
namespace BigO

/-- how a panic message calls the two kinds of passes: create and delete passes change the size of the set, read and update passes do
not -/
def algoTypeName : AlgoType → String
  | .setResizing => "SetResizing"
  | .constantSet => "ConstantSet"

/-- `s` is a state of a pass over `start..stop` with that many threads, after some interleaving of their steps and those of the thread
that runs the pass -/
def Running (p : Profile) (ty : AlgoType) (start stop threads : Nat) (f : List PCall → Nat → Rs Nat) (s : GPass) : Prop :=
  ∃ chunks sched, passChunks p start stop threads = .ok chunks ∧ s = (GPass.start p start chunks).run ty start stop f sched

/-- the numbers thread `t` has to give to the closure, in order: an equal part of the range, counted from its end; backwards for an
ascending range, forwards for a descending one -/
def share (start stop threads t : Nat) : List Nat :=
  if start ≤ stop then (List.range' (stop - (stop - start) / threads * (t + 1)) ((stop - start) / threads)).reverse
  else List.range' (stop + (start - stop) / threads * t) ((start - stop) / threads)

/-- the calls of a thread -/
def threadCalls (s : GPass) (t : Nat) : List PCall := s.calls.filter fun c => c.thread = t

/-- their arguments -/
def argsOf (s : GPass) (t : Nat) : List Nat := (threadCalls s t).map PCall.arg

/-- some call of the closure panicked -/
def SomePanic (s : GPass) : Prop := ∃ c ∈ s.calls, c.panicked = true

/-- the call of the pass returned `out` or panicked -/
def GPass.Ended (s : GPass) (out : Rs Nat) : Prop := s.main = .ended out

end BigO
