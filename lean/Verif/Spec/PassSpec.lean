import Verif.Model.Pass

/-!
# What is expected of an iterator pass
-/
namespace BigO

/-- the numbers a pass over `start..stop` is about, whichever way round it is given -/
def passRange (start stop : Nat) : List Nat := List.range' (min start stop) (max start stop - min start stop)

/-- the numbers thread `t` gave to the closure, in order -/
def callsBy (s : PassRun) (t : Nat) : List Nat := (s.calls.filter (fun c => c.1 = t)).map Prod.snd

/-- all numbers given to the closure, in order -/
def allCalls (s : PassRun) : List Nat := s.calls.map Prod.snd

/-- `s` is the end of a pass over `start..stop` with that many threads: the ranges were computed, and the threads ran to
their ends, in some interleaving, whatever the closure returned -/
def Passed (p : Profile) (start stop threads : Nat) (f : List (Nat × Nat) → Nat → Nat) (s : PassRun) : Prop :=
  ∃ chunks sched, passChunks p start stop threads = .ok chunks ∧ s = (PassRun.start chunks).run f sched ∧ s.Done

/-- exclusive or of a list -/
def xorAll : List Nat → Nat
  | [] => 0
  | x :: l => x ^^^ xorAll l

end BigO
