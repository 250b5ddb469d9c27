import Verif.Spec.AllocPassSpec

/-! # A measured pass of several threads, as one relation -/
namespace BigO

/-- a pass measured by thread `t` that leads from `s1` to `s4`, its threads making the heap calls `calls`: nothing is going on and `t` has seen
everything; `t` takes a save point; `t`, the threads it starts, those they start and so on allocate and free, interleaved in any
way; all are done and joined; `t` asks for the statistics since the save point.  The counters have room for the calls. -/
structure MeasuredPass (t : Nat) (s1 s4 : AConc) (calls : List HeapCall) : Prop where
  quiet : s1.Quiescent
  fresh : s1.UpToDate t
  run : ∃ save mid req s2 s3, s1.sched (.save t :: save) = some s2 ∧ Alone t save ∧ (s2.th t).pc = .idle ∧
    s2.sched mid = some s3 ∧ StartedBy [t] mid ∧ callsIn mid = calls ∧ s3.Quiescent ∧ s3.UpToDate t ∧
    s3.sched (.delta t s1.saved.length :: req) = some s4 ∧ Alone t req ∧ (s4.th t).pc = .idle
  room : ∀ k ∈ deltaCtrs, (s1.loc k).last + (calls.map (contribution k)).sum < 2 ^ 64

/-- the memory in use, when nothing is going on -/
def AConc.used (s : AConc) : Nat := (s.loc .currentUsedMemory).last

/-- `v` bytes were in use at some time between the states `s` and `s'` of an execution -/
def UsedBetween (s s' : AConc) (v : Nat) : Prop :=
  (s'.loc .currentUsedMemory).HadSince (s.loc .currentUsedMemory).top v

end BigO
