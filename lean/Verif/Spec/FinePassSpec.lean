import Verif.Spec.AllocPassSpec
import Verif.Spec.AllocRingSpec
import Verif.Spec.PassThreadsSpec

/-! # A measured pass of several threads that may switch inside the ring buffer -/
namespace BigO

/-- a pass measured by thread `t` that leads from `f1` to `f4`, as `MeasuredPass`, but threads may switch between any two atomic accesses, those
of the ring buffer included; all threads of the pass are among the first `N` -/
structure FinePass (N t : Nat) (f1 f4 : AFine) (calls : List HeapCall) : Prop where
  quiet : f1.core.Quiescent
  fresh : f1.core.UpToDate t
  few : t < N
  run : ∃ save mid req f2 f3, f1.sched (.save t :: save) = some f2 ∧ Alone t save ∧ (f2.core.th t).pc = .idle ∧
    f2.sched mid = some f3 ∧ StartedBy [t] mid ∧ (∀ a ∈ mid, a.tid < N) ∧ callsIn mid = calls ∧ f3.core.Quiescent ∧ f3.core.UpToDate t ∧
    f3.sched (.delta t f1.core.saved.length :: req) = some f4 ∧ Alone t req ∧ (f4.core.th t).pc = .idle
  room : ∀ k ∈ deltaCtrs, (f1.core.loc k).last + (calls.map (contribution k)).sum < 2 ^ 64

end BigO
