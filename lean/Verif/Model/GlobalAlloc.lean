import Verif.Model.Alloc

/-!
# Model of the metrics allocator between a program and the system allocator

`/repo/src/metrics_allocator/metrics_allocator.rs` 104-108 and 267-285, with the pointers and layouts that `Model/Alloc.lean` leaves out.

The system allocator is arbitrary: any state, any answer. Addresses are numbers, 0 is the null pointer.
-/
namespace BigO

/-- `std::alloc::Layout` -/
structure Layout where
  size : Nat
  align : Nat
  deriving DecidableEq, Repr

/-- calls of the trait `GlobalAlloc` -/
inductive GCall
  | alloc (layout : Layout)
  | dealloc (ptr : Nat) (layout : Layout)
  | allocZeroed (layout : Layout)
  | realloc (ptr : Nat) (layout : Layout) (newSize : Nat)
  deriving DecidableEq, Repr

/-- `std::alloc::System`: an arbitrary allocator; the number returned by `dealloc` stands for `()` -/
structure SysAlloc where
  State : Type
  call : State → GCall → State × Nat

/-- `MetricsAllocator`, metrics_allocator.rs 104-108, with the state of the system allocator it refers to -/
structure GlobalSys (Y : SysAlloc) where
  metrics : AllocSys
  sys : Y.State

section
variable {Y : SysAlloc}

/-- `GlobalAlloc for MetricsAllocator`, metrics_allocator.rs 268-285 -/
def GlobalSys.call (m : GlobalSys Y) : GCall → GlobalSys Y × Nat
  | .alloc layout =>
    let st := m.metrics.st.computeAlloc layout.size
    let r := Y.call m.sys (.alloc layout)
    (⟨{ m.metrics with st := st }, r.1⟩, r.2)
  | .dealloc ptr layout =>
    let st := m.metrics.st.computeDealloc layout.size
    let r := Y.call m.sys (.dealloc ptr layout)
    (⟨{ m.metrics with st := st }, r.1⟩, r.2)
  | .allocZeroed layout =>
    let st := m.metrics.st.computeAllocZeroed layout.size
    let r := Y.call m.sys (.allocZeroed layout)
    (⟨{ m.metrics with st := st }, r.1⟩, r.2)
  | .realloc ptr layout newSize =>
    let st := m.metrics.st.computeRealloc layout.size newSize
    let r := Y.call m.sys (.realloc ptr layout newSize)
    (⟨{ m.metrics with st := st }, r.1⟩, r.2)

/-- what a program may do: call the global allocator, take a save point, request the statistics since a save point -/
inductive GEv
  | call (c : GCall)
  | savePoint
  | delta (sp : SavePoint)

/-- one step; `save_point` (142-169) and `delta_statistics` (173-200) make no call to the system allocator, and `delta_statistics`
changes nothing.  (Simplification: when `peek_all` reports an overflow, `format!` allocates the text of the error, ring_buffer.rs 169, as any
other code of the program does: a `call` of its own after the `delta` here.) -/
def GlobalSys.step (p : Profile) (N : Nat) (m : GlobalSys Y) : GEv → GlobalSys Y × List (GCall × Nat)
  | .call c => ((m.call c).1, [(c, (m.call c).2)])
  | .savePoint => (⟨(m.metrics.savePoint p N).1, m.sys⟩, [])
  | .delta _ => (m, [])

/-- a history of steps, with the calls and the addresses the program got -/
def GlobalSys.run (p : Profile) (N : Nat) : GlobalSys Y → List GEv → GlobalSys Y × List (GCall × Nat)
  | m, [] => (m, [])
  | m, e :: es =>
    let r := m.step p N e
    let r' := GlobalSys.run p N r.1 es
    (r'.1, r.2 ++ r'.2)

end
end BigO
