import Verif.Model.Ring

/-!
# Model of the metrics allocator, one call at a time

`/repo/src/metrics_allocator/metrics_allocator.rs` 10-285.  The interleaved version is in `Verif.Model.AllocConc`.

Simplifications: pointers and alignment play no role in the statistics and are left out; the outcome of the system
allocator is an input (`ok`).
-/
namespace BigO

/-- the fields of `MetricsAllocatorStatistics`, metrics_allocator.rs 10-23, in declaration order -/
inductive Ctr
  | allocationsCount
  | deallocationsCount
  | zeroedAllocationsCount
  | reallocationsCount
  | allocatedBytes
  | deallocatedBytes
  | zeroedAllocatedBytes
  | reallocatedOriginalsBytes
  | reallocatedNewsBytes
  | currentUsedMemory
  | minUsedMemory
  | maxUsedMemory
  deriving DecidableEq, Repr

/-- `MetricsAllocatorStatistics`, metrics_allocator.rs 10-23 -/
abbrev Stats := Ctr → Nat

/-- set one field -/
def Stats.set (s : Stats) (c : Ctr) (v : Nat) : Stats := fun c' => if c' = c then v else s c'

/-- `fetch_add`: wraps in every build profile -/
def Stats.fetchAdd (s : Stats) (c : Ctr) (n : Nat) : Stats := s.set c ((s c + n) % usizeMod)

/-- `fetch_sub`: wraps in every build profile -/
def Stats.fetchSub (s : Stats) (c : Ctr) (n : Nat) : Stats := s.set c ((s c + (usizeMod - n)) % usizeMod)

/-- `SavePointRingBufferSlot<usize>`, metrics_allocator.rs 79-84 -/
structure Slot where
  min : Nat
  max : Nat
  deriving DecidableEq, Repr

/-- `MetricsAllocator`, metrics_allocator.rs 104-108 -/
structure AllocSys where
  st : Stats
  ring : Ring Slot

/-- `MetricsAllocator::new`, metrics_allocator.rs 120-139 -/
def AllocSys.new : AllocSys := { st := fun _ => 0, ring := Ring.new Slot }

/-- `compute_min_and_max_used_memories`, metrics_allocator.rs 240-264, run alone (each compare-exchange then succeeds at the
latest on its second try, spurious failures being finite) -/
def Stats.computeMinMax (s : Stats) : Stats :=
  let cur := s .currentUsedMemory
  let s1 := if cur < s .minUsedMemory then s.set .minUsedMemory cur else s
  if cur > s1 .maxUsedMemory then s1.set .maxUsedMemory cur else s1

/-- `compute_alloc_metrics`, metrics_allocator.rs 203-208 -/
def Stats.computeAlloc (s : Stats) (size : Nat) : Stats :=
  (((s.fetchAdd .allocationsCount 1).fetchAdd .allocatedBytes size).fetchAdd .currentUsedMemory size).computeMinMax

/-- `compute_dealloc_metrics`, metrics_allocator.rs 211-216 -/
def Stats.computeDealloc (s : Stats) (size : Nat) : Stats :=
  (((s.fetchAdd .deallocationsCount 1).fetchAdd .deallocatedBytes size).fetchSub .currentUsedMemory size).computeMinMax

/-- `compute_alloc_zeroed_metrics`, metrics_allocator.rs 219-224 -/
def Stats.computeAllocZeroed (s : Stats) (size : Nat) : Stats :=
  (((s.fetchAdd .zeroedAllocationsCount 1).fetchAdd .zeroedAllocatedBytes size).fetchAdd
    .currentUsedMemory size).computeMinMax

/-- `compute_realloc_metrics`, metrics_allocator.rs 227-237 -/
def Stats.computeRealloc (s : Stats) (old new : Nat) : Stats :=
  let s1 := ((s.fetchAdd .reallocationsCount 1).fetchAdd .reallocatedOriginalsBytes old).fetchAdd
    .reallocatedNewsBytes new
  let s2 := if new > old then s1.fetchAdd .currentUsedMemory (new - old)
    else if new < old then s1.fetchSub .currentUsedMemory (old - new)
    else s1
  s2.computeMinMax

/-- a call of the program to the global allocator; `ok = false`: the system allocator returned null -/
inductive HeapCall
  | alloc (size : Nat) (ok : Bool)
  | dealloc (size : Nat)
  | allocZeroed (size : Nat) (ok : Bool)
  | realloc (old new : Nat) (ok : Bool)
  deriving DecidableEq, Repr

/-- `GlobalAlloc for MetricsAllocator`, metrics_allocator.rs 268-285: the statistics are updated before the system
allocator is called, and never corrected afterwards -/
def Stats.call (s : Stats) : HeapCall → Stats
  | .alloc size _ => s.computeAlloc size
  | .dealloc size => s.computeDealloc size
  | .allocZeroed size _ => s.computeAllocZeroed size
  | .realloc old new _ => s.computeRealloc old new

/-- `MetricsAllocatorSavePoint`, metrics_allocator.rs 68-74: the metrics and the consumer's head -/
structure SavePoint where
  metrics : Stats
  head : Nat

/-- `MetricsAllocator::save_point`, metrics_allocator.rs 142-169 -/
def AllocSys.savePoint (p : Profile) (N : Nat) (s : AllocSys) : AllocSys × Outcome SavePoint :=
  match s.ring.enqueue p N { min := s.st .minUsedMemory, max := s.st .maxUsedMemory } with
  | (r, .panic e) => ({ s with ring := r }, .panic e)
  | (r, .diverges) => ({ s with ring := r }, .diverges)
  | (r, .ok ()) =>
    let head := r.consumer
    let st1 := s.st.set .minUsedMemory (s.st .currentUsedMemory)
    let st2 := st1.set .maxUsedMemory (st1 .currentUsedMemory)
    ({ st := st2, ring := r }, .ok { metrics := st2, head := head })

/-- the loop over the peeked chunks, metrics_allocator.rs 177-182; `none` when a slot is uninitialised memory -/
def foldSlots : List (Option Slot) → Nat × Nat → Option (Nat × Nat)
  | [], acc => some acc
  | none :: _, _ => none
  | some x :: l, (mn, mx) => foldSlots l (Nat.min mn x.min, Nat.max mx x.max)

/-- the counters reported as differences, metrics_allocator.rs 187-195 -/
def deltaCtrs : List Ctr :=
  [.allocationsCount, .deallocationsCount, .zeroedAllocationsCount, .reallocationsCount, .allocatedBytes,
   .deallocatedBytes, .zeroedAllocatedBytes, .reallocatedOriginalsBytes, .reallocatedNewsBytes]

/-- the subtractions of metrics_allocator.rs 187-195, in order: the first overflowing one panics (checked builds) -/
def subCtrs (p : Profile) (now before : Stats) : List Ctr → Stats → Rs Stats
  | [], acc => .ok acc
  | c :: cs, acc =>
    match usizeSub p (now c) (before c) with
    | .error e => .error e
    | .ok d => subCtrs p now before cs (acc.set c d)

/-- `MetricsAllocator::delta_statistics`, metrics_allocator.rs 173-200 -/
def AllocSys.delta (p : Profile) (N : Nat) (s : AllocSys) (sp : SavePoint) : Outcome (Except OverflowError Stats) :=
  match s.ring.peekAll p N sp.head with
  | .panic e => .panic e
  | .diverges => .diverges
  | .ok (.error e) => .ok (.error e)
  | .ok (.ok (a, b)) =>
    match foldSlots (a ++ b) (usizeMax, 0) with
    | none => .panic (.msg "undefined behaviour: uninitialised slot")
    | some (mn, mx) =>
      let mn := Nat.min mn (s.st .minUsedMemory)
      let mx := Nat.max mx (s.st .maxUsedMemory)
      match subCtrs p s.st sp.metrics deltaCtrs s.st with
      | .error e => .panic e
      | .ok d => .ok (.ok ((d.set .minUsedMemory mn).set .maxUsedMemory mx))

/-- events in the life of the allocator -/
inductive AllocEv
  | call (c : HeapCall)
  | savePoint
  deriving DecidableEq, Repr

/-- one event -/
def AllocSys.step (p : Profile) (N : Nat) (s : AllocSys) : AllocEv → AllocSys
  | .call c => { s with st := s.st.call c }
  | .savePoint => (s.savePoint p N).1

/-- a history -/
def AllocSys.run (p : Profile) (N : Nat) (s : AllocSys) (es : List AllocEv) : AllocSys := es.foldl (AllocSys.step p N) s

end BigO
