import Verif.Model.Alloc

/-!
# Model of the text of allocator statistics

`/repo/src/metrics_allocator/metrics_allocator.rs` 24-65. The texts of `MetricsAllocatorStatistics<AtomicUsize>` (34-51) and of `Debug` (57-65)
are this text of the values loaded one after the other; here nothing changes between these loads.
-/
namespace BigO

/-- `MetricsAllocatorStatistics::fmt`, metrics_allocator.rs 25-31 -/
def Stats.text (s : Stats) : String :=
  "{counts: {allocations: " ++ toString (s .allocationsCount) ++ ", deallocations: " ++ toString (s .deallocationsCount) ++
  ", zeroed_allocations: " ++ toString (s .zeroedAllocationsCount) ++ ", reallocations: " ++ toString (s .reallocationsCount) ++
  "}, bytes: {allocated: " ++ toString (s .allocatedBytes) ++ ", deallocated: " ++ toString (s .deallocatedBytes) ++
  ", zeroed: " ++ toString (s .zeroedAllocatedBytes) ++ ", reallocated: {originals: " ++ toString (s .reallocatedOriginalsBytes) ++
  ", news: " ++ toString (s .reallocatedNewsBytes) ++ "}}, current_used_memory: " ++ toString (s .currentUsedMemory) ++
  ", min_used_memory: " ++ toString (s .minUsedMemory) ++ ", max_used_memory: " ++ toString (s .maxUsedMemory) ++ "}"

end BigO
