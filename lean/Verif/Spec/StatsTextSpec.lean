import Verif.Model.Alloc

/-!
# What the text of allocator statistics should say
-/
namespace BigO

/-- the name of each figure, in the order of the text -/
def figures : List (String × Ctr) :=
  [("allocations", .allocationsCount), ("deallocations", .deallocationsCount), ("zeroed_allocations", .zeroedAllocationsCount),
   ("reallocations", .reallocationsCount), ("allocated", .allocatedBytes), ("deallocated", .deallocatedBytes), ("zeroed", .zeroedAllocatedBytes),
   ("originals", .reallocatedOriginalsBytes), ("news", .reallocatedNewsBytes), ("current_used_memory", .currentUsedMemory),
   ("min_used_memory", .minUsedMemory), ("max_used_memory", .maxUsedMemory)]

/-- `Labelled l text`: the text consists of the named numbers of `l`, in order, each as `name: number`, separated by punctuation -/
inductive Labelled : List (String × Nat) → String → Prop
  | nil (post : String) (h : ∀ c ∈ post.toList, c ∈ ['{', '}', ',', ' ']) : Labelled [] post
  | cons (pre : String) (name : String) (n : Nat) (l : List (String × Nat)) (rest : String)
      /- punctuation, possibly with the name of a group -/
      (h : pre ∈ ["{counts: {", ", ", "}, bytes: {", ", reallocated: {", "}}, "]) (hr : Labelled l rest) :
      Labelled ((name, n) :: l) (pre ++ name ++ ": " ++ toString n ++ rest)

end BigO
