import Verif.Model.Alloc

/-!
# What an allocator user means by "live bytes", counts, and instants

Stated without the allocator's statistics: from the model only the list of calls (`HeapCall`, `AllocEv`) is used.
-/
namespace BigO

/-- sizes of the live blocks after a call -/
def liveAfter (live : List Nat) : HeapCall → List Nat
  | .alloc size true => size :: live
  | .alloc _ false => live
  | .dealloc size => live.erase size
  | .allocZeroed size true => size :: live
  | .allocZeroed _ false => live
  | .realloc old new true => new :: live.erase old
  | .realloc _ _ false => live

/-- the `GlobalAlloc` contract: only live blocks are freed or resized, with the size they have; sizes fit a `usize` -/
def respects (live : List Nat) : HeapCall → Prop
  | .alloc size _ => size < 2 ^ 64
  | .dealloc size => size ∈ live ∧ size < 2 ^ 64
  | .allocZeroed size _ => size < 2 ^ 64
  | .realloc old new _ => old ∈ live ∧ old < 2 ^ 64 ∧ new < 2 ^ 64

instance (live : List Nat) (c : HeapCall) : Decidable (respects live c) := by
  cases c <;> unfold respects <;> infer_instance

/-- live blocks after a history -/
def liveBlocks : List Nat → List AllocEv → List Nat
  | live, [] => live
  | live, .call c :: es => liveBlocks (liveAfter live c) es
  | live, .savePoint :: es => liveBlocks live es

/-- the whole history respects the contract -/
def Respects : List Nat → List AllocEv → Prop
  | _, [] => True
  | live, .call c :: es => respects live c ∧ Respects (liveAfter live c) es
  | live, .savePoint :: es => Respects live es

instance decRespects : (live : List Nat) → (es : List AllocEv) → Decidable (Respects live es)
  | _, [] => isTrue trivial
  | live, .call c :: es =>
    match decRespects (liveAfter live c) es with
    | h => by unfold Respects; exact instDecidableAnd
  | live, .savePoint :: es => decRespects live es

/-- the system allocator did not fail -/
def succeeds : HeapCall → Bool
  | .alloc _ ok => ok
  | .dealloc _ => true
  | .allocZeroed _ ok => ok
  | .realloc _ _ ok => ok

/-- calls of a history -/
def callsOf : List AllocEv → List HeapCall
  | [] => []
  | .call c :: es => c :: callsOf es
  | .savePoint :: es => callsOf es

/-- number of save points taken in a history -/
def savePoints : List AllocEv → Nat
  | [] => 0
  | .call _ :: es => savePoints es
  | .savePoint :: es => savePoints es + 1

/-- what a call adds to each count or byte total -/
def contribution (k : Ctr) : HeapCall → Nat
  | .alloc size _ => if k = .allocationsCount then 1 else if k = .allocatedBytes then size else 0
  | .dealloc size => if k = .deallocationsCount then 1 else if k = .deallocatedBytes then size else 0
  | .allocZeroed size _ => if k = .zeroedAllocationsCount then 1 else if k = .zeroedAllocatedBytes then size else 0
  | .realloc old new _ =>
    if k = .reallocationsCount then 1 else if k = .reallocatedOriginalsBytes then old
    else if k = .reallocatedNewsBytes then new else 0

/-- total over the calls of a history: number of allocations, of allocated bytes, ... -/
def total (k : Ctr) (es : List AllocEv) : Nat := ((callsOf es).map (contribution k)).sum

/-- the used memory at every instant of a history: now, and after each event -/
def usedTrace (p : Profile) (N : Nat) (s : AllocSys) : List AllocEv → List Nat
  | [] => [s.st .currentUsedMemory]
  | e :: es => s.st .currentUsedMemory :: usedTrace p N (s.step p N e) es

/-- `m` is the minimum of `l` -/
def IsMinOf (m : Nat) (l : List Nat) : Prop := m ∈ l ∧ ∀ x ∈ l, m ≤ x
/-- `m` is the maximum of `l` -/
def IsMaxOf (m : Nat) (l : List Nat) : Prop := m ∈ l ∧ ∀ x ∈ l, x ≤ m

/-- total size of the live blocks at every instant of a history: now, and after each event -/
def liveTrace : List Nat → List AllocEv → List Nat
  | live, [] => [live.sum]
  | live, .call c :: es => live.sum :: liveTrace (liveAfter live c) es
  | live, .savePoint :: es => live.sum :: liveTrace live es

/-- bytes of a request the system allocator refused (a refused resize refuses the difference) -/
def refused : HeapCall → Int
  | .alloc size false => size
  | .allocZeroed size false => size
  | .realloc old new false => (new : Int) - old
  | _ => 0

/-- bytes refused over a history -/
def refusedBytes (es : List AllocEv) : Int := ((callsOf es).map refused).sum

/-- `pre`; `let sp = allocator.save_point()`; `post`; `allocator.delta_statistics(&sp)` -/
def deltaAfter (p : Profile) (N : Nat) (pre post : List AllocEv) : Outcome (Except OverflowError Stats) :=
  match (AllocSys.new.run p N pre).savePoint p N with
  | (s1, .ok sp) => (s1.run p N post).delta p N sp
  | (_, .panic e) => .panic e
  | (_, .diverges) => .diverges

/-- no count or byte total of the process reaches 2^64 (only those since the save point matter in a release build) -/
def TotalsFit (p : Profile) (pre post : List AllocEv) : Prop :=
  ∀ k ∈ deltaCtrs, total k post < 2 ^ 64 ∧ (p = .wrapping ∨ total k (pre ++ post) < 2 ^ 64)

/-- `body` is what the process asks of the allocator during a pass, `pre` all it asked before: the contract is respected, the
system allocator does not refuse, live bytes and totals stay below 2^64, there are less than 2^32 save points, and at most `N` of
them during the pass -/
structure OrdinaryPass (p : Profile) (N : Nat) (pre body : List AllocEv) : Prop where
  respected : Respects [] (pre ++ body)
  granted : ∀ c ∈ callsOf (pre ++ body), succeeds c = true
  small : ∀ x ∈ liveTrace (liveBlocks [] pre) body, x < 2 ^ 64
  totals : TotalsFit p pre body
  few : savePoints pre + 1 + savePoints body < 2 ^ 32
  nested : savePoints body ≤ N

end BigO
