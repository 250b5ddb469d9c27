import Verif.Model.Ring

/-!
# References into the ring buffer, and what overwriting a slot drops

`/repo/src/metrics_allocator/ring_buffer.rs` 56-185.  `dequeue` and `peek_all` do not copy: they return references to slots, which a
program may keep and look at later, after any number of other calls.  The assignment of line 66 drops the previous contents of the
slot (Rust drops the old value of an assigned place); the array being inside a `MaybeUninit`, dropping the buffer drops no element.

Simplifications: a look at a reference reads the whole slot in one step; sequential calls as in `Model/Ring`.
-/
namespace BigO

variable {α : Type}

/-- `&Slot` or `[&[Slot]; 2]`: the indexes of the slots pointed to, in the order of the reference(s) -/
structure SlotRef where
  slots : List Nat
  deriving DecidableEq, Repr

/-- reading through a reference: the contents of the slots now -/
def Ring.look (r : Ring α) (x : SlotRef) : List (Option α) := x.slots.map r.slot

/-- `&array[head as usize % RING_BUFFER_SIZE]`, ring_buffer.rs 133 -/
def dequeueRef (N head : Nat) : SlotRef := ⟨[head % N]⟩

/-- the slices of `peek_all`, ring_buffer.rs 164-184 -/
def peekRef (N published head : Nat) : SlotRef :=
  let headIndex := head % N
  let publishedTailIndex := published % N
  if head = published then ⟨[]⟩
  else if headIndex < publishedTailIndex then ⟨List.range' headIndex (publishedTailIndex - headIndex)⟩
  else ⟨List.range' headIndex (N - headIndex) ++ List.range' 0 publishedTailIndex⟩

/-- the reference returned by a call, if it returns one -/
def RingSys.refOf (p : Profile) (N : Nat) (s : RingSys α) : RingOp α → Option SlotRef
  | .dequeue c =>
    match s.heads[c]?, (s.step p N (.dequeue c)).2 with
    | some head, .dequeued (some _) => some (dequeueRef N head)
    | _, _ => none
  | .peekAll c =>
    match s.heads[c]?, (s.step p N (.peekAll c)).2 with
    | some head, .peeked _ _ => some (peekRef N s.ring.published head)
    | _, _ => none
  | _ => none

/-- what a call drops: the previous contents of the slot assigned by `enqueue`, ring_buffer.rs 66; `none` is uninitialised memory.
With `RING_BUFFER_SIZE = 0` the index panics before. -/
def RingSys.dropsOf (N : Nat) (s : RingSys α) : RingOp α → List (Option α)
  | .enqueue _ => if N = 0 then [] else [s.ring.slot (s.ring.reserved % N)]
  | _ => []

/-- what a history of calls drops, in order -/
def RingSys.dropsIn (p : Profile) (N : Nat) (s : RingSys α) : List (RingOp α) → List (Option α)
  | [] => []
  | op :: ops => s.dropsOf N op ++ RingSys.dropsIn p N (s.step p N op).1 ops

/-- dropping the `RingBuffer` itself: `MaybeUninit<[Slot; SIZE]>` (ring_buffer.rs 26) drops none of its contents -/
def Ring.dropsAtEnd (_r : Ring α) : List (Option α) := []

/-- everything a program drops that makes these calls and then drops the buffer -/
def RingSys.dropsOverall (p : Profile) (N : Nat) (s : RingSys α) (ops : List (RingOp α)) : List (Option α) :=
  s.dropsIn p N ops ++ (s.run p N ops).1.ring.dropsAtEnd

end BigO
