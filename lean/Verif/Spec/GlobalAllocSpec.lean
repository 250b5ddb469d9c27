import Verif.Model.GlobalAlloc
import Verif.Spec.Heap

/-!
# What is expected of an allocator that only observes
-/
namespace BigO

/-- the calls of a history, in order -/
def programCalls : List GEv → List GCall
  | [] => []
  | .call c :: es => c :: programCalls es
  | _ :: es => programCalls es

/-- the system allocator, asked directly: its final state, and every call with its answer -/
def direct (Y : SysAlloc) : Y.State → List GCall → Y.State × List (GCall × Nat)
  | y, [] => (y, [])
  | y, c :: cs => ((direct Y (Y.call y c).1 cs).1, (c, (Y.call y c).2) :: (direct Y (Y.call y c).1 cs).2)

/-- the live blocks, address and layout, after a call that was answered with `r` (null: it failed) -/
def heapAfter (live : List (Nat × Layout)) (c : GCall) (r : Nat) : List (Nat × Layout) :=
  match c with
  | .alloc l => if r = 0 then live else (r, l) :: live
  | .allocZeroed l => if r = 0 then live else (r, l) :: live
  | .dealloc p l => live.erase (p, l)
  | .realloc p l n => if r = 0 then live else (r, ⟨n, l.align⟩) :: live.erase (p, l)

/-- the live blocks after a history of answered calls -/
def heapOf : List (Nat × Layout) → List (GCall × Nat) → List (Nat × Layout)
  | live, [] => live
  | live, (c, r) :: cs => heapOf (heapAfter live c r) cs

/-- the `GlobalAlloc` contract: only live blocks are freed or resized, with their layout; sizes fit a `usize` -/
def lawful (live : List (Nat × Layout)) : GCall → Prop
  | .alloc l => l.size < 2 ^ 64
  | .allocZeroed l => l.size < 2 ^ 64
  | .dealloc p l => (p, l) ∈ live ∧ l.size < 2 ^ 64
  | .realloc p l n => (p, l) ∈ live ∧ l.size < 2 ^ 64 ∧ n < 2 ^ 64

/-- a history of answered calls respects the contract -/
def Lawful : List (Nat × Layout) → List (GCall × Nat) → Prop
  | _, [] => True
  | live, (c, r) :: cs => lawful live c ∧ Lawful (heapAfter live c r) cs

/-- bytes of all live blocks -/
def heapBytes (live : List (Nat × Layout)) : Nat := (live.map (fun b => b.2.size)).sum

/-- a call that was answered with a null pointer -/
def nullAnswer : GCall × Nat → Bool
  | (.dealloc _ _, _) => false
  | (_, r) => r == 0

/-- bytes of a failed request: those asked for, or the change of size -/
def failedBytes : GCall × Nat → Int
  | (.alloc l, 0) => l.size
  | (.allocZeroed l, 0) => l.size
  | (.realloc _ l n, 0) => (n : Int) - l.size
  | _ => 0

/-- what is left of an answered call without addresses and alignment -/
def sizesOnly : GCall × Nat → HeapCall
  | (.alloc l, r) => .alloc l.size (r != 0)
  | (.dealloc _ l, _) => .dealloc l.size
  | (.allocZeroed l, r) => .allocZeroed l.size (r != 0)
  | (.realloc _ l n, r) => .realloc l.size n (r != 0)

/-- a history without addresses and alignment, given the answers to its calls; requests of statistics leave no trace -/
def observed : List GEv → List Nat → List AllocEv
  | [], _ => []
  | .call c :: es, r :: rs => .call (sizesOnly (c, r)) :: observed es rs
  | .call _ :: _, [] => []
  | .savePoint :: es, rs => .savePoint :: observed es rs
  | .delta _ :: es, rs => observed es rs

end BigO
