import Verif.Model.AllocRing

/-!
# Model of the metrics allocator with the memory orderings written in the code, in the ring buffer too

`/repo/src/metrics_allocator/metrics_allocator.rs` 142-285 and `/repo/src/metrics_allocator/ring_buffer.rs` 48-185.  As
`Verif.Model.AllocRing`, but the counters and slots of the ring buffer are not a store of single values either: each keeps its
modification order, and each thread what it has seen of it.

* A load returns any value not older than what the thread has seen; read-modify-writes act on the newest value.
* None of the functions called here makes an `Acquire` access (only `dequeue` does, and the allocator never dequeues): `enqueue`
  publishes with `Release` (70), but `consumer` (50) and `peek_all` (162, 163) load with `Relaxed`.  So threads learn of each other's
  slots only by starting, joining or otherwise synchronising with each other (`AAct.sync`), or by being handed a save point
  (`AAct.delta`).
* Slots are ordinary memory.  Two accesses to the same slot, one of them a write, by threads that are not synchronised are a data race,
  undefined behaviour in Rust: `raced` records it, and the execution goes on, a read returning any value the thread has not seen
  replaced.

Simplifications: no load buffering (a load never returns a value written later); a slot is stored in one step and each of its two fields
is loaded in one step.  `begun`, `reads`, `raced` are ghosts.
-/
namespace BigO

/-- the memory locations of the ring buffer: `reserved_tail`, `published_tail`, the slots (ring_buffer.rs 22-26); and, as a ghost, the
reads thread `u` made of a slot -/
inductive RLoc
  | reserved
  | published
  | slot (j : Nat)
  | reads (j u : Nat)
  deriving DecidableEq, Repr

/-- how old a value of each location may still be read -/
abbrev RView := RLoc → Nat

/-- a slot: its modification order; initially uninitialised memory (ring_buffer.rs 43) -/
structure SlotLoc where
  top : Nat
  val : Nat → Option Slot

/-- the newest value -/
def SlotLoc.last (l : SlotLoc) : Option Slot := l.val l.top

/-- a write -/
def SlotLoc.push (l : SlotLoc) (x : Slot) : SlotLoc := ⟨l.top + 1, fun i => if i = l.top + 1 then some x else l.val i⟩

/-- the statistics and threads (`core`, whose `slots` are not used), the ring buffer, where each thread is in it and what it has seen of it,
and what the thread that made each save point had seen (`handed`, as `CSave.view` for the statistics) -/
structure AWeak where
  core : AConc
  reserved : Loc
  published : Loc
  slot : Nat → SlotLoc
  reads : Nat → Nat → Nat
  rpc : Nat → FPc
  rview : Nat → RView
  handed : List RView
  begun : Nat
  raced : Prop

/-- all threads outside the allocator, the statistics being `s`, the ring buffer new (metrics_allocator.rs 120-139) -/
def AWeak.init (p : Profile) (N : Nat) (s : Stats) : AWeak :=
  { core := AConc.init p N s, reserved := ⟨0, fun _ => 0⟩, published := ⟨0, fun _ => 0⟩, slot := fun _ => ⟨0, fun _ => none⟩,
    reads := fun _ _ => 0, rpc := fun _ => .out, rview := fun _ _ => 0, handed := [], begun := 0, raced := False }

/-- the newest position of each location -/
def AWeak.top (s : AWeak) : RLoc → Nat
  | .reserved => s.reserved.top
  | .published => s.published.top
  | .slot j => (s.slot j).top
  | .reads j u => s.reads j u

/-- thread `t` goes to `x` -/
def AWeak.setRpc (s : AWeak) (t : Nat) (x : FPc) : AWeak := { s with rpc := fun u => if u = t then x else s.rpc u }

/-- thread `t` has seen position `i` of `l` -/
def AWeak.see (s : AWeak) (t : Nat) (l : RLoc) (i : Nat) : AWeak :=
  { s with rview := fun u => if u = t then fun l' => if l' = l then i else s.rview t l' else s.rview u }

/-- thread `t` has seen all of `v` -/
def AWeak.learn (s : AWeak) (t : Nat) (v : RView) : AWeak :=
  { s with rview := fun u => if u = t then fun l => Nat.max (s.rview t l) (v l) else s.rview u }

/-- thread `t` may read position `i` of `l` -/
def AWeak.readable (s : AWeak) (t : Nat) (l : RLoc) (i : Nat) : Bool := decide (s.rview t l ≤ i) && decide (i ≤ s.top l)

/-- ring_buffer.rs 59: thread `t` adds one to `reserved_tail` -/
def AWeak.reserve (s : AWeak) (t : Nat) : AWeak :=
  { s with reserved := s.reserved.push ((s.reserved.last + 1) % 2 ^ 32), begun := s.begun + 1 }.see t .reserved (s.reserved.top + 1)

/-- ring_buffer.rs 66: thread `t` stores `x` in slot `j`; a race if it is not ordered after the last store of that slot and all reads of it -/
def AWeak.store (s : AWeak) (t j : Nat) (x : Slot) : AWeak :=
  { s with
    slot := fun k => if k = j then (s.slot j).push x else s.slot k
    raced := s.raced ∨ s.rview t (.slot j) < (s.slot j).top ∨ ∃ u, s.rview t (.reads j u) < s.reads j u }.see t (.slot j)
      ((s.slot j).top + 1)

/-- ring_buffer.rs 70: thread `t` sets `published_tail` to `v` -/
def AWeak.publish (s : AWeak) (t v : Nat) : AWeak :=
  { s with published := s.published.push v }.see t .published (s.published.top + 1)

/-- metrics_allocator.rs 179, 180: thread `t` reads a field of slot `j` at position `i`; a race if the last store of that slot does not happen
before -/
def AWeak.fetch (s : AWeak) (t j i : Nat) : AWeak :=
  ({ s with
    reads := fun k u => if k = j ∧ u = t then s.reads j t + 1 else s.reads k u
    raced := s.raced ∨ s.rview t (.slot j) < (s.slot j).top }.see t (.slot j) i).see t (.reads j t) (s.reads j t + 1)

/-- the next step of thread `t`, which is at `x` of a ring operation: a load reads position `i`; `ok` as in `AConc.step` -/
def AWeak.ringStep (s : AWeak) (t i : Nat) (ok : Bool) : FPc → Option AWeak
  | .out => none
  | .panicked _ => none
  -- ring_buffer.rs 66
  | .reserved x r =>
    if s.core.size = 0 then some (s.setRpc t (.panicked .remByZero))
    else some ((s.store t (r % s.core.size) x).setRpc t (.written x r))
  -- ring_buffer.rs 69-76: `Release` on success, `Relaxed` on failure
  | .written x r =>
    match u32Add s.core.profile r 1 with
    | .error e => some (s.setRpc t (.panicked e))
    | .ok next =>
      if ok then
        if s.published.last = r then some ({ s.publish t next with core := s.core.goto t .spConsumer }.setRpc t .out)
        else none
      else if s.readable t .published i then
        if s.published.val i > r then some ((s.see t .published i).setRpc t (.panicked (.msg ringBugMsg)))
        else some ((s.see t .published i).setRpc t (.written x r))
      else none
  -- ring_buffer.rs 163-184: `Relaxed`
  | .peekHead k h =>
    if s.readable t .published i then
      match peekIndices s.core.profile s.core.size h (s.published.val i) with
      | .panic e => some ((s.see t .published i).setRpc t (.panicked e))
      | .diverges => none
      | .ok (.error _) => some ({ s.see t .published i with core := s.core.result t k .overflow }.setRpc t .out)
      | .ok (.ok js) => some ((s.see t .published i).setRpc t (.reading k usizeMax 0 (fieldLoads js)))
    else none
  -- metrics_allocator.rs 177-182
  | .reading k mn mx [] => some ({ s with core := s.core.goto t (.dMin k mn mx) }.setRpc t .out)
  | .reading k mn mx ((j, fd) :: rest) =>
    if s.readable t (.slot j) i then
      match (s.slot j).val i with
      | none => some ((s.fetch t j i).setRpc t (.panicked (.msg "undefined behaviour: uninitialised slot")))
      | some x => some ((s.fetch t j i).setRpc t (.reading k (loadField x fd (mn, mx)).1 (loadField x fd (mn, mx)).2 rest))
    else none

/-- a step of thread `t`, which is outside the ring operations: it enters one, or goes on as in `AConc.step` -/
def AWeak.outStep (s : AWeak) (t i : Nat) (ok : Bool) : APc → Option AWeak
  -- metrics_allocator.rs 145-148, ring_buffer.rs 59: `Relaxed`
  | .spEnqueue mn mx => some ((s.reserve t).setRpc t (.reserved ⟨mn, mx⟩ s.reserved.last))
  -- metrics_allocator.rs 149, ring_buffer.rs 48-53: `Relaxed`
  | .spConsumer =>
    if s.readable t .published i then some { s.see t .published i with core := s.core.goto t (.spCur1 (s.published.val i)) } else none
  -- metrics_allocator.rs 177, ring_buffer.rs 162: nobody dequeues, so the head of the save point's consumer has only its first value
  | .dPeek k => (s.core.saved[k]?).map fun sp => s.setRpc t (.peekHead k sp.head)
  -- metrics_allocator.rs 152-168: the save point is made
  | .spLoad _ [] _ => (s.core.step t i ok).map fun c => { s with core := c, handed := s.handed ++ [s.rview t] }
  | _ => (s.core.step t i ok).map fun c => { s with core := c }

/-- one step of thread `t` -/
def AWeak.step (s : AWeak) (t i : Nat) (ok : Bool) : Option AWeak :=
  match s.rpc t with
  | .out => s.outStep t i ok (s.core.th t).pc
  | x => s.ringStep t i ok x

/-- one action: calls are entered as in `AConc.act`; threads that synchronise share what they have seen of the ring buffer too -/
def AWeak.act (s : AWeak) : AAct → Option AWeak
  | .step t i ok => s.step t i ok
  | .sync t u => (s.core.act (.sync t u)).map fun c => { s.learn t (s.rview u) with core := c }
  | .delta t k => (s.core.act (.delta t k)).map fun c => { s.learn t ((s.handed[k]?).getD fun _ => 0) with core := c }
  | a => (s.core.act a).map fun c => { s with core := c }

/-- a schedule -/
def AWeak.sched (s : AWeak) : List AAct → Option AWeak
  | [] => some s
  | a :: as => match s.act a with | some s' => s'.sched as | none => none

end BigO
