import Verif.Model.AllocConc

/-!
# Model of the metrics allocator under concurrency, with the ring buffer's own steps

`/repo/src/metrics_allocator/metrics_allocator.rs` 142-200 and `/repo/src/metrics_allocator/ring_buffer.rs` 48-185.  As
`Verif.Model.AllocConc`, but `save_point` enqueues and `delta_statistics` peeks in the steps of ring_buffer.rs: every atomic access of
the ring buffer, the store of a slot and each load of a field of a peeked slot is a step of its own, and other threads may run between
any two of them.  (In `Verif.Model.AllocConc` each of the three ring operations is one step.)

Simplifications: the accesses to the ring buffer's counters and slots are sequentially consistent here (weak memory for the ring buffer
is `Verif.Model.RingWeak` and `Verif.Model.AllocWeak`); the statistics are as in `Verif.Model.AllocConc`, stale reads included; the store of a slot is one step.
A thread that panics in a ring operation stops.
-/
namespace BigO

/-- the fields of `SavePointRingBufferSlot`, metrics_allocator.rs 79-84 -/
inductive SlotField
  | min
  | max
  deriving DecidableEq, Repr

/-- where a thread is inside a ring operation -/
inductive FPc
  /-- in none -/
  | out
  /-- `enqueue`: position `r` reserved (ring_buffer.rs 59), the element not yet stored -/
  | reserved (x : Slot) (r : Nat)
  /-- `enqueue`: the element stored (66), before a compare-exchange (70) -/
  | written (x : Slot) (r : Nat)
  /-- `peek_all` for save point `k`: `head` loaded (162), before loading `published_tail` (163) -/
  | peekHead (k h : Nat)
  /-- in the loop over the peeked slots (metrics_allocator.rs 177-182): the extremes so far, and the fields of slots still to load -/
  | reading (k mn mx : Nat) (rest : List (Nat × SlotField))
  /-- panicked -/
  | panicked (e : Panic)
  deriving DecidableEq

/-- the statistics and threads (`core`, whose `slots` are not used), the ring buffer, and where each thread is in it; `begun` is a ghost:
the number of slots reserved so far -/
structure AFine where
  core : AConc
  ring : Ring Slot
  rpc : Nat → FPc
  begun : Nat

/-- all threads outside the allocator, the statistics being `s`, the ring buffer new (metrics_allocator.rs 120-139) -/
def AFine.init (p : Profile) (N : Nat) (s : Stats) : AFine :=
  { core := AConc.init p N s, ring := Ring.new Slot, rpc := fun _ => .out, begun := 0 }

/-- thread `t` goes to `x` -/
def AFine.setRpc (s : AFine) (t : Nat) (x : FPc) : AFine := { s with rpc := fun u => if u = t then x else s.rpc u }

/-- which slots `peek_all` hands out, in order, given `head` and `published_tail`: ring_buffer.rs 164-184 -/
def peekIndices (p : Profile) (N head published : Nat) : Outcome (Except OverflowError (List Nat)) :=
  if N = 0 then .panic .remByZero
  else
    let headIndex := head % N
    let publishedTailIndex := published % N
    if head = published then .ok (.ok [])
    else
      match u32Sub p published head with
      | .error e => .panic e
      | .ok d =>
        if d > N % 2 ^ 32 then .ok (.error (overflowError N published head))
        else if headIndex < publishedTailIndex then .ok (.ok (List.range' headIndex (publishedTailIndex - headIndex)))
        else .ok (.ok (List.range' headIndex (N - headIndex) ++ List.range' 0 publishedTailIndex))

/-- the loads of the loop over the peeked slots, metrics_allocator.rs 177-182: of each slot the minimum, then the maximum -/
def fieldLoads (indices : List Nat) : List (Nat × SlotField) := indices.flatMap fun j => [(j, .min), (j, .max)]

/-- the extremes after loading a field of a slot, metrics_allocator.rs 179-180 -/
def loadField (x : Slot) : SlotField → Nat × Nat → Nat × Nat
  | .min, acc => (Nat.min acc.1 x.min, acc.2)
  | .max, acc => (acc.1, Nat.max acc.2 x.max)

/-- the next step of thread `t`, which is at `x` of a ring operation: `ok` as in `AConc.step` -/
def AFine.ringStep (s : AFine) (t : Nat) (ok : Bool) : FPc → Option AFine
  | .out => none
  | .panicked _ => none
  -- ring_buffer.rs 66
  | .reserved x r =>
    if s.core.size = 0 then some (s.setRpc t (.panicked .remByZero))
    else some ({ s with ring := s.ring.write (r % s.core.size) x }.setRpc t (.written x r))
  -- ring_buffer.rs 69-76
  | .written x r =>
    match u32Add s.core.profile r 1 with
    | .error e => some (s.setRpc t (.panicked e))
    | .ok next =>
      if ok then
        if s.ring.published = r then
          some ({ s with ring := { s.ring with published := next }, core := s.core.goto t .spConsumer }.setRpc t .out)
        else none
      else if s.ring.published > r then some (s.setRpc t (.panicked (.msg ringBugMsg)))
      else some (s.setRpc t (.written x r))
  -- ring_buffer.rs 163-184
  | .peekHead k h =>
    match peekIndices s.core.profile s.core.size h s.ring.published with
    | .panic e => some (s.setRpc t (.panicked e))
    | .diverges => none
    | .ok (.error _) => some ({ s with core := s.core.result t k .overflow }.setRpc t .out)
    | .ok (.ok js) => some (s.setRpc t (.reading k usizeMax 0 (fieldLoads js)))
  -- metrics_allocator.rs 177-182
  | .reading k mn mx [] => some ({ s with core := s.core.goto t (.dMin k mn mx) }.setRpc t .out)
  | .reading k mn mx ((j, fd) :: rest) =>
    match s.ring.slot j with
    | none => some (s.setRpc t (.panicked (.msg "undefined behaviour: uninitialised slot")))
    | some x => some (s.setRpc t (.reading k (loadField x fd (mn, mx)).1 (loadField x fd (mn, mx)).2 rest))

/-- a step of thread `t`, which is outside the ring operations: it enters one, or goes on as in `AConc.step` -/
def AFine.outStep (s : AFine) (t i : Nat) (ok : Bool) : APc → Option AFine
  -- metrics_allocator.rs 145-148, ring_buffer.rs 59
  | .spEnqueue mn mx =>
    some ({ s with ring := { s.ring with reserved := (s.ring.reserved + 1) % 2 ^ 32 }, begun := s.begun + 1 }.setRpc t
      (.reserved ⟨mn, mx⟩ s.ring.reserved))
  -- metrics_allocator.rs 149, ring_buffer.rs 48-53
  | .spConsumer => some { s with core := s.core.goto t (.spCur1 s.ring.published) }
  -- metrics_allocator.rs 177, ring_buffer.rs 162 (nobody dequeues: the head of the save point's consumer stays as it was made)
  | .dPeek k => (s.core.saved[k]?).map fun sp => s.setRpc t (.peekHead k sp.head)
  | _ => (s.core.step t i ok).map fun c => { s with core := c }

/-- one step of thread `t` -/
def AFine.step (s : AFine) (t i : Nat) (ok : Bool) : Option AFine :=
  match s.rpc t with
  | .out => s.outStep t i ok (s.core.th t).pc
  | x => s.ringStep t ok x

/-- one action: calls are entered as in `AConc.act` -/
def AFine.act (s : AFine) : AAct → Option AFine
  | .step t i ok => s.step t i ok
  | a => (s.core.act a).map fun c => { s with core := c }

/-- a schedule -/
def AFine.sched (s : AFine) : List AAct → Option AFine
  | [] => some s
  | a :: as => match s.act a with | some s' => s'.sched as | none => none

end BigO
