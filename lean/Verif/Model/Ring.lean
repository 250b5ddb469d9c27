import Verif.Model.Rust

/-!
# Model of the ring buffer, one operation at a time

`/repo/src/metrics_allocator/ring_buffer.rs` 20-206.  Here every call runs to completion before the next one
starts; the interleaved version is in `Verif.Model.RingConc`.

Simplifications: slots are values (the zero-copy references handed out by `dequeue` and `peek_all` are read at
the moment the call returns); dropping the previous contents of a slot on overwrite is not modelled.
-/
namespace BigO

/-- what a call does: returns, panics, or never returns -/
inductive Outcome (α : Type)
  | ok (a : α)
  | panic (p : Panic)
  | diverges
  deriving DecidableEq, Repr

/-- `RingBuffer`, ring_buffer.rs 20-27.  `slot i` is `none` while the memory is uninitialised. -/
structure Ring (α : Type) where
  reserved : Nat
  published : Nat
  slot : Nat → Option α

/-- `RingBuffer::new`, ring_buffer.rs 39-45. -/
def Ring.new (α : Type) : Ring α := { reserved := 0, published := 0, slot := fun _ => none }

/-- `RingBuffer::get_buffer_size`, ring_buffer.rs 79-81. -/
def Ring.getBufferSize (N : Nat) {α : Type} (_r : Ring α) : Nat := N

/-- `RingBufferOverflowError`, ring_buffer.rs 190-199. -/
structure OverflowError where
  msg : String
  deriving DecidableEq, Repr

/-- the message of ring_buffer.rs 131 and 169 -/
def overflowError (N published head : Nat) : OverflowError :=
  { msg := "Ring-Buffer overflow: published_tail=" ++ toString published ++ ", head=" ++ toString head
      ++ " -- tail could not be farther from head than the ring buffer size of " ++ toString N }

/-- `Display` for `RingBufferOverflowError`, ring_buffer.rs 200-204 -/
def OverflowError.display (e : OverflowError) : String := "RingBufferOverflowError: " ++ e.msg

/-- the part of `std::io::Error` used here: its kind (by name) and the error it wraps, whose text it shows -/
structure IoError where
  kind : String
  wrapped : OverflowError

/-- `From<RingBufferOverflowError> for std::io::Error`, ring_buffer.rs 206-210 -/
def OverflowError.toIo (e : OverflowError) : IoError := { kind := "InvalidInput", wrapped := e }

/-- `Display` of an `std::io::Error` that wraps a custom error (standard library) -/
def IoError.display (e : IoError) : String := e.wrapped.display

/-- `RingBuffer::consumer`, ring_buffer.rs 48-53: the new consumer's `head`. -/
def Ring.consumer {α : Type} (r : Ring α) : Nat := r.published

/-- `buffer[i] = e` -/
def Ring.write {α : Type} (r : Ring α) (i : Nat) (e : α) : Ring α :=
  { r with slot := fun j => if j = i then some e else r.slot j }

/-- the panic message of ring_buffer.rs 73 -/
def ringBugMsg : String := "BUG: Infinite loop detected in Ring-Buffer. Please fix."

/-- `RingBuffer::enqueue`, ring_buffer.rs 56-77, run alone.  The state is also given for a call that panics
(the counter was already advanced).  Run alone, a failed compare-exchange with a smaller `published` is
retried forever. -/
def Ring.enqueue {α : Type} (p : Profile) (N : Nat) (r : Ring α) (e : α) : Ring α × Outcome Unit :=
  let res := r.reserved
  let r1 : Ring α := { r with reserved := (res + 1) % 2 ^ 32 }
  if N = 0 then (r1, .panic .remByZero)
  else
    let r2 := r1.write (res % N) e
    match u32Add p res 1 with
    | .error e => (r2, .panic e)
    | .ok next =>
      if r2.published = res then ({ r2 with published := next }, .ok ())
      else if r2.published > res then (r2, .panic (.msg ringBugMsg))
      else (r2, .diverges)

/-- `RingBufferConsumer::dequeue`, ring_buffer.rs 115-138, run alone on a consumer at `head`; gives the new
`head` and the result.  Run alone, `head > published_tail` is re-evaluated forever (119-122). -/
def Ring.dequeue {α : Type} (p : Profile) (N : Nat) (r : Ring α) (head : Nat) :
    Nat × Outcome (Except OverflowError (Option (Option α))) :=
  if head > r.published then (head, .diverges)
  else if head = r.published then (head, .ok (.ok none))
  else
    match u32Add p head 1 with
    | .error e => (head, .panic e)
    | .ok head' =>
      match u32Sub p r.reserved head with
      | .error e => (head', .panic e)
      | .ok d =>
        if d > N % 2 ^ 32 then (head', .ok (.error (overflowError N r.published head)))
        else if N = 0 then (head', .panic .remByZero)
        else (head', .ok (.ok (some (r.slot (head % N)))))

/-- `&array[a..b]` for `a ≤ b ≤ N` -/
def Ring.slice {α : Type} (r : Ring α) (a b : Nat) : List (Option α) :=
  (List.range' a (b - a)).map r.slot

/-- `RingBufferConsumer::peek_all`, ring_buffer.rs 161-185, run alone. -/
def Ring.peekAll {α : Type} (p : Profile) (N : Nat) (r : Ring α) (head : Nat) :
    Outcome (Except OverflowError (List (Option α) × List (Option α))) :=
  if N = 0 then .panic .remByZero
  else
    let headIndex := head % N
    let publishedTailIndex := r.published % N
    if head = r.published then .ok (.ok ([], []))
    else
      match u32Sub p r.published head with
      | .error e => .panic e
      | .ok d =>
        if d > N % 2 ^ 32 then .ok (.error (overflowError N r.published head))
        else if headIndex < publishedTailIndex then .ok (.ok (r.slice headIndex publishedTailIndex, []))
        else .ok (.ok (r.slice headIndex N, r.slice 0 publishedTailIndex))

/-- a ring buffer together with the `head`s of all consumers made from it, in creation order -/
structure RingSys (α : Type) where
  ring : Ring α
  heads : List Nat

/-- calls a program can make; consumers are named by creation order -/
inductive RingOp (α : Type)
  | enqueue (e : α)
  | consumer
  | dequeue (c : Nat)
  | peekAll (c : Nat)

/-- what the caller sees -/
inductive RingOut (α : Type)
  | done
  | consumer (id : Nat)
  /-- `Ok(None)` / `Ok(Some(v))`; `v = none` would be uninitialised memory -/
  | dequeued (v : Option (Option α))
  /-- the two slices returned by `peek_all` -/
  | peeked (s1 s2 : List (Option α))
  | overflow (e : OverflowError)
  | panic (p : Panic)
  | diverges
  /-- no such consumer: cannot be written in Rust -/
  | invalid

/-- one call -/
def RingSys.step {α : Type} (p : Profile) (N : Nat) (s : RingSys α) : RingOp α → RingSys α × RingOut α
  | .enqueue e =>
    let (r, o) := s.ring.enqueue p N e
    ({ s with ring := r }, match o with | .ok () => .done | .panic e => .panic e | .diverges => .diverges)
  | .consumer => ({ s with heads := s.heads ++ [s.ring.consumer] }, .consumer s.heads.length)
  | .dequeue c =>
    match s.heads[c]? with
    | none => (s, .invalid)
    | some head =>
      let (head', o) := s.ring.dequeue p N head
      ({ s with heads := s.heads.set c head' },
        match o with
        | .ok (.ok v) => .dequeued v
        | .ok (.error e) => .overflow e
        | .panic e => .panic e
        | .diverges => .diverges)
  | .peekAll c =>
    match s.heads[c]? with
    | none => (s, .invalid)
    | some head =>
      (s, match s.ring.peekAll p N head with
        | .ok (.ok (a, b)) => .peeked a b
        | .ok (.error e) => .overflow e
        | .panic e => .panic e
        | .diverges => .diverges)

/-- a history of calls: final state and everything the callers saw -/
def RingSys.run {α : Type} (p : Profile) (N : Nat) (s : RingSys α) : List (RingOp α) → RingSys α × List (RingOut α)
  | [] => (s, [])
  | op :: ops =>
    let (s', o) := s.step p N op
    let (s'', os) := RingSys.run p N s' ops
    (s'', o :: os)

/-- a fresh ring buffer without consumers -/
def RingSys.init (α : Type) : RingSys α := { ring := Ring.new α, heads := [] }

end BigO
