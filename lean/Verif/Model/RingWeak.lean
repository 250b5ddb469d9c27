import Verif.Model.RingConc

/-!
# Model of the ring buffer with the memory orderings written in the code

`/repo/src/metrics_allocator/ring_buffer.rs` 48-185, steps as in `Verif.Model.RingConc`, but memory is not a store of single
values: each location keeps its modification order (`WCell`) and each thread a view (`View`), the oldest position of every
location it may still read.  A load may return any position not older than the view.  Read-modify-writes act on the newest value.

* `Relaxed` loads and failed compare-exchanges: the reader learns the position it read, nothing more.
* `Relaxed` read-modify-writes (59): the new value carries on the release sequence (`rel`) of the one it replaces.
* `Release` compare-exchange (70): the new value also carries the writer's view.
* `Acquire` compare-exchange (126): the thread joins the view carried by the value it replaces.
* Slots are ordinary memory (66, 133): an access by a thread that has not seen the newest write is a data race, undefined
  behaviour in Rust.  Here `raced` records it and the execution goes on, the reader getting any value it has not seen replaced.
* Outside the ring, threads synchronise by starting and joining threads, locks, channels (`WAct.sync`); a thread using a consumer
  got the reference from the one that created it (`born`).

Simplifications: no load buffering (a load never returns a value written later); `raced` is not set by the reads of `peek_all`, nor by a
write unordered with an earlier read; the references returned are read as the call returns.  `log`, `starts`, `events`, `raced`
are ghosts.
-/
namespace BigO

/-- the memory locations: `reserved_tail`, `published_tail` (22-24), the `head` of each consumer (104), the slots (26) -/
inductive WLoc
  | reserved
  | published
  | head (c : Nat)
  | slot (i : Nat)
  deriving DecidableEq, Repr

/-- how old a value of each location may still be read -/
abbrev View := WLoc → Nat

/-- everything either has seen -/
def View.join (v w : View) : View := fun l => Nat.max (v l) (w l)

/-- position `i` of `l` has been seen -/
def View.set (v : View) (l : WLoc) (i : Nat) : View := fun l' => if l' = l then i else v l'

/-- the modification order of a location; `rel i` is what a thread reading position `i` with `Acquire` learns -/
structure WCell (β : Type) where
  top : Nat
  val : Nat → β
  rel : Nat → View

/-- a location with its initial value -/
def WCell.new {β : Type} (v : β) : WCell β := ⟨0, fun _ => v, fun _ _ => 0⟩

/-- the newest value -/
def WCell.last {β : Type} (l : WCell β) : β := l.val l.top

/-- a write of `v`, carrying the view `r` -/
def WCell.push {β : Type} (l : WCell β) (v : β) (r : View) : WCell β :=
  ⟨l.top + 1, fun i => if i = l.top + 1 then v else l.val i, fun i => if i = l.top + 1 then r else l.rel i⟩

/-- the buffer, its consumers' heads, and `T` threads -/
structure WRing (α : Type) (T : Nat) where
  reserved : WCell Nat
  published : WCell Nat
  heads : List (WCell Nat)
  born : List View
  slot : Nat → WCell (Option α)
  pc : Fin T → RPc α
  view : Fin T → View
  log : List α
  starts : List Nat
  events : List (REv α)
  raced : Bool

/-- a fresh buffer, seen by all threads: ring_buffer.rs 39-45 -/
def WRing.init (α : Type) (T : Nat) : WRing α T :=
  { reserved := .new 0, published := .new 0, heads := [], born := [], slot := fun _ => .new none, pc := fun _ => .idle,
    view := fun _ _ => 0, log := [], starts := [], events := [], raced := false }

/-- move thread `t` -/
def WRing.setPc {α : Type} {T : Nat} (s : WRing α T) (t : Fin T) (x : RPc α) : WRing α T :=
  { s with pc := fun t' => if t' = t then x else s.pc t' }

/-- record an event -/
def WRing.emit {α : Type} {T : Nat} (s : WRing α T) (e : REv α) : WRing α T :=
  { s with events := s.events ++ [e] }

/-- thread `t` has seen position `i` of `l` -/
def WRing.see {α : Type} {T : Nat} (s : WRing α T) (t : Fin T) (l : WLoc) (i : Nat) : WRing α T :=
  { s with view := fun t' => if t' = t then (s.view t).set l i else s.view t' }

/-- thread `t` has seen all of `v` -/
def WRing.learn {α : Type} {T : Nat} (s : WRing α T) (t : Fin T) (v : View) : WRing α T :=
  { s with view := fun t' => if t' = t then (s.view t).join v else s.view t' }

/-- thread `t` may read position `i` of `l`, whose newest is `top` -/
def WRing.readable {α : Type} {T : Nat} (s : WRing α T) (t : Fin T) (l : WLoc) (top i : Nat) : Bool :=
  decide (s.view t l ≤ i) && decide (i ≤ top)

/-- scheduler actions: a thread starts a call (with its first atomic access, a load reading position `i`), executes its next step, or
synchronises with thread `u` by other means.  In `next`, a load or failed compare-exchange reads position `i`, a slot `k` is read at
position `j k`, and `ok` tells whether a compare-exchange succeeds (it may fail spuriously). -/
inductive WAct (α : Type) (T : Nat)
  | enqueue (t : Fin T) (e : α)
  | consumer (t : Fin T) (i : Nat)
  | dequeue (t : Fin T) (c i : Nat)
  | peekAll (t : Fin T) (c i : Nat)
  | next (t : Fin T) (i : Nat) (j : Nat → Nat) (ok : Bool)
  | sync (t u : Fin T)

/-- the thread acting -/
def WAct.tid {α : Type} {T : Nat} : WAct α T → Fin T
  | .enqueue t _ => t
  | .consumer t _ => t
  | .dequeue t _ _ => t
  | .peekAll t _ _ => t
  | .next t _ _ _ => t
  | .sync t _ => t

/-- line 66: thread `t` stores `e` in slot `k` -/
def WRing.store {α : Type} {T : Nat} (s : WRing α T) (t : Fin T) (k : Nat) (e : α) : WRing α T :=
  { s with
    slot := fun x => if x = k then (s.slot k).push (some e) (fun _ => 0) else s.slot x
    raced := s.raced || decide (s.view t (.slot k) < (s.slot k).top) }.see t (.slot k) ((s.slot k).top + 1)

/-- line 70: thread `t` writes `v` to `published_tail` with `Release` -/
def WRing.publish {α : Type} {T : Nat} (s : WRing α T) (t : Fin T) (v : Nat) : WRing α T :=
  { s with
    published := s.published.push v
      ((s.published.rel s.published.top).join ((s.view t).set .published (s.published.top + 1))) }.see t .published
        (s.published.top + 1)

/-- line 126: thread `t` replaces the newest value of the head of consumer `c` (whose modification order is `l`) by `v` with `Acquire` -/
def WRing.claim {α : Type} {T : Nat} (s : WRing α T) (t : Fin T) (c : Nat) (l : WCell Nat) (v : Nat) : WRing α T :=
  ({ s with heads := s.heads.set c (l.push v (l.rel l.top)) }.see t (.head c) (l.top + 1)).learn t (l.rel l.top)

/-- line 59: thread `t` adds one to `reserved_tail` for `e` with `Relaxed` -/
def WRing.reserve {α : Type} {T : Nat} (s : WRing α T) (t : Fin T) (e : α) : WRing α T :=
  { s with
    reserved := s.reserved.push ((s.reserved.last + 1) % 2 ^ 32) (s.reserved.rel s.reserved.top)
    log := s.log ++ [e] }.see t .reserved (s.reserved.top + 1)

/-- lines 48-53: thread `t` makes a consumer, loading `published_tail` at position `i` with `Relaxed` -/
def WRing.addConsumer {α : Type} {T : Nat} (s : WRing α T) (t : Fin T) (i : Nat) : WRing α T :=
  { s with
    heads := s.heads ++ [WCell.new (s.published.val i)]
    born := s.born ++ [(s.view t).set .published i]
    starts := s.starts ++ [s.published.val i] }.see t .published i

/-- line 133: thread `t` reads slot `k` at position `i` -/
def WRing.fetch {α : Type} {T : Nat} (s : WRing α T) (t : Fin T) (k i : Nat) : WRing α T :=
  { s with raced := s.raced || decide (s.view t (.slot k) < (s.slot k).top) }.see t (.slot k) i

/-- the buffer as `peek_all` sees it: `published_tail` at position `i`, slot `k` at position `j k` -/
def WRing.seen {α : Type} {T : Nat} (s : WRing α T) (i : Nat) (j : Nat → Nat) : Ring α :=
  { reserved := 0, published := s.published.val i, slot := fun k => (s.slot k).val (j k) }

/-- the next step of thread `t`, whose program counter is the last argument; no change if it is not possible -/
def WRing.nextStep {α : Type} {T : Nat} (p : Profile) (N : Nat) (s : WRing α T) (t : Fin T) (i : Nat) (j : Nat → Nat) (ok : Bool) :
    RPc α → WRing α T
  | .idle => s
  | .panicked _ => s
  -- line 66
  | .enqReserved e r =>
    if N = 0 then s.setPc t (.panicked .remByZero)
    else (s.store t (r % N) e).setPc t (.enqWritten e r)
  -- lines 69-76: `Release` on success, `Relaxed` on failure
  | .enqWritten e r =>
    match u32Add p r 1 with
    | .error q => s.setPc t (.panicked q)
    | .ok next =>
      if ok then
        if s.published.last = r then
          ((s.publish t next).setPc t .idle).emit (.enqDone e r)
        else s
      else if s.readable t .published s.published.top i then
        if s.published.val i > r then (s.see t .published i).setPc t (.panicked (.msg ringBugMsg)) else s.see t .published i
      else s
  -- lines 118-125: `Relaxed`
  | .deqHead c h =>
    if s.readable t .published s.published.top i then
      if h > s.published.val i then (s.see t .published i).setPc t (.deqReload c)
      else if h = s.published.val i then ((s.see t .published i).setPc t .idle).emit (.deqNone c)
      else (s.see t .published i).setPc t (.deqTail c h (s.published.val i))
    else s
  -- line 120: `Relaxed`
  | .deqReload c =>
    match s.heads[c]? with
    | none => s
    | some l => if s.readable t (.head c) l.top i then (s.see t (.head c) i).setPc t (.deqHead c (l.val i)) else s
  -- lines 126 and 135: `Acquire` on success, `Relaxed` on failure
  | .deqTail c h tl =>
    match u32Add p h 1 with
    | .error q => s.setPc t (.panicked q)
    | .ok h' =>
      match s.heads[c]? with
      | none => s
      | some l =>
        if ok then
          if l.last = h then
            ((s.claim t c l h').setPc t (.deqClaimed c h tl)).emit (.claim c h)
          else s
        else if s.readable t (.head c) l.top i then (s.see t (.head c) i).setPc t (.deqHead c (l.val i)) else s
  -- lines 128-133: `Relaxed`
  | .deqClaimed c h _ =>
    if s.readable t .reserved s.reserved.top i then
      match u32Sub p (s.reserved.val i) h with
      | .error q => (s.see t .reserved i).setPc t (.panicked q)
      | .ok d =>
        if d > N % 2 ^ 32 then ((s.see t .reserved i).setPc t .idle).emit (.deqErr c h)
        else if N = 0 then (s.see t .reserved i).setPc t (.panicked .remByZero)
        else if s.readable t (.slot (h % N)) (s.slot (h % N)).top (j (h % N)) then
          (((s.see t .reserved i).fetch t (h % N) (j (h % N))).setPc t .idle).emit
            (.deqSome c h ((s.slot (h % N)).val (j (h % N))))
        else s
    else s
  -- lines 163-184: `Relaxed`
  | .peekHead c h =>
    if s.readable t .published s.published.top i && (List.range N).all fun k => s.readable t (.slot k) (s.slot k).top (j k) then
      match peekEvent p N (s.seen i j) c h with
      | .ok e => ((s.see t .published i).setPc t .idle).emit e
      | .error q => (s.see t .published i).setPc t (.panicked q)
    else s

/-- one action; calls are started by idle threads only, on existing consumers only -/
def WRing.act {α : Type} {T : Nat} (p : Profile) (N : Nat) (s : WRing α T) : WAct α T → WRing α T
  | .enqueue t e =>
    match s.pc t with
    | .idle =>
      -- line 59: `Relaxed`
      (s.reserve t e).setPc t (.enqReserved e s.reserved.last)
    | _ => s
  | .consumer t i =>
    match s.pc t with
    -- lines 48-53: `Relaxed`
    | .idle =>
      if s.readable t .published s.published.top i then
        s.addConsumer t i
      else s
    | _ => s
  | .dequeue t c i =>
    match s.pc t, s.heads[c]?, s.born[c]? with
    -- line 116: `Relaxed`
    | .idle, some l, some v =>
      if (s.learn t v).readable t (.head c) l.top i then
        ((s.learn t v).see t (.head c) i).setPc t (.deqHead c (l.val i))
      else s
    | _, _, _ => s
  | .peekAll t c i =>
    match s.pc t, s.heads[c]?, s.born[c]? with
    -- line 162: `Relaxed`
    | .idle, some l, some v =>
      if (s.learn t v).readable t (.head c) l.top i then
        ((s.learn t v).see t (.head c) i).setPc t (.peekHead c (l.val i))
      else s
    | _, _, _ => s
  | .next t i j ok => s.nextStep p N t i j ok (s.pc t)
  | .sync t u => s.learn t (s.view u)

/-- a schedule -/
def WRing.run {α : Type} {T : Nat} (p : Profile) (N : Nat) (s : WRing α T) (acts : List (WAct α T)) : WRing α T :=
  acts.foldl (WRing.act p N) s

end BigO
