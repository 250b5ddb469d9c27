import Verif.Model.Ring

/-!
# Model of the ring buffer under concurrency

`/repo/src/metrics_allocator/ring_buffer.rs` 48-185: every atomic access and the slot write is one step of the thread that
executes it; a schedule is any list of actions, so any interleaving, any thread being delayed forever (crashed), and any
spurious failure of `compare_exchange_weak`.

Simplifications: sequentially consistent memory (the code uses `Relaxed`/`Acquire`/`Release` orderings: weak-memory effects
are outside the model); the write of a slot is one step (no torn reads); the references returned by `dequeue` and
`peek_all` are read in the same step as the call's last atomic access; local computations are merged with the preceding access.

Ghost state, never read by the code: `log` (elements in the order of their `fetch_add`), `starts`, `events`.
-/
namespace BigO

/-- where a thread is, with the local variables that are live there -/
inductive RPc (α : Type)
  /-- outside any call -/
  | idle
  /-- `enqueue`: slot `r` reserved (59), element not yet stored -/
  | enqReserved (e : α) (r : Nat)
  /-- `enqueue`: element stored (66), before a compare-exchange (70) -/
  | enqWritten (e : α) (r : Nat)
  /-- `dequeue`: `head = h` (116, 120 or 135), before loading `published_tail` (118) -/
  | deqHead (c h : Nat)
  /-- `dequeue`: `head > published_tail` (119), before reloading `head` (120) -/
  | deqReload (c : Nat)
  /-- `dequeue`: `head = h`, `published_tail = t`, before the compare-exchange (126) -/
  | deqTail (c h t : Nat)
  /-- `dequeue`: `h` claimed, before loading `reserved_tail` (130) -/
  | deqClaimed (c h t : Nat)
  /-- `peek_all`: `head = h` (162), before loading `published_tail` (163) -/
  | peekHead (c h : Nat)
  /-- the call panicked -/
  | panicked (p : Panic)

/-- results of calls, and successful claims of `dequeue` -/
inductive REv (α : Type)
  /-- `enqueue` of `e` returned; it had reserved position `r` -/
  | enqDone (e : α) (r : Nat)
  /-- `dequeue` advanced the head of consumer `c` from `h` to `h + 1` -/
  | claim (c h : Nat)
  /-- `dequeue` returned `Ok(None)` -/
  | deqNone (c : Nat)
  /-- `dequeue` returned `Ok(Some(v))`, `v` being the slot's contents at that moment -/
  | deqSome (c h : Nat) (v : Option α)
  /-- `dequeue` returned the overflow error -/
  | deqErr (c h : Nat)
  /-- `peek_all` returned the two slices -/
  | peekOk (c h t : Nat) (s1 s2 : List (Option α))
  /-- `peek_all` returned the overflow error -/
  | peekErr (c : Nat)

/-- the buffer, its consumers' heads, and `T` threads -/
structure RState (α : Type) (T : Nat) where
  ring : Ring α
  heads : List Nat
  pc : Fin T → RPc α
  log : List α
  starts : List Nat
  events : List (REv α)

/-- a fresh buffer -/
def RState.init (α : Type) (T : Nat) : RState α T :=
  { ring := Ring.new α, heads := [], pc := fun _ => .idle, log := [], starts := [], events := [] }

/-- scheduler actions: a thread starts a call (executing its first atomic access), or executes its next step
(`spurious`: a compare-exchange fails spuriously) -/
inductive RAct (α : Type) (T : Nat)
  | enqueue (t : Fin T) (e : α)
  | consumer (t : Fin T)
  | dequeue (t : Fin T) (c : Nat)
  | peekAll (t : Fin T) (c : Nat)
  | next (t : Fin T) (spurious : Bool)

/-- move thread `t` -/
def RState.setPc {α : Type} {T : Nat} (s : RState α T) (t : Fin T) (x : RPc α) : RState α T :=
  { s with pc := fun t' => if t' = t then x else s.pc t' }

/-- record an event -/
def RState.emit {α : Type} {T : Nat} (s : RState α T) (e : REv α) : RState α T :=
  { s with events := s.events ++ [e] }

/-- the remainder of `peek_all` once `published_tail = r.published` is loaded, 164-184 -/
def peekEvent {α : Type} (p : Profile) (N : Nat) (r : Ring α) (c h : Nat) : Except Panic (REv α) :=
  match r.peekAll p N h with
  | .ok (.ok (a, b)) => .ok (.peekOk c h r.published a b)
  | .ok (.error _) => .ok (.peekErr c)
  | .panic e => .error e
  | .diverges => .ok (.peekErr c) -- not produced by `peekAll`

/-- the next step of thread `t`, whose program counter is the last argument -/
def RState.nextStep {α : Type} {T : Nat} (p : Profile) (N : Nat) (s : RState α T) (t : Fin T) (spurious : Bool) :
    RPc α → RState α T
  | .idle => s
  | .panicked _ => s
  -- line 66
  | .enqReserved e r =>
    if N = 0 then s.setPc t (.panicked .remByZero)
    else { s with ring := s.ring.write (r % N) e }.setPc t (.enqWritten e r)
  -- lines 69-76
  | .enqWritten e r =>
    match u32Add p r 1 with
    | .error q => s.setPc t (.panicked q)
    | .ok next =>
      if s.ring.published = r ∧ spurious = false then
        ({ s with ring := { s.ring with published := next } }.setPc t .idle).emit (.enqDone e r)
      else if s.ring.published > r then s.setPc t (.panicked (.msg ringBugMsg))
      else s
  -- lines 118-125
  | .deqHead c h =>
    if h > s.ring.published then s.setPc t (.deqReload c)
    else if h = s.ring.published then (s.setPc t .idle).emit (.deqNone c)
    else s.setPc t (.deqTail c h s.ring.published)
  -- line 120
  | .deqReload c => s.setPc t (.deqHead c (s.heads.getD c 0))
  -- lines 126 and 135
  | .deqTail c h tl =>
    match u32Add p h 1 with
    | .error q => s.setPc t (.panicked q)
    | .ok h' =>
      if s.heads[c]? = some h ∧ spurious = false then
        ({ s with heads := s.heads.set c h' }.setPc t (.deqClaimed c h tl)).emit (.claim c h)
      else s.setPc t (.deqHead c (s.heads.getD c 0))
  -- lines 128-133
  | .deqClaimed c h _ =>
    match u32Sub p s.ring.reserved h with
    | .error q => s.setPc t (.panicked q)
    | .ok d =>
      if d > N % 2 ^ 32 then (s.setPc t .idle).emit (.deqErr c h)
      else if N = 0 then s.setPc t (.panicked .remByZero)
      else (s.setPc t .idle).emit (.deqSome c h (s.ring.slot (h % N)))
  -- lines 163-184
  | .peekHead c h =>
    match peekEvent p N s.ring c h with
    | .ok e => (s.setPc t .idle).emit e
    | .error q => s.setPc t (.panicked q)

/-- one action; calls are started by idle threads only, on existing consumers only -/
def RState.act {α : Type} {T : Nat} (p : Profile) (N : Nat) (s : RState α T) : RAct α T → RState α T
  | .enqueue t e =>
    match s.pc t with
    | .idle =>
      -- line 59
      { s with ring := { s.ring with reserved := (s.ring.reserved + 1) % 2 ^ 32 }, log := s.log ++ [e] }.setPc t
        (.enqReserved e s.ring.reserved)
    | _ => s
  | .consumer t =>
    match s.pc t with
    -- lines 48-53
    | .idle => { s with heads := s.heads ++ [s.ring.published], starts := s.starts ++ [s.ring.published] }
    | _ => s
  | .dequeue t c =>
    match s.pc t, s.heads[c]? with
    -- line 116
    | .idle, some h => s.setPc t (.deqHead c h)
    | _, _ => s
  | .peekAll t c =>
    match s.pc t, s.heads[c]? with
    -- line 162
    | .idle, some h => s.setPc t (.peekHead c h)
    | _, _ => s
  | .next t spurious => s.nextStep p N t spurious (s.pc t)

/-- a schedule -/
def RState.run {α : Type} {T : Nat} (p : Profile) (N : Nat) (s : RState α T) (acts : List (RAct α T)) : RState α T :=
  acts.foldl (RState.act p N) s

end BigO
