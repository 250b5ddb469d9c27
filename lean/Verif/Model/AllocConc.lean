import Verif.Model.Alloc

/-!
# Model of the metrics allocator under concurrency

`/repo/src/metrics_allocator/metrics_allocator.rs` 142-285, one atomic access per step.

All accesses in the code are `Ordering::Relaxed`.  Each statistic is a location with its modification order (`Loc`);
a load may return any value not older than one the thread has already seen of that location (coherence), so stale reads
are included; `fetch_add`, `fetch_sub` and a successful compare-exchange act on the newest value.  Extra
synchronisation can only remove behaviours.

Starting a thread, joining it and handing a save point to another thread synchronise: what one thread has seen the other cannot
unsee (`AAct.sync`, `AAct.delta`).

Simplifications: the ring buffer's `enqueue`, `consumer` and `peek_all` are one step each here (their own interleavings, together with the
statistics, are in `Verif.Model.AllocRing`, where what is proved here is carried over; those of the ring buffer alone are in
`Verif.Model.RingConc`).
-/
namespace BigO

/-- an atomic `usize`: its modification order -/
structure Loc where
  top : Nat
  val : Nat → Nat

/-- the newest value -/
def Loc.last (l : Loc) : Nat := l.val l.top

/-- a write -/
def Loc.push (l : Loc) (v : Nat) : Loc := ⟨l.top + 1, fun i => if i = l.top + 1 then v else l.val i⟩

/-- the value was in the location at some time -/
def Loc.Had (l : Loc) (v : Nat) : Prop := ∃ i, i ≤ l.top ∧ l.val i = v

/-- a `fetch_add` or `fetch_sub` on a statistic -/
inductive Rmw
  | add (c : Ctr) (n : Nat)
  | sub (c : Ctr) (n : Nat)
  deriving DecidableEq, Repr

/-- the statistic it is on -/
def Rmw.ctr : Rmw → Ctr
  | .add c _ => c
  | .sub c _ => c

/-- the value written: both wrap around -/
def Rmw.apply : Rmw → Nat → Nat
  | .add _ n, v => (v + n) % usizeMod
  | .sub _ n, v => (v + (usizeMod - n)) % usizeMod

/-- the read-modify-writes of a call before `compute_min_and_max_used_memories`, in order:
metrics_allocator.rs 203-237 and 268-285 -/
def rmws : HeapCall → List Rmw
  | .alloc size _ => [.add .allocationsCount 1, .add .allocatedBytes size, .add .currentUsedMemory size]
  | .dealloc size => [.add .deallocationsCount 1, .add .deallocatedBytes size, .sub .currentUsedMemory size]
  | .allocZeroed size _ => [.add .zeroedAllocationsCount 1, .add .zeroedAllocatedBytes size, .add .currentUsedMemory size]
  | .realloc old new _ =>
    [.add .reallocationsCount 1, .add .reallocatedOriginalsBytes old, .add .reallocatedNewsBytes new] ++
      (if new > old then [.add .currentUsedMemory (new - old)]
       else if new < old then [.sub .currentUsedMemory (old - new)] else [])

/-- where a thread is -/
inductive APc
  /-- outside the allocator -/
  | idle
  /-- in `compute_*_metrics`, these read-modify-writes still to do (203-237) -/
  | rmw (ops : List Rmw)
  /-- in `compute_min_and_max_used_memories`, about to load the used memory (241) -/
  | loadCur
  /-- about to load the minimum (242) -/
  | loadMin (cur : Nat)
  /-- about to compare-exchange the minimum (245) -/
  | casMin (cur mn : Nat)
  /-- about to load the maximum (252) -/
  | loadMax (cur : Nat)
  /-- about to compare-exchange the maximum (255) -/
  | casMax (cur mx : Nat)
  /-- in `save_point`, about to load the minimum (146) -/
  | spMin
  /-- about to load the maximum (147) -/
  | spMax (mn : Nat)
  /-- about to enqueue the slot (145-148) -/
  | spEnqueue (mn mx : Nat)
  /-- about to create the consumer (149) -/
  | spConsumer
  /-- about to load the used memory for the minimum (150) -/
  | spCur1 (head : Nat)
  /-- about to store the minimum (150) -/
  | spStoreMin (head cur : Nat)
  /-- about to load the used memory for the maximum (151) -/
  | spCur2 (head : Nat)
  /-- about to store the maximum (151) -/
  | spStoreMax (head cur : Nat)
  /-- filling the save point: the statistics still to load and the values loaded (152-166) -/
  | spLoad (head : Nat) (rest : List Ctr) (got : List Nat)
  /-- in `delta_statistics` of save point number `k`, about to peek (173-182) -/
  | dPeek (k : Nat)
  /-- about to load the minimum (184), the extremes over the peeked slots being `mn` and `mx` -/
  | dMin (k mn mx : Nat)
  /-- about to load the maximum (185) -/
  | dMax (k mn mx : Nat)
  /-- the counters still to load, each with its value in the save point, and the differences so far (187-195) -/
  | dLoad (k mn mx : Nat) (rest : List (Ctr × Nat)) (got : List Nat)
  /-- about to load the used memory (196) -/
  | dCur (k mn mx : Nat) (got : List Nat)
  deriving DecidableEq, Repr

/-- a thread: program counter, and how old a value of each location it may still read -/
structure ATh where
  pc : APc
  view : Ctr → Nat

/-- a save point (68-74): its metrics in declaration order, the head of its consumer; `view` (a ghost) is what the thread that made it
had seen -/
structure CSave where
  got : List Nat
  head : Nat
  view : Ctr → Nat

/-- how `delta_statistics` ends -/
inductive DRes
  /-- `Err(RingBufferOverflowError)` -/
  | overflow
  /-- the statistics, in declaration order -/
  | stats (l : List Nat)
  /-- a subtraction overflowed -/
  | panicked
  deriving DecidableEq, Repr

/-- the shared state, with the build profile and the size of the ring; `started` and `results` are ghosts: the calls started so far, how
each `delta_statistics` ended (of which save point); `saved` are the save points made -/
structure AConc where
  profile : Profile
  size : Nat
  loc : Ctr → Loc
  th : Nat → ATh
  slots : List Slot
  started : List HeapCall
  saved : List CSave
  results : List (Nat × DRes)

/-- all threads outside the allocator, the statistics being `s` -/
def AConc.init (p : Profile) (N : Nat) (s : Stats) : AConc :=
  { profile := p, size := N, loc := fun c => ⟨0, fun _ => s c⟩, th := fun _ => ⟨.idle, fun _ => 0⟩, slots := [], started := [],
    saved := [], results := [] }

/-- thread `t` goes to `pc` -/
def AConc.goto (s : AConc) (t : Nat) (pc : APc) : AConc :=
  { s with th := fun u => if u = t then { s.th t with pc := pc } else s.th u }

/-- thread `t` has seen position `i` of `c` -/
def AConc.see (s : AConc) (t : Nat) (c : Ctr) (i : Nat) : AConc :=
  { s with th := fun u => if u = t then { s.th t with view := fun c' => if c' = c then i else (s.th t).view c' } else s.th u }

/-- thread `t` writes `v` to `c` -/
def AConc.write (s : AConc) (t : Nat) (c : Ctr) (v : Nat) : AConc :=
  ({ s with loc := fun c' => if c' = c then (s.loc c).push v else s.loc c' } : AConc).see t c ((s.loc c).top + 1)

/-- thread `t` may read position `i` of `c` -/
def AConc.readable (s : AConc) (t : Nat) (c : Ctr) (i : Nat) : Bool :=
  decide ((s.th t).view c ≤ i) && decide (i ≤ (s.loc c).top)

/-- thread `t` loads position `i` of `c` and goes to `k value` -/
def AConc.load (s : AConc) (t : Nat) (c : Ctr) (i : Nat) (k : Nat → APc) : Option AConc :=
  if s.readable t c i then some ((s.see t c i).goto t (k ((s.loc c).val i))) else none

/-- the loop condition for the minimum (244) -/
def toMin (cur mn : Nat) : APc := if cur < mn then .casMin cur mn else .loadMax cur
/-- the loop condition for the maximum (254) -/
def toMax (cur mx : Nat) : APc := if cur > mx then .casMax cur mx else .idle

/-- after the read-modify-writes `ops` are left -/
def toRmw : List Rmw → APc
  | [] => .loadCur
  | op :: ops => .rmw (op :: ops)

/-- the twelve statistics in declaration order (10-23, 154-165) -/
def allCtrs : List Ctr := deltaCtrs ++ [.currentUsedMemory, .minUsedMemory, .maxUsedMemory]

/-- the end of a `delta_statistics` of save point `k` by thread `t` -/
def AConc.result (s : AConc) (t k : Nat) (r : DRes) : AConc := ({ s with results := s.results ++ [(k, r)] } : AConc).goto t .idle

/-- the smallest minimum and the largest maximum of the peeked slots (174-182) -/
def extremes (l : List Slot) : Nat × Nat := l.foldl (fun acc x => (Nat.min acc.1 x.min, Nat.max acc.2 x.max)) (usizeMax, 0)

/-- one step of thread `t`: a load reads position `i`; a compare-exchange succeeds iff `ok` (which needs the expected value
to be the newest), else it may have failed spuriously and reads position `i` -/
def AConc.step (s : AConc) (t i : Nat) (ok : Bool) : Option AConc :=
  match (s.th t).pc with
  | .idle => none
  | .rmw [] => some (s.goto t .loadCur)
  | .rmw (op :: ops) => some ((s.write t op.ctr (op.apply (s.loc op.ctr).last)).goto t (toRmw ops))
  | .loadCur => s.load t .currentUsedMemory i .loadMin
  | .loadMin cur => s.load t .minUsedMemory i (toMin cur)
  | .casMin cur mn =>
    if ok then
      if (s.loc .minUsedMemory).last = mn then some ((s.write t .minUsedMemory cur).goto t (.loadMax cur)) else none
    else s.load t .minUsedMemory i (toMin cur)
  | .loadMax cur => s.load t .maxUsedMemory i (toMax cur)
  | .casMax cur mx =>
    if ok then
      if (s.loc .maxUsedMemory).last = mx then some ((s.write t .maxUsedMemory cur).goto t .idle) else none
    else s.load t .maxUsedMemory i (toMax cur)
  | .spMin => s.load t .minUsedMemory i .spMax
  | .spMax mn => s.load t .maxUsedMemory i (.spEnqueue mn)
  | .spEnqueue mn mx => some (({ s with slots := s.slots ++ [⟨mn, mx⟩] } : AConc).goto t .spConsumer)
  | .spConsumer => some (s.goto t (.spCur1 s.slots.length))
  | .spCur1 hd => s.load t .currentUsedMemory i (.spStoreMin hd)
  | .spStoreMin hd cur => some ((s.write t .minUsedMemory cur).goto t (.spCur2 hd))
  | .spCur2 hd => s.load t .currentUsedMemory i (.spStoreMax hd)
  | .spStoreMax hd cur => some ((s.write t .maxUsedMemory cur).goto t (.spLoad hd allCtrs []))
  | .spLoad hd [] got => some (({ s with saved := s.saved ++ [⟨got, hd, (s.th t).view⟩] } : AConc).goto t .idle)
  | .spLoad hd (c :: rest) got => s.load t c i fun v => .spLoad hd rest (got ++ [v])
  | .dPeek k =>
    match s.saved[k]? with
    | none => none
    | some sp =>
      if s.slots.length > sp.head + s.size then some (s.result t k .overflow)
      else some (s.goto t (.dMin k (extremes (s.slots.drop sp.head)).1 (extremes (s.slots.drop sp.head)).2))
  | .dMin k mn mx => s.load t .minUsedMemory i fun v => .dMax k (Nat.min mn v) mx
  | .dMax k mn mx =>
    match s.saved[k]? with
    | none => none
    | some sp => s.load t .maxUsedMemory i fun v => .dLoad k mn (Nat.max mx v) (deltaCtrs.zip sp.got) []
  | .dLoad k mn mx [] got => some (s.goto t (.dCur k mn mx got))
  | .dLoad k mn mx ((c, before) :: rest) got =>
    if s.readable t c i then
      match usizeSub s.profile ((s.loc c).val i) before with
      | .error _ => some ((s.see t c i).result t k .panicked)
      | .ok d => some ((s.see t c i).goto t (.dLoad k mn mx rest (got ++ [d])))
    else none
  | .dCur k mn mx got =>
    if s.readable t .currentUsedMemory i then
      some ((s.see t .currentUsedMemory i).result t k (.stats (got ++ [(s.loc .currentUsedMemory).val i, mn, mx])))
    else none

/-- the sizes of a call are `usize` values -/
def HeapCall.sized : HeapCall → Bool
  | .alloc n _ => decide (n < usizeMod)
  | .dealloc n => decide (n < usizeMod)
  | .allocZeroed n _ => decide (n < usizeMod)
  | .realloc a b _ => decide (a < usizeMod) && decide (b < usizeMod)

/-- what the scheduler does -/
inductive AAct
  /-- thread `t` enters the allocator with a call -/
  | call (t : Nat) (c : HeapCall)
  /-- thread `t` enters `save_point` -/
  | save (t : Nat)
  /-- thread `t` enters `delta_statistics` with save point number `k`; it got it from the thread that made it -/
  | delta (t k : Nat)
  /-- thread `t` starts after, or joins, thread `u` -/
  | sync (t u : Nat)
  /-- thread `t` makes its next atomic access -/
  | step (t i : Nat) (ok : Bool)
  deriving DecidableEq, Repr

/-- the thread acting -/
def AAct.tid : AAct → Nat
  | .call t _ => t
  | .save t => t
  | .delta t _ => t
  | .sync t _ => t
  | .step t _ _ => t

/-- thread `t` has seen all of `v` -/
def AConc.learn (s : AConc) (t : Nat) (v : Ctr → Nat) : AConc :=
  { s with th := fun u => if u = t then { s.th t with view := fun c => Nat.max ((s.th t).view c) (v c) } else s.th u }

/-- one action; `none`: not possible here -/
def AConc.act (s : AConc) : AAct → Option AConc
  | .call t c =>
    if (s.th t).pc = .idle ∧ c.sized = true then some (({ s with started := s.started ++ [c] } : AConc).goto t (toRmw (rmws c))) else none
  | .save t => if (s.th t).pc = .idle then some (s.goto t .spMin) else none
  | .delta t k =>
    if (s.th t).pc = .idle then
      match s.saved[k]? with
      | none => none
      | some sp => some ((s.learn t sp.view).goto t (.dPeek k))
    else none
  | .sync t u => if (s.th t).pc = .idle then some (s.learn t (s.th u).view) else none
  | .step t i ok => s.step t i ok

/-- a schedule -/
def AConc.sched (s : AConc) : List AAct → Option AConc
  | [] => some s
  | a :: as => match s.act a with | some s' => s'.sched as | none => none

end BigO
