import Verif.Model.Rust

/-!
# Model of an iterator pass: which elements each thread gives to the closure

`/repo/src/runners/common.rs` 72-178.

Simplifications: the chunk arithmetic is done before the first thread is spawned (they differ only if it overflows, for
ranges beyond 2^31); the measured durations are in `Verif.Model.PassResult`; a panicking closure is in `Verif.Model.PassPanic`.
-/
namespace BigO

/-- the numbers `thread_loop` gives to the closure for the range `a..b`, in order, common.rs 81-111 (the two algorithm types
have the same loops, 91-110) -/
def threadElems (a b : Nat) : List Nat :=
  if b < a then (List.range' b (a - b)).reverse else List.range' a (b - a)

/-- the range of thread `n`, common.rs 129: `start + chunk * n .. start + chunk * (n + 1)`, then `as u32` (130) -/
def chunkOf (p : Profile) (a cs : Int) (n : Nat) : Rs (Nat × Nat) :=
  match i32Mul p cs n, i32Add p n 1 with
  | .error e, _ => .error e
  | _, .error e => .error e
  | .ok m, .ok n1 =>
    match i32Add p a m, i32Mul p cs n1 with
    | .error e, _ => .error e
    | _, .error e => .error e
    | .ok lo, .ok m1 =>
      match i32Add p a m1 with
      | .error e => .error e
      | .ok hi => .ok (u32OfI32 lo, u32OfI32 hi)

/-- the range of every thread, common.rs 124-131: note that the `i32` range has start and end swapped -/
def passChunks (p : Profile) (start stop threads : Nat) : Rs (List (Nat × Nat)) := do
  let a := i32OfU32 stop
  let d ← i32Sub p (i32OfU32 start) a
  let cs ← i32Div d (i32OfU32 threads)
  (List.range (i32OfU32 threads).toNat).mapM (chunkOf p a cs)

/-- a thread of the pass: the numbers still to process, and `thread_r` -/
structure PTh where
  todo : List Nat
  acc : Nat

/-- a running pass; `calls` is the history of closure calls: thread and argument -/
structure PassRun where
  threads : List PTh
  calls : List (Nat × Nat)

/-- all threads spawned; `thread_r` starts as the end of the thread's range (common.rs 84) -/
def PassRun.start (chunks : List (Nat × Nat)) : PassRun :=
  { threads := chunks.map fun c => ⟨threadElems c.1 c.2, c.2⟩, calls := [] }

/-- thread `t` calls the closure once; its result may depend on the calls made so far by any thread -/
def PassRun.step (f : List (Nat × Nat) → Nat → Nat) (s : PassRun) (t : Nat) : PassRun :=
  match s.threads[t]? with
  | some ⟨e :: es, acc⟩ =>
    { threads := s.threads.set t ⟨es, acc ^^^ f s.calls e⟩, calls := s.calls ++ [(t, e)] }
  | _ => s

/-- a schedule of the threads -/
def PassRun.run (f : List (Nat × Nat) → Nat → Nat) (s : PassRun) (sched : List Nat) : PassRun :=
  sched.foldl (PassRun.step f) s

/-- every thread has left its loop -/
def PassRun.Done (s : PassRun) : Prop := ∀ th ∈ s.threads, th.todo = []

/-- the number returned by the pass, common.rs 134 and 144 -/
def PassRun.result (p : Profile) (start : Nat) (s : PassRun) : Rs Nat := do
  let r ← u32Add p start 1
  return s.threads.foldl (fun r th => r ^^^ th.acc) r

end BigO
