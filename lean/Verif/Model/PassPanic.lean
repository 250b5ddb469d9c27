import Verif.Model.Pass

/-!
# Model of an iterator pass whose closure may panic, with the thread that joins

`/repo/src/runners/common.rs` 72-178.  A thread whose closure panics stops (its join handle gives an `Err`).  The thread that runs the
pass joins the others one after the other (136-145) and panics at the first `Err` (138-140).  That happens inside `crossbeam::scope`
(120), which catches it, waits for the threads that were not joined, and only then lets the panic continue.

Simplifications: as in `Verif.Model.Pass`; the times and the memory statistics are in `Verif.Model.PassResult`; a panic's payload is
printed by the panic hook of the thread that panicked (not modelled).
-/
namespace BigO

/-- `BigOIteratorAlgorithmType`, types.rs 40-48 -/
inductive AlgoType
  | setResizing
  | constantSet
  deriving DecidableEq, Repr

/-- its derived `{:?}`, types.rs 40 -/
def AlgoType.debug : AlgoType → String
  | .setResizing => "SetResizing"
  | .constantSet => "ConstantSet"

/-- a call of the closure: the thread, the argument, and whether it panicked -/
structure PCall where
  thread : Nat
  arg : Nat
  panicked : Bool
  deriving DecidableEq, Repr

/-- a thread of the pass: the numbers still to process, `thread_r`, and whether the closure panicked in it -/
structure GTh where
  todo : List Nat
  acc : Nat
  dead : Bool

/-- the thread has ended: it left its loop, or it panicked -/
def GTh.Finished (th : GTh) : Prop := th.todo = [] ∨ th.dead = true

instance (th : GTh) : Decidable th.Finished := by unfold GTh.Finished; infer_instance

/-- the thread that runs the pass -/
inductive MainSt
  /-- it joined the first `j` threads, and `r` is what it computed so far, common.rs 134-145 -/
  | joining (j r : Nat)
  /-- its closure panicked; `crossbeam::scope` waits for the other threads -/
  | unwinding (e : Panic)
  /-- `run_iterator_pass` ended -/
  | ended (out : Rs Nat)

/-- a running pass; `calls` is the history of closure calls -/
structure GPass where
  threads : List GTh
  calls : List PCall
  main : MainSt

/-- all threads spawned, `r` initialised, common.rs 126-134 -/
def GPass.start (p : Profile) (start : Nat) (chunks : List (Nat × Nat)) : GPass :=
  { threads := chunks.map fun c => ⟨threadElems c.1 c.2, c.2, false⟩
    calls := []
    main := match u32Add p start 1 with
      | .ok r => .joining 0 r
      | .error e => .unwinding e }

/-- thread `t` calls the closure once; its result may depend on all calls made so far; if it panics the thread is dead, common.rs
81-117 -/
def GPass.stepThread (f : List PCall → Nat → Rs Nat) (s : GPass) (t : Nat) : GPass :=
  match s.threads[t]? with
  | some ⟨e :: es, acc, false⟩ =>
    match f s.calls e with
    | .ok v => { s with threads := s.threads.set t ⟨es, acc ^^^ v, false⟩, calls := s.calls ++ [⟨t, e, false⟩] }
    | .error _ => { s with threads := s.threads.set t ⟨es, acc, true⟩, calls := s.calls ++ [⟨t, e, true⟩] }
  | _ => s

/-- the text of the panic of common.rs 139; the payload of the thread's panic is a `Box<dyn Any>`, whose `{:?}` is `Any { .. }` -/
def closurePanic (ty : AlgoType) (start stop : Nat) : Panic :=
  .msg ("Panic! while running provided 'algorithm' closure: algo type: " ++ ty.debug ++ ", range: " ++ toString start ++ ".." ++
    toString stop ++ ": Error: Any { .. }")

/-- a step of the thread that runs the pass: joins the next thread if it has ended (136-145), ends if there is none left (168-176), or
lets the panic continue when all threads have ended (`crossbeam::scope`) -/
def GPass.stepMain (ty : AlgoType) (start stop : Nat) (s : GPass) : GPass :=
  match s.main with
  | .joining j r =>
    match s.threads[j]? with
    | none => { s with main := .ended (.ok r) }
    | some th =>
      if th.dead then { s with main := .unwinding (closurePanic ty start stop) }
      else if th.todo = [] then { s with main := .joining (j + 1) (r ^^^ th.acc) }
      else s
  | .unwinding e => if ∀ th ∈ s.threads, th.Finished then { s with main := .ended (.error e) } else s
  | .ended _ => s

/-- who makes a step -/
inductive GAct
  | thread (t : Nat)
  | main

/-- one step -/
def GPass.step (ty : AlgoType) (start stop : Nat) (f : List PCall → Nat → Rs Nat) (s : GPass) : GAct → GPass
  | .thread t => s.stepThread f t
  | .main => s.stepMain ty start stop

/-- a schedule -/
def GPass.run (ty : AlgoType) (start stop : Nat) (f : List PCall → Nat → Rs Nat) (s : GPass) (sched : List GAct) : GPass :=
  sched.foldl (GPass.step ty start stop f) s

end BigO
