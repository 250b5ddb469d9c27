import Verif.Model.PassConc
import Verif.Model.AllocWeak
import Verif.Model.PassResult

/-!
# Passes of several threads, measured by the metrics allocator with the memory orderings written in the code

As `Model/Metered.lean`, where a pass is a sequence of heap calls; here it is any number of threads switching between any two atomic accesses.
-/
namespace BigO

/-- a pass of several threads: the state of the allocator before, what all threads do to it, the state after, the heap calls made in between,
the thread that measures, and the time that is measured -/
structure TPass where
  start : AWeak
  acts : List AAct
  finish : AWeak
  calls : List HeapCall
  thread : Nat
  time : Duration

/-- `run_iterator_pass` common.rs 125-174, `run_sync_pass` 191-221, `run_async_pass` 243-279: what is measured of the pass, if its closures return; the
figures are those of the request made last (`AConc.passSpace`). Simplification: a ring buffer that makes the request panic is a panic of
the pass, with a message of the model (it does not happen before 2^32 save points, C116). -/
def meterThreads {α : Type} (did : Rs (TPass × α)) : Rs (PassResult × α) :=
  match did with
  | .error e => .error e
  | .ok (x, r) =>
    match x.finish.core.passSpace x.start.core.saved.length with
    | some space => .ok (⟨x.time, space⟩, r)
    | none => .error (.msg "the request panicked")

end BigO
