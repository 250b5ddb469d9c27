import Verif.Model.PassResult

/-!
# Passes measured by the metrics allocator

The runners' models take what is measured of a pass from an arbitrary oracle. Here the oracle is refined: what is measured of the space is
what the model of the allocator answers, given everything the process asked of it before and during the pass.
-/
namespace BigO

/-- what happens during a pass: what the whole process asks of the allocator, in the order in which it took effect, and the time that is
measured -/
structure Deed where
  heap : List AllocEv
  time : Duration

/-- `run_sync_pass`, common.rs 191-221, `run_async_pass` 243-279 and `run_iterator_pass` 125-174: the save point, the closure (which may
panic), the delta. `before` is what the process asked of the allocator before. Simplification: a ring buffer that makes a call hang is a panic
here (it does not happen before 2^32 save points, C37). -/
def meter {α : Type} (p : Profile) (N : Nat) (before : List AllocEv) (did : Rs (Deed × α)) : Rs (PassResult × α) :=
  match did with
  | .error e => .error e
  | .ok (d, r) =>
    match ((AllocSys.new.run p N before).pass p N d.heap).2 with
    | .ok space => .ok (⟨d.time, space⟩, r)
    | .panic e => .error e
    | .diverges => .error (.msg "the ring buffer hangs")

end BigO
