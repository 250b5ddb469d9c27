import Verif.Model.Analysis
import Verif.Model.Alloc

/-!
# Model of what a pass reports: time and space

`/repo/src/runners/common.rs` 133-170 (iterator pass), 195-216 (sync pass), 246-274 (async pass), 278-295 (`PassResult`).
-/
namespace BigO

/-- `PassResult`, common.rs 280-283 -/
structure PassResult where
  time : Duration
  space : SpacePass
  deriving DecidableEq, Repr

/-- `PassResult::default()`, common.rs 284-295 -/
def PassResult.default : PassResult := ⟨0, ⟨0, 0, 0, 0⟩⟩

/-- the space measurements of a pass: the save point taken before it and the outcome of `delta_statistics` after it, common.rs
149-166 (the same code again in 198-215 and 251-273) -/
def spaceOfPass (sp : SavePoint) : Except OverflowError Stats → SpacePass
  | .ok st =>
    { usedBefore := sp.metrics .currentUsedMemory
      usedAfter := st .currentUsedMemory
      minUsed := st .minUsedMemory
      maxUsed := st .maxUsedMemory }
  | .error _ => { usedBefore := 0, usedAfter := usizeMax, minUsed := 0, maxUsed := usizeMax }

/-- a pass, as far as the allocator sees it: the save point, everything the process asks of the allocator meanwhile, the delta;
common.rs 195-216 (`run_sync_pass`), 251-273 (`run_async_pass`) and 128-166 (`run_iterator_pass`, whose `body` contains the calls
of its threads in the order in which they took effect) -/
def AllocSys.pass (p : Profile) (N : Nat) (s : AllocSys) (body : List AllocEv) : AllocSys × Outcome SpacePass :=
  match s.savePoint p N with
  | (s1, .panic e) => (s1, .panic e)
  | (s1, .diverges) => (s1, .diverges)
  | (s1, .ok sp) =>
    match (s1.run p N body).delta p N sp with
    | .panic e => (s1.run p N body, .panic e)
    | .diverges => (s1.run p N body, .diverges)
    | .ok d => (s1.run p N body, .ok (spaceOfPass sp d))

open F in
open Classical in
/-- `Duration::from_secs_f64`: panics on NaN, negative and too large numbers; rounds to the nearest nanosecond, an exact half to the
even one (standard library, used by common.rs 147 and types_impl.rs 86-142) -/
noncomputable def fromSecsF64 (x : F) : Rs Duration :=
  match x with
  | fin y => if 0 ≤ y ∧ y < 2 ^ 64 then .ok (halfEven (y * 10 ^ 9)) else .error (.msg "can not convert float seconds to Duration")
  | nzero => .ok 0
  | _ => .error (.msg "can not convert float seconds to Duration")

/-- the sum of `thread_elapsed_seconds / threads` over the joined threads, in `f64`, common.rs 135-143 (durations in nanoseconds) -/
noncomputable def elapsedSecondsAverage (E : FloatEnv) (threads : Nat) (ds : List Duration) : F :=
  ds.foldl (fun acc d => E.addNonneg acc (E.div (asSecsF64 E d) (E.ofNat threads))) (F.fin 0)

/-- the time of an iterator pass, given those of its threads, common.rs 135-147 -/
noncomputable def passTime (E : FloatEnv) (ds : List Duration) : Rs Duration :=
  fromSecsF64 (elapsedSecondsAverage E ds.length ds)

end BigO
