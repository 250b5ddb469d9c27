import Mathlib.Algebra.BigOperators.Group.Finset.Defs
import Mathlib.Algebra.Order.Group.Abs
import Mathlib.Data.Finset.Erase
import Mathlib.Algebra.Order.Ring.Int
import Verif.Spec.PassThreadsSpec

/-!
# A measured algorithm among other threads, atomic access by atomic access
-/
namespace BigO

/-- the heap calls of thread `u`, in its order -/
def heapCallsBy (u : Nat) : List AAct → List HeapCall
  | [] => []
  | .call t c :: as => if t = u then c :: heapCallsBy u as else heapCallsBy u as
  | _ :: as => heapCallsBy u as

/-- bytes that heap calls add to the memory in use (negative: give back) -/
def netCalls (cs : List HeapCall) : Int := (cs.map netBytes).sum

/-- the most memory these calls have in use, after any number of them, above what they started with -/
def CallsPeak (need : Nat) (cs : List HeapCall) : Prop := (∃ pr, pr <+: cs ∧ netCalls pr = need) ∧ ∀ pr, pr <+: cs → netCalls pr ≤ need

/-- after any number of these calls, the memory in use is at most `d` bytes away from what it was -/
def CallsSwing (d : Nat) (cs : List HeapCall) : Prop := ∀ pr, pr <+: cs → |netCalls pr| ≤ d

/-- the call is not a resize to the same size -/
def Moves (c : HeapCall) : Prop := ∀ n ok, c ≠ .realloc n n ok

/-- threads only allocate and free, and start, join or wait for each other in any way -/
def OnlyHeap (as : List AAct) : Prop :=
  ∀ x ∈ as, (∃ u c, x = .call u c) ∨ (∃ u v, x = .sync u v) ∨ ∃ u i ok, x = .step u i ok

/-- a pass measured by thread `t` that leads from `s1` to `s4` while other threads, not synchronised with `t`, use the heap too: nothing is
going on and `t` has seen everything; `t` takes a save point; `t` and any other threads allocate and free (`mid`); `t` asks for the
statistics since the save point, the others being anywhere, in the middle of a call too -/
structure DisturbedPass (t : Nat) (s1 s4 : AConc) (mid : List AAct) : Prop where
  quiet : s1.Quiescent
  fresh : s1.UpToDate t
  heap : OnlyHeap mid
  run : ∃ save req s2 s3, s1.sched (.save t :: save) = some s2 ∧ Alone t save ∧ (s2.th t).pc = .idle ∧
    s2.sched mid = some s3 ∧ s3.sched (.delta t s1.saved.length :: req) = some s4 ∧ Alone t req ∧ (s4.th t).pc = .idle

/-- in `mid`, thread `t` needs at most `need` bytes, and of the other threads (their numbers are below `n`) each swings by some number of
bytes, all of them together by `D`; no resize to the same size by them; with `used` bytes in use at the start, `D` less than what `t` has
in use is never below zero, and `D` more than `t` needs never too much -/
structure Disturbance (t n need D used : Nat) (mid : List AAct) : Prop where
  here : t < n
  threads : ∀ x ∈ mid, x.tid < n
  needs : CallsPeak need (heapCallsBy t mid)
  swings : ∃ d : Nat → Nat, (∀ u, u ≠ t → CallsSwing (d u) (heapCallsBy u mid)) ∧ ∑ u ∈ (Finset.range n).erase t, d u = D
  moves : ∀ u, u ≠ t → ∀ c ∈ heapCallsBy u mid, Moves c
  low : ∀ pr, pr <+: heapCallsBy t mid → (D : Int) ≤ used + netCalls pr
  high : used + need + D < 2 ^ 64

end BigO
