import Verif.Spec.AllocConcSpec
import Verif.Spec.Noise
import Verif.Spec.TestSpec

/-!
# A measured algorithm and other threads that use the heap at the same time
-/
namespace BigO

/-- a heap event of a pass: `(true, e)` is the measured algorithm's, `(false, e)` is of something else in the process -/
abbrev MixedEv := Bool × AllocEv

/-- all that happens, as the allocator sees it -/
def whole (l : List MixedEv) : List AllocEv := l.map Prod.snd

/-- what one side does, in its order -/
def side (who : Bool) (l : List MixedEv) : List AllocEv := (l.filter fun e => e.1 = who).map Prod.snd

/-- bytes that a history of heap events adds to the memory in use (negative: gives back) -/
def netOf (es : List AllocEv) : Int := ((callsOf es).map netBytes).sum

/-- the most memory a history has in use, at any of its instants, above what it started with -/
def PeakNeed (need : ℕ) (es : List AllocEv) : Prop := (∃ pr, pr <+: es ∧ netOf pr = need) ∧ ∀ pr, pr <+: es → netOf pr ≤ need

/-- at every instant of the history, the memory in use is at most `d` bytes away from what it started with -/
def SwingAtMost (d : ℕ) (es : List AllocEv) : Prop := ∀ pr, pr <+: es → |netOf pr| ≤ d

/-- how much the cost of adding `n` elements to `n` may ideally grow against adding them to none, under a limit -/
noncomputable def resizingGrowth (n : ℕ) : Complexity → Option ℝ
  | .o1 => some 1
  | .oLogN => some (grows (fun n => Real.logb 2 n) n (n * 3))
  | .oN => some 3
  | _ => none

end BigO
