import Verif.Model.AllocRing
import Verif.Spec.AllocPassSpec

/-!
# The metrics allocator with the ring buffer's own steps: what is expected of it
-/
namespace BigO

/-- `as'` is `as` without some of the atomic accesses: the same calls are entered, in the same order -/
inductive Skips : List AAct → List AAct → Prop
  | nil : Skips [] []
  | keep (a : AAct) {as' as : List AAct} (h : Skips as' as) : Skips (a :: as') (a :: as)
  | skip (t i : Nat) (ok : Bool) {as' as : List AAct} (h : Skips as' as) : Skips as' (.step t i ok :: as)

/-- two views of the statistics agree: the values they had, what each thread has seen of them, the save points, how each request for
statistics ended, which calls were made and which threads are outside the allocator -/
structure SameStatistics (c s : AConc) : Prop where
  loc : c.loc = s.loc
  views : ∀ t, (c.th t).view = (s.th t).view
  saved : c.saved = s.saved
  results : c.results = s.results
  started : c.started = s.started
  idle : ∀ t, (c.th t).pc = .idle ↔ (s.th t).pc = .idle

/-- thread `t` still has to read slots for its request for the statistics since save point `sp` -/
def AFine.StillReads (f : AFine) (t : Nat) (sp : CSave) : Prop :=
  ∃ k mn mx q rest, f.rpc t = .reading k mn mx (q :: rest) ∧ f.core.saved[k]? = some sp

/-- at all times of the execution: while a thread reads slots for a request, at most the ring's size of slots were reserved since its save
point -/
def NeverOverrun (f : AFine) (acts : List AAct) : Prop :=
  ∀ pre post g, acts = pre ++ post → f.sched pre = some g → ∀ t sp, g.StillReads t sp → g.begun ≤ sp.head + g.core.size

/-- thread `t` has reserved a place in the ring buffer for its save point, the `r`-th (from 0), and not published it -/
def AFine.Enqueues (f : AFine) (t r : Nat) : Prop := ∃ x, f.rpc t = .reserved x r ∨ f.rpc t = .written x r

/-- thread `t` panicked in a ring operation -/
def AFine.Panicked (f : AFine) (t : Nat) : Prop := ∃ e, f.rpc t = .panicked e

end BigO
