import Verif.Model.AllocWeak
import Verif.Spec.AllocRingSpec
import Verif.Spec.PassThreadsSpec

/-!
# Save points and requests made one after another

Threads allocate and free at any time.  Save points and requests for statistics are made by one thread at a time, and each happens after
the one before: it is made by the same thread, or by one that has synchronised with it since (was started by it, joined it, took the lock
it released, ...).
-/
namespace BigO

/-- in a call of `save_point` or `delta_statistics` (and not outside the allocator or in a heap call) -/
def APc.measures : APc → Bool
  | .idle => false
  | .rmw _ => false
  | .loadCur => false
  | .loadMin _ => false
  | .casMin _ _ => false
  | .loadMax _ => false
  | .casMax _ _ => false
  | _ => true

/-- thread `t` is in a call of `save_point` or `delta_statistics` -/
def AConc.Measures (s : AConc) (t : Nat) : Prop := (s.th t).pc.measures = true

/-- whose turn it can be: the threads that come after every save point and request made so far -/
def turns (s : AConc) (ready : Nat → Prop) : AAct → (Nat → Prop)
  -- after this call come only those that synchronise with the thread making it
  | .save t => fun u => u = t
  | .delta t _ => fun u => u = t
  -- `t` is started by or joins `v`, or otherwise waits for it, `v` not being in the middle of such a call
  | .sync t v => fun u => ready u ∨ (u = t ∧ ready v ∧ ¬ s.Measures v)
  | _ => ready

/-- a save point or request is only made by a thread whose turn it is, when no other thread is in one -/
def mayAct (s : AConc) (ready : Nat → Prop) : AAct → Prop
  | .save t => ready t ∧ ∀ u, ¬ s.Measures u
  | .delta t _ => ready t ∧ ∀ u, ¬ s.Measures u
  | _ => True

/-- save points and requests are made one after another in this execution -/
def OneAfterAnother : (Nat → Prop) → AWeak → List AAct → Prop
  | _, _, [] => True
  | ready, s, a :: as => mayAct s.core ready a ∧ ∀ s', s.act a = some s' → OneAfterAnother (turns s.core ready a) s' as

/-- at the start it can be any thread's turn -/
def anyone : Nat → Prop := fun _ => True

/-- only thread `t` takes save points and asks for statistics -/
def OnlyMeasurer (t : Nat) (acts : List AAct) : Prop := ∀ a ∈ acts, (∀ u, a = .save u → u = t) ∧ (∀ u k, a = .delta u k → u = t)

/-- thread `t` panicked in a ring operation -/
def AWeak.Panicked (s : AWeak) (t : Nat) : Prop := ∃ e, s.rpc t = .panicked e

/-- a pass measured by thread `t` that leads from `w1` to `w4` by these actions, as `MeasuredPass`, but threads may switch between any two
atomic accesses and read stale values, those of the ring buffer included -/
structure WeakPass (t : Nat) (w1 : AWeak) (acts : List AAct) (w4 : AWeak) (calls : List HeapCall) : Prop where
  quiet : w1.core.Quiescent
  fresh : w1.core.UpToDate t
  run : ∃ save mid req w2 w3, acts = (.save t :: save) ++ (mid ++ (.delta t w1.core.saved.length :: req)) ∧
    w1.sched (.save t :: save) = some w2 ∧ Alone t save ∧ (w2.core.th t).pc = .idle ∧
    w2.sched mid = some w3 ∧ StartedBy [t] mid ∧ callsIn mid = calls ∧ w3.core.Quiescent ∧ w3.core.UpToDate t ∧
    w3.sched (.delta t w1.core.saved.length :: req) = some w4 ∧ Alone t req ∧ (w4.core.th t).pc = .idle
  room : ∀ k ∈ deltaCtrs, (w1.core.loc k).last + (calls.map (contribution k)).sum < 2 ^ 64

end BigO
