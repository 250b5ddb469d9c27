import Verif.Spec.AllocConcSpec

/-!
# A measured pass with several threads: what its schedule looks like

As in the passes of the library: a thread takes a save point, starts other threads (which may start further ones), all of them allocate
and free, they are joined, and the thread asks for the statistics since the save point.
-/
namespace BigO

/-- only the threads `A`, and those they start, do anything, and they only allocate and free; `.sync u v` is both "`v` starts `u`" and
"`u` joins `v`" -/
def StartedBy : List Nat → List AAct → Prop
  | _, [] => True
  | A, .call u _ :: as => u ∈ A ∧ StartedBy A as
  | A, .step u _ _ :: as => u ∈ A ∧ StartedBy A as
  | A, .sync u v :: as => v ∈ A ∧ StartedBy (u :: A) as
  | _, .save _ :: _ => False
  | _, .delta _ _ :: _ => False

instance : ∀ A as, Decidable (StartedBy A as)
  | _, [] => .isTrue trivial
  | A, .call _ _ :: as => @instDecidableAnd _ _ _ (instDecidableStartedBy A as)
  | A, .step _ _ _ :: as => @instDecidableAnd _ _ _ (instDecidableStartedBy A as)
  | A, .sync u _ :: as => @instDecidableAnd _ _ _ (instDecidableStartedBy (u :: A) as)
  | _, .save _ :: _ => .isFalse id
  | _, .delta _ _ :: _ => .isFalse id

/-- the thread `t` goes through these actions alone, one atomic access after another -/
def Alone (t : Nat) (as : List AAct) : Prop := ∀ a ∈ as, ∃ i ok, a = .step t i ok

/-- everything that was written happened before where thread `t` is now: it can read only the newest values -/
def AConc.UpToDate (s : AConc) (t : Nat) : Prop := ∀ c, (s.th t).view c = (s.loc c).top

/-- a value the used memory had at or after the moment `m` of its modification order -/
def Loc.HadSince (l : Loc) (m v : Nat) : Prop := ∃ i, m ≤ i ∧ i ≤ l.top ∧ l.val i = v

end BigO
