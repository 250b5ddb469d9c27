import Verif.Spec.CallsSpec
import Mathlib.Data.Finset.Basic
import Mathlib.Order.Interval.Finset.Nat

/-!
# A container driven by the closures of a CRUD analysis

The user's closures operate on a set of numbers: `create` adds its argument, `delete` removes it, `read` and `update` look it up,
`reset` empties the set.
-/
namespace BigO

/-- what one call does to the container -/
def keep (S : Finset ℕ) : UCall → Finset ℕ
  | .call _ .create e => insert e S
  | .call _ .delete e => S.erase e
  | .call _ .read _ => S
  | .call _ .update _ => S
  | .reset _ => ∅

/-- what the container holds after some calls, if it held `S` before -/
def heldAfter (S : Finset ℕ) (calls : List UCall) : Finset ℕ := calls.foldl keep S

/-- the call is about an element that is there -- or, for a creation, that is not there yet -/
def Served (S : Finset ℕ) : UCall → Prop
  | .call _ .create e => e ∉ S
  | .call _ _ e => e ∈ S
  | .reset _ => True

/-- a call of a closure in a measured pass -/
def UCall.Measured : UCall → Prop
  | .call ph _ _ => ph ≠ .warmup
  | .reset _ => False

/-- starting with an empty container, every call of the kind meant finds its element (a creation: does not find it) -/
def NeverMisses (which : UCall → Prop) (calls : List UCall) : Prop :=
  ∀ before c after, calls = before ++ c :: after → which c → Served (heldAfter ∅ before) c

/-- the threads of each requested operation also divide its warm-up -/
def EvenWarmup (cfg : CrudCfg) : Prop := ∀ o, 0 < (cfg.op o).iters → (cfg.op o).threads ∣ (cfg.op o).iters * cfg.warmup / 100

/-- no more elements are read, updated or deleted per pass than created -/
def CreatesEnough (cfg : CrudCfg) : Prop := ∀ o, (cfg.op o).iters ≤ (cfg.op .create).iters

end BigO
