import Verif.Spec.CallsSpec

/-!
# A vector driven by the closures of a CRUD analysis

As in the project's own test of the best case of vectors (/repo/tests/big_o_tests.rs 64-99): `create` pushes, `delete` pops, `read` and
`update` index by the number given, `reset` clears.
-/
namespace BigO

/-- what one call does to the vector, whose end is the end of the list -/
def vecKeep (v : List ℕ) : UCall → List ℕ
  | .call _ .create e => v ++ [e]
  | .call _ .delete _ => v.dropLast
  | .call _ .read _ => v
  | .call _ .update _ => v
  | .reset _ => []

/-- what the vector holds after some calls, if it held `v` before -/
def vecAfter (v : List ℕ) (calls : List UCall) : List ℕ := calls.foldl vecKeep v

/-- the call does not panic: `v[e]` is in bounds, and there is something to pop -/
def NoPanicOn (v : List ℕ) : UCall → Prop
  | .call _ .create _ => True
  | .call _ .read e => e < v.length
  | .call _ .update e => e < v.length
  | .call _ .delete _ => v ≠ []
  | .reset _ => True

/-- a deletion pops the very number it is given -/
def PopsItsNumber (v : List ℕ) : UCall → Prop
  | .call _ .delete e => v.getLast? = some e
  | _ => True

/-- starting with the vector `v0`, every call of the kind meant is as wanted -/
def EveryCall (wanted : List ℕ → UCall → Prop) (which : UCall → Prop) (v0 : List ℕ) (calls : List UCall) : Prop :=
  ∀ before c after, calls = before ++ c :: after → which c → wanted (vecAfter v0 before) c

end BigO
