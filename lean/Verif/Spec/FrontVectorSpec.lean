import Verif.Spec.CallsSpec

/-!
# A vector whose front is inserted at and removed by the closures of a CRUD analysis

As in the project's own test of the worst case of vectors (/repo/tests/big_o_tests.rs 101-145): `create` computes `most - n` and inserts it at
index 0, `read` and `update` index by `n % len`, `update` stores `n + 1`, `delete` removes index 0, `reset` clears.
-/
namespace BigO

/-- what one call does to the vector, whose index 0 is the head of the list -/
def frontKeep (most : ℕ) (v : List ℕ) : UCall → List ℕ
  | .call _ .create n => (most - n) :: v
  | .call _ .delete _ => v.tail
  | .call _ .read _ => v
  | .call _ .update n => v.set (n % v.length) (n + 1)
  | .reset _ => []

/-- what the vector holds after some calls, if it held `v` before -/
def frontAfter (most : ℕ) (v : List ℕ) (calls : List UCall) : List ℕ := calls.foldl (frontKeep most) v

/-- the call does not panic: the subtraction does not overflow, the remainder has a divisor and the index is in bounds, there is something to
remove -/
def NoPanicAtFront (most : ℕ) (v : List ℕ) : UCall → Prop
  | .call _ .create n => n ≤ most
  | .call _ .read n => v.length ≠ 0 ∧ n % v.length < v.length
  | .call _ .update n => v.length ≠ 0 ∧ n % v.length < v.length
  | .call _ .delete _ => v ≠ []
  | .reset _ => True

/-- starting with the vector `v0`, no call of the kind meant panics -/
def NonePanicsAtFront (most : ℕ) (which : UCall → Prop) (v0 : List ℕ) (calls : List UCall) : Prop :=
  ∀ before c after, calls = before ++ c :: after → which c → NoPanicAtFront most (frontAfter most v0 before) c

end BigO
