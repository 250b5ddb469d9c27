import Verif.Model.RingConc
import Mathlib.Data.Fintype.Card

/-! # Observations on a concurrent execution of the ring buffer -/
namespace BigO

variable {α : Type}

/-- element and position of the `enqueue` call a thread is in, if any -/
def RPc.enq? : RPc α → Option (α × Nat)
  | .enqReserved e r => some (e, r)
  | .enqWritten e r => some (e, r)
  | _ => none

/-- number of `enqueue` calls in flight -/
def RState.inFlight {T : Nat} (s : RState α T) : Nat := (Finset.univ.filter fun t => (s.pc t).enq?.isSome = true).card

/-- positions claimed by `dequeue` calls on consumer `c`, in the order of the claims -/
def claimsOf (c : Nat) : List (REv α) → List Nat
  | [] => []
  | .claim c' h :: es => if c' = c then h :: claimsOf c es else claimsOf c es
  | _ :: es => claimsOf c es

/-- positions for which a `dequeue` call on `c` returned a value or the error -/
def resultsOf (c : Nat) : List (REv α) → List Nat
  | [] => []
  | .deqSome c' h _ :: es => if c' = c then h :: resultsOf c es else resultsOf c es
  | .deqErr c' h :: es => if c' = c then h :: resultsOf c es else resultsOf c es
  | _ :: es => resultsOf c es

/-- positions of completed `enqueue` calls, in the order of completion -/
def doneOf : List (REv α) → List Nat
  | [] => []
  | .enqDone _ r :: es => r :: doneOf es
  | _ :: es => doneOf es

end BigO
