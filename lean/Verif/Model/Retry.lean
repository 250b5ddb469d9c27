import Verif.Model.Rust

/-!
# Computations that log events, and the retry library

`keen_retry` 0.5 (`/repo/Cargo.toml` 45) is an external crate; its code is not in `/repo`.  `retryWith` is its documented
behaviour for `first.retry_with(f).with_delays(delays)` and `retry_with_async`, as used in
`/repo/src/runners/standard.rs` 41-43 and `/repo/src/api/builders/regular_async_builder.rs` 63-68: a first result that is not
transient is final; otherwise, for each delay, it sleeps and tries again with the input that the last transient failure gave
back, until a result is not transient or there are no more delays.
-/
namespace BigO

/-- a computation that may panic and logs events -/
def P (ε α : Type) := List ε → Rs α × List ε

/-- sequencing -/
def P.andThen {ε α β : Type} (m : P ε α) (f : α → P ε β) : P ε β := fun t =>
  match m t with
  | (.ok a, t') => f a t'
  | (.error e, t') => (.error e, t')

instance {ε : Type} : Monad (P ε) where
  pure a := fun t => (.ok a, t)
  bind := P.andThen

/-- logs an event -/
def P.log {ε : Type} (e : ε) : P ε Unit := fun t => (.ok (), t ++ [e])

/-- may panic -/
def P.lift {ε α : Type} (x : Rs α) : P ε α := fun t => (x, t)

/-- `keen_retry::RetryResult` (without the output of a success) -/
inductive RetryResult (I : Type)
  | ok
  | transient (input : I) (error : String)
  | fatal (error : String)

/-- `keen_retry::ResolvedResult` (only the errors) -/
inductive ResolvedResult
  | ok
  | fatal (error : String)
  | recovered (retryErrors : List String)
  | givenUp (retryErrors : List String) (fatalError : String)
  | unrecoverable (retryErrors : List String) (fatalError : String)
  deriving DecidableEq, Repr

/-- the loop over the delays; `errs` and `e` are the transient errors so far and the last one -/
def retryLoop {ε I : Type} (sleep : ε) (attempt : I → P ε (RetryResult I)) : Nat → I → List String → String → P ε ResolvedResult
  | 0, _, errs, e => pure (.givenUp errs e)
  | n + 1, i, errs, e => do
    P.log sleep
    match ← attempt i with
    | .ok => pure (.recovered (errs ++ [e]))
    | .fatal e' => pure (.unrecoverable (errs ++ [e]) e')
    | .transient i' e' => retryLoop sleep attempt n i' (errs ++ [e]) e'

/-- `first.retry_with(attempt).with_delays(<n delays>)` -/
def retryWith {ε I : Type} (sleep : ε) (first : P ε (RetryResult I)) (attempt : I → P ε (RetryResult I)) (n : Nat) :
    P ε ResolvedResult := do
  match ← first with
  | .ok => pure .ok
  | .fatal e => pure (.fatal e)
  | .transient i e => retryLoop sleep attempt n i [] e

/-- the end of `test_algorithm`, standard.rs 44-53 and regular_async_builder.rs 70-79: panics unless the result is a success.
`errors` is `loggable_retry_errors`. -/
def resolveOrPanic {ε : Type} (errors : List String → String) (max : Nat) : ResolvedResult → P ε Unit
  | .ok => pure ()
  | .recovered _ => pure ()
  | .fatal e => P.lift (.error (.msg e))
  | .givenUp errs e =>
    P.lift (.error (.msg ("Given up with '" ++ e ++ "' after " ++ toString max ++ " attempts. Previous transient errors: " ++ errors errs)))
  | .unrecoverable errs e =>
    P.lift (.error (.msg ("Stopped after retrying for " ++ toString max ++ " attempts due to the fatal outcome '" ++ e ++
      "'. Previous transient errors: " ++ errors errs)))

end BigO
