import Verif.Spec.RingConcSpec

/-! # Infinite executions of the ring buffer, and what "the threads keep running" means

`RState.at p N σ n` is a fresh buffer of `N` slots after the first `n` actions of the infinite schedule `σ`. -/
namespace BigO

variable {α : Type} {T : Nat}

/-- the state after `n` actions of an infinite schedule -/
def RState.at (p : Profile) (N : Nat) (σ : Nat → RAct α T) : Nat → RState α T
  | 0 => RState.init α T
  | n + 1 => (RState.at p N σ n).act p N (σ n)

/-- the thread is about to attempt a `compare_exchange_weak` (ring_buffer.rs 70 and 126) -/
def RPc.atCas : RPc α → Prop
  | .enqWritten _ _ => True
  | .deqTail _ _ _ => True
  | _ => False

/-- thread `t` keeps running: it is given infinitely many turns, and if it attempts a compare-exchange infinitely often then
not all of the attempts from some point on fail spuriously -/
structure KeepsRunning (p : Profile) (N : Nat) (σ : Nat → RAct α T) (t : Fin T) : Prop where
  turns : ∀ n, ∃ m, n ≤ m ∧ ∃ sp, σ m = .next t sp
  lucky : (∀ n, ∃ m, n ≤ m ∧ ((RState.at p N σ m).pc t).atCas ∧ ∃ sp, σ m = .next t sp) →
    ∀ n, ∃ m, n ≤ m ∧ ((RState.at p N σ m).pc t).atCas ∧ σ m = .next t false

/-- thread `t` is given no turn from action `n` on -/
def StopsAt (σ : Nat → RAct α T) (t : Fin T) (n : Nat) : Prop := ∀ m, n ≤ m → ∀ sp, σ m ≠ .next t sp

/-- the event is the answer of a `dequeue` on consumer `c` -/
def REv.answersDequeue (c : Nat) : REv α → Prop
  | .deqNone c' => c' = c
  | .deqSome c' _ _ => c' = c
  | .deqErr c' _ => c' = c
  | _ => False

/-- the event is the answer of a `peek_all` on consumer `c` -/
def REv.answersPeek (c : Nat) : REv α → Prop
  | .peekOk c' _ _ _ _ => c' = c
  | .peekErr c' => c' = c
  | _ => False

/-- at every moment at most `N` enqueues are in flight and fewer than 2^32 elements were enqueued -/
structure Sized (p : Profile) (N : Nat) (σ : Nat → RAct α T) : Prop where
  slots : 0 < N
  size : N < 2 ^ 32
  inFlight : ∀ n, (RState.at p N σ n).inFlight ≤ N
  few : ∀ n, (RState.at p N σ n).log.length < 2 ^ 32

end BigO
