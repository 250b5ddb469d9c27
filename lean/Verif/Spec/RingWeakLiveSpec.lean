import Verif.Spec.RingWeakSpec
import Verif.Spec.RingLiveSpec

/-! # Infinite executions of the ring buffer with the memory orderings of the code -/
namespace BigO

variable {α : Type} {T : Nat}

/-- the state after `n` actions of an infinite schedule -/
def WRing.at (p : Profile) (N : Nat) (σ : Nat → WAct α T) : Nat → WRing α T
  | 0 => WRing.init α T
  | n + 1 => (WRing.at p N σ n).act p N (σ n)

/-- the thread is executing a call -/
def RPc.inside : RPc α → Prop
  | .idle => False
  | .panicked _ => False
  | _ => True

/-- thread `t` may take its next step so: the positions read are not older than what it has seen, and a compare-exchange succeeds only if the
newest value is the expected one -/
def WRing.Possible (N : Nat) (s : WRing α T) (t : Fin T) (i : Nat) (j : Nat → Nat) (ok : Bool) : Prop :=
  match s.pc t with
  | .enqWritten _ r => (ok = true ∧ s.published.last = r) ∨ (ok = false ∧ s.readable t .published s.published.top i = true)
  | .deqHead _ _ => s.readable t .published s.published.top i = true
  | .deqReload c => ∃ l, s.heads[c]? = some l ∧ s.readable t (.head c) l.top i = true
  | .deqTail c h _ => ∃ l, s.heads[c]? = some l ∧ ((ok = true ∧ l.last = h) ∨ (ok = false ∧ s.readable t (.head c) l.top i = true))
  | .deqClaimed _ h _ => s.readable t .reserved s.reserved.top i = true ∧ s.readable t (.slot (h % N)) (s.slot (h % N)).top (j (h % N)) = true
  | .peekHead _ _ => s.readable t .published s.published.top i = true ∧ ∀ k, k < N → s.readable t (.slot k) (s.slot k).top (j k) = true
  | _ => True

/-- the accesses in the loops: the compare-exchange of `enqueue` (line 70), the loads of `published_tail` (118) and of `head` (120), and the
compare-exchange (126) of `dequeue` -/
inductive Access
  | publish
  | tail
  | head
  | claim
  deriving DecidableEq, Repr

/-- the access the thread is about to make -/
def RPc.access : RPc α → Option Access
  | .enqWritten _ _ => some .publish
  | .deqHead _ _ => some .tail
  | .deqReload _ => some .head
  | .deqTail _ _ _ => some .claim
  | _ => none

/-- the step of thread `t` is neither stale nor spurious: a load reads the newest value, a compare-exchange fails only if the newest value is not
the expected one -/
def WRing.Fresh (s : WRing α T) (t : Fin T) (i : Nat) (ok : Bool) : Prop :=
  match s.pc t with
  | .enqWritten _ r => ok = true ∨ (i = s.published.top ∧ s.published.last ≠ r)
  | .deqHead _ _ => i = s.published.top
  | .deqReload c => ∃ l, s.heads[c]? = some l ∧ i = l.top
  | .deqTail c h _ => ok = true ∨ ∃ l, s.heads[c]? = some l ∧ i = l.top ∧ l.last ≠ h
  | _ => True

/-- thread `t` keeps running: while inside a call it is given turns again and again, and of the turns at one kind of access, if there are infinitely
many, infinitely many are neither stale nor spurious (what is written becomes visible) -/
structure KeepsRunningW (p : Profile) (N : Nat) (σ : Nat → WAct α T) (t : Fin T) : Prop where
  turns : ∀ n, ∃ m, n ≤ m ∧ (¬ ((WRing.at p N σ m).pc t).inside ∨ ∃ i j ok, σ m = .next t i j ok ∧ (WRing.at p N σ m).Possible N t i j ok)
  fresh : ∀ a : Access,
    (∀ n, ∃ m, n ≤ m ∧ ((WRing.at p N σ m).pc t).access = some a ∧ ∃ i j ok, σ m = .next t i j ok ∧ (WRing.at p N σ m).Possible N t i j ok) →
    ∀ n, ∃ m, n ≤ m ∧ ((WRing.at p N σ m).pc t).access = some a ∧ ∃ i j ok, σ m = .next t i j ok ∧
      (WRing.at p N σ m).Possible N t i j ok ∧ (WRing.at p N σ m).Fresh t i ok

/-- at every moment at most `N` enqueues are in flight and fewer than 2^32 elements were enqueued -/
structure SizedW (p : Profile) (N : Nat) (σ : Nat → WAct α T) : Prop where
  slots : 0 < N
  inFlight : ∀ n, (WRing.at p N σ n).newest.inFlight ≤ N
  few : ∀ n, (WRing.at p N σ n).log.length < 2 ^ 32

/-- thread `t` is given no turn from action `n` on -/
def StopsAtW (σ : Nat → WAct α T) (t : Fin T) (n : Nat) : Prop := ∀ m, n ≤ m → ∀ i j ok, σ m ≠ .next t i j ok

end BigO
