import Verif.Spec.AllocRingSpec

/-! # Infinite executions of the metrics allocator, and what "a thread keeps running" means -/
namespace BigO

/-- `st` are the states of the infinite schedule `σ`, from a new allocator whose statistics are `s0` -/
structure FRun (p : Profile) (N : Nat) (s0 : Stats) (σ : Nat → AAct) (st : Nat → AFine) : Prop where
  start : st 0 = AFine.init p N s0
  acts : ∀ n, (st n).act (σ n) = some (st (n + 1))

/-- thread `t` is about to attempt a `compare_exchange_weak`: metrics_allocator.rs 245 and 255, ring_buffer.rs 70 -/
def AFine.AtCas (f : AFine) (t : Nat) : Prop :=
  (∃ x r, f.rpc t = .written x r) ∨
  (f.rpc t = .out ∧ ((∃ cur mn, (f.core.th t).pc = .casMin cur mn) ∨ ∃ cur mx, (f.core.th t).pc = .casMax cur mx))

/-- the attempt (succeeding iff `ok`, else reading position `i`) is neither spurious nor stale: it succeeds, or the newest value is not the
expected one, and is the one it reads -/
def AFine.Genuine (f : AFine) (t i : Nat) (ok : Bool) : Prop :=
  ok = true ∨
  (∃ x r, f.rpc t = .written x r ∧ f.ring.published ≠ r) ∨
  (∃ cur mn, f.rpc t = .out ∧ (f.core.th t).pc = .casMin cur mn ∧ i = (f.core.loc .minUsedMemory).top ∧ (f.core.loc .minUsedMemory).last ≠ mn) ∨
  (∃ cur mx, f.rpc t = .out ∧ (f.core.th t).pc = .casMax cur mx ∧ i = (f.core.loc .maxUsedMemory).top ∧ (f.core.loc .maxUsedMemory).last ≠ mx)

/-- thread `t` keeps running: while it is inside the allocator it is given turns again and again, and if it attempts a compare-exchange
infinitely often then infinitely many of the attempts are genuine -/
structure KeepsGoing (σ : Nat → AAct) (st : Nat → AFine) (t : Nat) : Prop where
  turns : ∀ n, ∃ m, n ≤ m ∧ (((st m).core.th t).pc = .idle ∨ ∃ i ok, σ m = .step t i ok)
  genuine : (∀ n, ∃ m, n ≤ m ∧ (st m).AtCas t ∧ ∃ i ok, σ m = .step t i ok) →
    ∀ n, ∃ m, n ≤ m ∧ (st m).AtCas t ∧ ∃ i ok, σ m = .step t i ok ∧ (st m).Genuine t i ok

end BigO
