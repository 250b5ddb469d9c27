import Verif.Proofs.RingLive
import Verif.Props.RingConc

/-!
# C113: calls on the ring buffer return

`RState.at p N σ n` (`Verif.Spec.RingLiveSpec`) is the state after `n` actions of the infinite schedule `σ`.  C35 and C36 say
that nothing bad happens; this is about something good happening: the loops of `enqueue` and `dequeue` end.
-/
namespace BigO

variable {α : Type} {T : Nat} {p : Profile} {N : Nat} {σ : Nat → RAct α T}

/-- the states of an infinite schedule are those of its finite beginnings -/
theorem at_eq_run (p : Profile) (N : Nat) (σ : Nat → RAct α T) (n : Nat) :
    RState.at p N σ n = (RState.init α T).run p N ((List.range n).map σ) := by
  induction n with
  | zero => rfl
  | succ n ih => rw [RState.at, ih, List.range_succ, List.map_append, run_append]; rfl

/-- C113: at most `N` threads and fewer than 2^32 enqueues are enough for `Sized` -/
theorem C113_enough_slots_suffice (p : Profile) (N : Nat) (hN : 0 < N) (hN32 : N < 2 ^ 32) (hT : T ≤ N) (σ : Nat → RAct α T)
    (hfew : ∀ n, (RState.at p N σ n).log.length < 2 ^ 32) : Sized p N σ :=
  ⟨hN, hN32, fun _ => Nat.le_trans (inFlight_le_threads _) hT, hfew⟩

/-- C113: when all threads keep running, every `enqueue` returns: none starves, however the others' enqueues interleave -/
theorem C113_enqueue_returns (hs : Sized p N σ) (hrun : ∀ u, KeepsRunning p N σ u) (t : Fin T) (n : Nat) (e : α)
    (hidle : (RState.at p N σ n).pc t = .idle) (hcall : σ n = .enqueue t e) :
    ∃ m, n < m ∧ (RState.at p N σ m).pc t = .idle ∧
      REv.enqDone e (RState.at p N σ n).log.length ∈ (RState.at p N σ m).events := by
  have hin : ((RState.at p N σ (n + 1)).pc t).enq? = some (e, (RState.at p N σ n).log.length) := by
    rw [RState.at, hcall, ← (sized_inv hs n).1.res]
    simp [RState.act, hidle, RState.setPc, RPc.enq?]
  obtain ⟨m, hm, h⟩ := enq_returns hs hrun t (n + 1) e _ hin
  exact ⟨m, by omega, h⟩

/-- C113: `dequeue` returns when the calling thread keeps running, whatever the other threads do: they may even have stopped
in the middle of their own calls -/
theorem C113_dequeue_returns (hs : Sized p N σ) (t : Fin T) (hrun : KeepsRunning p N σ t) (n c : Nat)
    (hidle : (RState.at p N σ n).pc t = .idle) (hcall : σ n = .dequeue t c) (hc : c < (RState.at p N σ n).heads.length) :
    ∃ m, n < m ∧ (RState.at p N σ (m + 1)).pc t = .idle ∧
      ∃ x, (RState.at p N σ (m + 1)).events = (RState.at p N σ m).events ++ [x] ∧ x.answersDequeue c := by
  have hin : ((RState.at p N σ (n + 1)).pc t).deqOf c := by
    rw [RState.at, hcall]
    simp [RState.act, hidle, RState.setPc, RPc.deqOf, List.getElem?_eq_getElem hc]
  obtain ⟨m, hm, h⟩ := deq_returns hs t hrun (n + 1) c hin
  exact ⟨m, by omega, h⟩

/-- C113: `peek_all` returns at the calling thread's next turn: it never waits -/
theorem C113_peek_returns (hs : Sized p N σ) (t : Fin T) (n c : Nat) (hidle : (RState.at p N σ n).pc t = .idle)
    (hcall : σ n = .peekAll t c) (hc : c < (RState.at p N σ n).heads.length) (m : Nat) (hm : n < m) (sp : Bool)
    (hturn : σ m = .next t sp) (hfirst : ∀ k, n < k → k < m → ∀ sp, σ k ≠ .next t sp) :
    (RState.at p N σ (m + 1)).pc t = .idle ∧
      ∃ x, (RState.at p N σ (m + 1)).events = (RState.at p N σ m).events ++ [x] ∧ x.answersPeek c := by
  have hin : (RState.at p N σ (n + 1)).pc t = .peekHead c (RState.at p N σ n).heads[c] := by
    rw [RState.at, hcall]
    simp [RState.act, hidle, RState.setPc, List.getElem?_eq_getElem hc]
  have hst := at_stays (p := p) (N := N) (σ := σ) t (n := n + 1) (m := m) (by omega) (by rw [hin]; simp)
    (fun k a b => hfirst k (by omega) b)
  exact peek_turn hs hturn (hst.trans hin)

/-- C113: when all threads keep running, each of them is outside any call again and again: no call lasts for ever -/
theorem C113_every_call_returns (hs : Sized p N σ) (hrun : ∀ u, KeepsRunning p N σ u) (t : Fin T) (n : Nat) :
    ∃ m, n ≤ m ∧ (RState.at p N σ m).pc t = .idle := by
  have hpan := fun q => (show (RState.at p N σ n).pc t ≠ .panicked q from by
    intro h
    have := (sized_inv hs n).2.pcs t
    rw [h] at this
    exact this trivial)
  have henq : ∀ e r, ((RState.at p N σ n).pc t).enq? = some (e, r) → ∃ m, n ≤ m ∧ (RState.at p N σ m).pc t = .idle := by
    intro e r h
    obtain ⟨m, hm, h, _⟩ := enq_returns hs hrun t n e r h
    exact ⟨m, by omega, h⟩
  have hdeq : ∀ c, ((RState.at p N σ n).pc t).deqOf c → ∃ m, n ≤ m ∧ (RState.at p N σ m).pc t = .idle := by
    intro c h
    obtain ⟨m, hm, h, _⟩ := deq_returns hs t (hrun t) n c h
    exact ⟨m + 1, by omega, h⟩
  cases hpc : (RState.at p N σ n).pc t with
  | idle => exact ⟨n, Nat.le_refl _, hpc⟩
  | panicked q => exact (hpan q hpc).elim
  | enqReserved e r => exact henq e r (by rw [hpc]; rfl)
  | enqWritten e r => exact henq e r (by rw [hpc]; rfl)
  | deqHead c h => exact hdeq c (by rw [hpc]; rfl)
  | deqReload c => exact hdeq c (by rw [hpc]; rfl)
  | deqTail c h tl => exact hdeq c (by rw [hpc]; rfl)
  | deqClaimed c h tl => exact hdeq c (by rw [hpc]; rfl)
  | peekHead c h =>
    obtain ⟨m, hm, ⟨sp, hsp⟩, he⟩ := first_turn (p := p) (N := N) t n ((hrun t).turns n) (by rw [hpc]; simp)
    exact ⟨m + 1, by omega, (peek_turn hs hsp (he.trans hpc)).1⟩

/-- C113: so everything enqueued is eventually published, in order, and stays so -/
theorem C113_everything_is_published (hs : Sized p N σ) (hrun : ∀ u, KeepsRunning p N σ u) (n : Nat) :
    ∃ m, n ≤ m ∧ ∀ k, m ≤ k → (RState.at p N σ n).log.length ≤ (RState.at p N σ k).ring.published := by
  cases h : (RState.at p N σ n).log.length with
  | zero => exact ⟨n, Nat.le_refl _, fun _ _ => Nat.zero_le _⟩
  | succ r =>
    obtain ⟨m, hm, hlt⟩ := published_passes hs hrun r n (by omega)
    exact ⟨m, hm, fun k hk => by have := (at_monotone hs hk).1; omega⟩

/-- C113, the limit: `enqueue` is not lock-free. A thread that stops for good inside `enqueue` makes every `enqueue` that
reserved its slot later spin for ever, however often those threads get to run, and nothing they enqueued becomes visible -/
theorem C113_a_stopped_enqueue_blocks_the_later_ones (hs : Sized p N σ) (t : Fin T) (n : Nat) (e : α) (r : Nat)
    (hin : ((RState.at p N σ n).pc t).enq? = some (e, r)) (hstop : StopsAt σ t n) :
    (∀ m, n ≤ m → (RState.at p N σ m).ring.published ≤ r) ∧
    ∀ (u : Fin T) (n' : Nat) (e' : α) (r' : Nat), n ≤ n' → ((RState.at p N σ n').pc u).enq? = some (e', r') → r < r' →
      ∀ m, n' ≤ m → ((RState.at p N σ m).pc u).enq? = some (e', r') := by
  have hb : (RState.at p N σ n).pc t ≠ .idle := by intro h; rw [h] at hin; cases hin
  have hpub : ∀ m, n ≤ m → (RState.at p N σ m).ring.published ≤ r := by
    intro m hm
    have h1 := at_stays (p := p) (N := N) (σ := σ) t hm hb (fun k a _ => hstop k a)
    exact ((sized_inv hs m).1.hold t e r (by rw [h1]; exact hin)).1
  refine ⟨hpub, fun u n' e' r' hn hu hlt m hm => ?_⟩
  induction m, hm using Nat.le_induction with
  | base => exact hu
  | succ m hm ih =>
    by_cases htu : ∃ sp, σ m = .next u sp
    · obtain ⟨sp, hsp⟩ := htu
      rcases enq_turn hs hsp ih with ⟨h, _⟩ | ⟨_, _, h⟩
      · rw [h]; rfl
      · have := hpub (m + 1) (by omega); omega
    · have hbu : (RState.at p N σ m).pc u ≠ .idle := by intro h; rw [h] at ih; cases ih
      rw [RState.at, pc_stays _ u _ hbu (fun sp h => htu ⟨sp, h⟩)]
      exact ih

/-! ## concrete schedules -/

/-- actions that are turns enqueue nothing -/
theorem next_log (s : RState α T) (t : Fin T) (sp : Bool) : (s.act p N (.next t sp)).log = s.log := by
  simp only [RState.act]
  cases s.pc t <;> simp only [RState.nextStep, RState.setPc, RState.emit] <;> repeat (first | rfl | split)

/-- a consumer, two enqueues start, then both threads get turns alternately for ever -/
def roundRobin : Nat → RAct Nat 2
  | 0 => .consumer 0
  | 1 => .enqueue 0 7
  | 2 => .enqueue 1 8
  | n + 3 => .next (if n % 2 = 0 then 1 else 0) false

/-- thread 0 stops inside `enqueue`, thread 1 runs for ever -/
def stopped : Nat → RAct Nat 2
  | 0 => .enqueue 0 7
  | 1 => .enqueue 1 8
  | _ + 2 => .next 1 false

theorem roundRobin_sized : Sized .checked 2 roundRobin := by
  refine C113_enough_slots_suffice _ _ (by decide) (by decide) (by decide) _ (fun n => ?_)
  have : ∀ k, (RState.at .checked 2 roundRobin (k + 3)).log = [7, 8] := by
    intro k
    induction k with
    | zero => rfl
    | succ k ih => rw [RState.at]; exact (next_log _ _ _).trans ih
  match n with
  | 0 => decide
  | 1 => decide
  | 2 => decide
  | k + 3 => rw [this]; decide

theorem roundRobin_runs (u : Fin 2) : KeepsRunning .checked 2 roundRobin u := by
  constructor
  · intro n
    by_cases hu : u = 0
    · exact ⟨2 * n + 1 + 3, by omega, false, by simp [roundRobin, hu]⟩
    · have hu1 : u = 1 := by omega
      exact ⟨2 * n + 3, by omega, false, by simp [roundRobin, hu1]⟩
  · intro h n
    obtain ⟨m, hm, hcas, sp, hsp⟩ := h n
    refine ⟨m, hm, hcas, ?_⟩
    match m, hsp with
    | 0, hsp => cases hsp
    | 1, hsp => cases hsp
    | 2, hsp => cases hsp
    | k + 3, hsp =>
      simp only [roundRobin] at hsp ⊢
      cases hsp; rfl

/-- the hypotheses are met: thread 1, which reserved second and stores first, gets its turn after thread 0 -/
example : ∃ m, 2 < m ∧ (RState.at .checked 2 roundRobin m).pc 1 = .idle ∧
    REv.enqDone 8 1 ∈ (RState.at .checked 2 roundRobin m).events :=
  C113_enqueue_returns roundRobin_sized roundRobin_runs 1 2 8 rfl rfl

example : doneOf (RState.at .checked 2 roundRobin 12).events = [0, 1] := rfl

theorem stopped_sized : Sized .checked 2 stopped := by
  refine C113_enough_slots_suffice _ _ (by decide) (by decide) (by decide) _ (fun n => ?_)
  have : ∀ k, (RState.at .checked 2 stopped (k + 2)).log = [7, 8] := by
    intro k
    induction k with
    | zero => rfl
    | succ k ih => rw [RState.at]; exact (next_log _ _ _).trans ih
  match n with
  | 0 => decide
  | 1 => decide
  | k + 2 => rw [this]; decide

/-- C113, the limit is reached: thread 1 keeps running and its `enqueue` never returns -/
theorem C113_an_enqueue_that_never_returns :
    KeepsRunning .checked 2 stopped 1 ∧ (RState.at .checked 2 stopped 1).pc 1 = .idle ∧ stopped 1 = .enqueue 1 8 ∧
    ∀ m, 1 < m → (RState.at .checked 2 stopped m).pc 1 ≠ .idle := by
  refine ⟨⟨fun n => ⟨n + 2, by omega, false, rfl⟩, fun h n => ?_⟩, rfl, rfl, fun m hm hidle => ?_⟩
  · obtain ⟨m, hm, hcas, sp, hsp⟩ := h n
    refine ⟨m, hm, hcas, ?_⟩
    match m, hsp with
    | 0, hsp => cases hsp
    | 1, hsp => cases hsp
    | k + 2, hsp => rfl
  · have := (C113_a_stopped_enqueue_blocks_the_later_ones stopped_sized 0 2 7 0 rfl (fun k hk sp he => by
      match k, hk with
      | k + 2, _ => simp [stopped] at he)).2 1 2 8 1 (by omega) rfl (by omega) m (by omega)
    rw [hidle] at this
    cases this

/-- thread 0 stops inside `enqueue`, thread 1 calls `dequeue` and then gets turns for ever -/
def stoppedDeq : Nat → RAct Nat 2
  | 0 => .consumer 0
  | 1 => .enqueue 0 7
  | 2 => .dequeue 1 0
  | _ + 3 => .next 1 false

theorem stoppedDeq_sized : Sized .checked 2 stoppedDeq := by
  refine C113_enough_slots_suffice _ _ (by decide) (by decide) (by decide) _ (fun n => ?_)
  have : ∀ k, (RState.at .checked 2 stoppedDeq (k + 3)).log = [7] := by
    intro k
    induction k with
    | zero => rfl
    | succ k ih => rw [RState.at]; exact (next_log _ _ _).trans ih
  match n with
  | 0 => decide
  | 1 => decide
  | 2 => decide
  | k + 3 => rw [this]; decide

/-- the hypotheses of `C113_dequeue_returns` are met although thread 0 has stopped inside `enqueue` -/
example : (∃ m, 2 < m ∧ (RState.at .checked 2 stoppedDeq (m + 1)).pc 1 = .idle ∧
      ∃ x, (RState.at .checked 2 stoppedDeq (m + 1)).events = (RState.at .checked 2 stoppedDeq m).events ++ [x] ∧ x.answersDequeue 0) ∧
    StopsAt stoppedDeq 0 2 := by
  refine ⟨C113_dequeue_returns stoppedDeq_sized 1 ⟨fun n => ⟨n + 3, by omega, false, rfl⟩, fun h n => ?_⟩ 2 0 rfl rfl (by decide), fun k hk sp he => ?_⟩
  · obtain ⟨m, hm, hcas, sp, hsp⟩ := h n
    refine ⟨m, hm, hcas, ?_⟩
    match m, hsp with
    | 0, hsp => cases hsp
    | 1, hsp => cases hsp
    | 2, hsp => cases hsp
    | k + 3, hsp => rfl
  · match k, hk with
    | 2, _ => simp [stoppedDeq] at he
    | k + 3, _ => simp [stoppedDeq] at he

end BigO
