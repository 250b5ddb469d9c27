import Verif.Proofs.RingWeakLive
import Verif.Props.RingWeak

/-!
# C115: calls on the ring buffer end with the memory orderings written in the code

As C113, but on the model of `Verif.Model.RingWeak`: loads may return old values, threads see each other's writes late, compare-exchanges fail
spuriously.  `WRing.at p N σ n` (`Verif.Spec.RingWeakLiveSpec`) is the state after `n` actions of the infinite schedule `σ`.
-/
namespace BigO

variable {α : Type} {T : Nat} {p : Profile} {N : Nat} {σ : Nat → WAct α T}

/-- the states of an infinite schedule are those of its finite beginnings -/
theorem wat_eq_run (p : Profile) (N : Nat) (σ : Nat → WAct α T) (n : Nat) :
    WRing.at p N σ n = (WRing.init α T).run p N ((List.range n).map σ) := by
  induction n with
  | zero => rfl
  | succ n ih => rw [WRing.at, ih, List.range_succ, List.map_append]; simp [WRing.run]

/-- C115: at most `N` threads and fewer than 2^32 enqueues are enough for `SizedW` -/
theorem C115_enough_slots_suffice (p : Profile) (N : Nat) (hN : 0 < N) (hT : T ≤ N) (σ : Nat → WAct α T)
    (hfew : ∀ n, (WRing.at p N σ n).log.length < 2 ^ 32) : SizedW p N σ :=
  ⟨hN, fun _ => Nat.le_trans (inFlight_le_threads _) hT, hfew⟩

/-- C115: when all threads keep running, every `enqueue` returns -/
theorem C115_enqueue_returns (hs : SizedW p N σ) (hrun : ∀ u, KeepsRunningW p N σ u) (t : Fin T) (n : Nat) (e : α)
    (hidle : (WRing.at p N σ n).pc t = .idle) (hcall : σ n = .enqueue t e) :
    ∃ m, n < m ∧ (WRing.at p N σ m).pc t = .idle ∧
      REv.enqDone e (WRing.at p N σ n).log.length ∈ (WRing.at p N σ m).events := by
  have hin : ((WRing.at p N σ (n + 1)).pc t).enq? = some (e, (WRing.at p N σ n).log.length) := by
    have hres : (WRing.at p N σ n).reserved.last = (WRing.at p N σ n).log.length := (sizedW_inv hs n).prod.res
    rw [WRing.at, hcall, ← hres]
    simp [WRing.act, hidle, WRing.setPc, RPc.enq?]
  obtain ⟨m, hm, h⟩ := wenq_returns hs hrun t (n + 1) e _ hin
  exact ⟨m, by omega, h⟩

/-- a started `dequeue` -/
theorem wdeq_started {n c i : Nat} {t : Fin T} (hidle : (WRing.at p N σ n).pc t = .idle) (hcall : σ n = .dequeue t c i)
    (hstart : (WRing.at p N σ (n + 1)).pc t ≠ .idle) :
    ((WRing.at p N σ (n + 1)).pc t).deqOf c ∧ ∃ l, (WRing.at p N σ (n + 1)).heads[c]? = some l := by
  rw [WRing.at, hcall] at hstart ⊢
  simp only [WRing.act] at hstart ⊢
  split at hstart
  · rename_i l v h1 h2 h3
    split at hstart
    · rename_i hr
      simp only [hr, if_true]
      exact ⟨by simp [WRing.setPc, RPc.deqOf], l, h2⟩
    · exact (hstart hidle).elim
  · exact (hstart hidle).elim

/-- C115: `dequeue` ends when the calling thread keeps running, whatever the other threads do; it may wait for a late `published_tail` (C90), but not
for ever. In builds with overflow checks it may end with a panic (C90) -/
theorem C115_dequeue_ends (hs : SizedW p N σ) (t : Fin T) (hrun : KeepsRunningW p N σ t) (n c i : Nat)
    (hidle : (WRing.at p N σ n).pc t = .idle) (hcall : σ n = .dequeue t c i) (hstart : (WRing.at p N σ (n + 1)).pc t ≠ .idle) :
    ∃ m, n < m ∧ (((WRing.at p N σ (m + 1)).pc t = .idle ∧
      ∃ x, (WRing.at p N σ (m + 1)).events = (WRing.at p N σ m).events ++ [x] ∧ x.answersDequeue c) ∨
      (p = .checked ∧ ∃ q, (WRing.at p N σ (m + 1)).pc t = .panicked q)) := by
  obtain ⟨h1, h2⟩ := wdeq_started hidle hcall hstart
  obtain ⟨m, hm, h⟩ := wdeq_ends hs t hrun (n + 1) c h1 h2
  exact ⟨m, by omega, h⟩

/-- C115: without overflow checks (release builds) `dequeue` returns -/
theorem C115_dequeue_returns (hs : SizedW .wrapping N σ) (t : Fin T) (hrun : KeepsRunningW .wrapping N σ t) (n c i : Nat)
    (hidle : (WRing.at .wrapping N σ n).pc t = .idle) (hcall : σ n = .dequeue t c i)
    (hstart : (WRing.at .wrapping N σ (n + 1)).pc t ≠ .idle) :
    ∃ m, n < m ∧ (WRing.at .wrapping N σ (m + 1)).pc t = .idle ∧
      ∃ x, (WRing.at .wrapping N σ (m + 1)).events = (WRing.at .wrapping N σ m).events ++ [x] ∧ x.answersDequeue c := by
  obtain ⟨m, hm, h | h⟩ := C115_dequeue_ends hs t hrun n c i hidle hcall hstart
  · exact ⟨m, hm, h⟩
  · cases h.1

/-- C115: `peek_all` ends at the calling thread's next step: it never waits (it may panic, C90) -/
theorem C115_peek_ends (p : Profile) (N : Nat) (s : WRing α T) (t : Fin T) (c h : Nat) (hpc : s.pc t = .peekHead c h) (i : Nat) (j : Nat → Nat)
    (ok : Bool) (hpos : s.Possible N t i j ok) :
    ((s.act p N (.next t i j ok)).pc t = .idle ∧
      ∃ x, (s.act p N (.next t i j ok)).events = s.events ++ [x] ∧ x.answersPeek c) ∨
    ∃ q, (s.act p N (.next t i j ok)).pc t = .panicked q :=
  wpeek_step t hpc i j ok hpos

/-- C115: so everything enqueued is eventually published, in order, and stays so -/
theorem C115_everything_is_published (hs : SizedW p N σ) (hrun : ∀ u, KeepsRunningW p N σ u) (n : Nat) :
    ∃ m, n ≤ m ∧ ∀ k, m ≤ k → (WRing.at p N σ n).log.length ≤ (WRing.at p N σ k).published.last := by
  cases h : (WRing.at p N σ n).log.length with
  | zero => exact ⟨n, Nat.le_refl _, fun _ _ => Nat.zero_le _⟩
  | succ r =>
    obtain ⟨m, hm, hlt⟩ := wpublished_passes hs hrun r n (by omega)
    refine ⟨m, hm, fun k hk => ?_⟩
    have h1 := (wat_frame hs hk).pub
    have h2 : (WRing.at p N σ m).published.last = _ := (sizedW_inv hs m).pub _ (Nat.le_refl _)
    have h3 : (WRing.at p N σ k).published.last = _ := (sizedW_inv hs k).pub _ (Nat.le_refl _)
    omega

/-- C115: when all threads keep running, each of them is outside any call again and again (or panicked, C90): no call lasts for ever -/
theorem C115_no_call_lasts (hs : SizedW p N σ) (hrun : ∀ u, KeepsRunningW p N σ u) (t : Fin T) (n : Nat) :
    ∃ m, n ≤ m ∧ ¬ ((WRing.at p N σ m).pc t).inside := by
  by_contra hcon
  have hin : ∀ m, n ≤ m → ((WRing.at p N σ m).pc t).inside := fun m hm => by
    by_contra h; exact hcon ⟨m, hm, h⟩
  obtain ⟨m, hm, h⟩ := (hrun t).turns n
  obtain ⟨i, j, ok, hσ, hpos⟩ := h.resolve_left (fun h => h (hin m hm))
  have hme := (sizedW_inv hs m).cons.pcs t
  change ((WRing.at p N σ m).pc t).ok False (WRing.at p N σ m).newest at hme
  have henq : ∀ e r, ((WRing.at p N σ m).pc t).enq? = some (e, r) → False := by
    intro e r h
    obtain ⟨k, hk, h1, _⟩ := wenq_returns hs hrun t m e r h
    have := hin k (by omega)
    rw [h1] at this; exact this
  have hdeq : ∀ c, ((WRing.at p N σ m).pc t).deqOf c → (∃ l, (WRing.at p N σ m).heads[c]? = some l) → False := by
    intro c h hex
    obtain ⟨k, hk, ⟨h1, _⟩ | ⟨_, q, h1⟩⟩ := wdeq_ends hs t (hrun t) m c h hex
    all_goals
      have := hin (k + 1) (by omega)
      rw [h1] at this; exact this
  have hcell : ∀ (c h : Nat), (WRing.at p N σ m).newest.heads[c]? = some h → ∃ l, (WRing.at p N σ m).heads[c]? = some l := by
    intro c h hh
    cases hl : (WRing.at p N σ m).heads[c]? with
    | some l => exact ⟨l, rfl⟩
    | none => simp [WRing.newest, hl] at hh
  cases hpc : (WRing.at p N σ m).pc t with
  | idle => exact hcon ⟨m, hm, by rw [hpc]; exact id⟩
  | panicked q => exact hcon ⟨m, hm, by rw [hpc]; exact id⟩
  | enqReserved e r => exact henq e r (by rw [hpc]; rfl)
  | enqWritten e r => exact henq e r (by rw [hpc]; rfl)
  | deqHead c h =>
    rw [hpc] at hme
    obtain ⟨hh, a, _⟩ := hme
    exact hdeq c (by rw [hpc]; rfl) (hcell c hh a)
  | deqReload c =>
    unfold WRing.Possible at hpos
    rw [hpc] at hpos
    obtain ⟨l, hl, _⟩ := hpos
    exact hdeq c (by rw [hpc]; rfl) ⟨l, hl⟩
  | deqTail c h tl =>
    rw [hpc] at hme
    obtain ⟨_, _, hh, a, _⟩ := hme
    exact hdeq c (by rw [hpc]; rfl) (hcell c hh a)
  | deqClaimed c h tl =>
    rw [hpc] at hme
    obtain ⟨_, _, ⟨hh, a, _⟩, _⟩ := hme
    exact hdeq c (by rw [hpc]; rfl) (hcell c hh a)
  | peekHead c h =>
    have h1 := hin (m + 1) (by omega)
    rw [WRing.at, hσ] at h1
    rcases wpeek_step (p := p) t hpc i j ok hpos with ⟨h2, _⟩ | ⟨q, h2⟩ <;> rw [h2] at h1 <;> exact h1

/-- C115, the limit: a thread that stops for good inside `enqueue` makes every `enqueue` that reserved its slot later spin for ever -/
theorem C115_a_stopped_enqueue_blocks_the_later_ones (hs : SizedW p N σ) (t : Fin T) (n : Nat) (e : α) (r : Nat)
    (hin : ((WRing.at p N σ n).pc t).enq? = some (e, r)) (hstop : StopsAtW σ t n) :
    (∀ m, n ≤ m → (WRing.at p N σ m).published.last ≤ r) ∧
    ∀ (u : Fin T) (n' : Nat) (e' : α) (r' : Nat), n ≤ n' → ((WRing.at p N σ n').pc u).enq? = some (e', r') → r < r' →
      ∀ m, n' ≤ m → ((WRing.at p N σ m).pc u).enq? = some (e', r') := by
  have hpub : ∀ m, n ≤ m → (WRing.at p N σ m).published.last ≤ r := by
    intro m hm
    have hst : ((WRing.at p N σ m).pc t).enq? = some (e, r) := by
      induction m, hm using Nat.le_induction with
      | base => exact hin
      | succ m hm ih =>
        rw [WRing.at, wpc_stays _ t _ (by intro h; rw [h] at ih; cases ih) (hstop m hm)]
        exact ih
    exact ((sizedW_inv hs m).prod.hold t e r hst).1
  refine ⟨hpub, fun u n' e' r' hn hu hlt m hm => ?_⟩
  induction m, hm using Nat.le_induction with
  | base => exact hu
  | succ m hm ih =>
    by_cases htu : ∃ i j ok, σ m = .next u i j ok
    · obtain ⟨i, j, ok, hsp⟩ := htu
      have h1 := hpub (m + 1) (by omega)
      rw [WRing.at, hsp] at h1 ⊢
      rcases wenq_step (p := p) hs.slots (sizedW_inv hs m) (hs.few m) u ih i j ok with ⟨h, _⟩ | ⟨_, _, h⟩
      · rw [h]; rfl
      · omega
    · rw [WRing.at, wpc_stays _ u _ (by intro h; rw [h] at ih; cases ih) (fun i j ok h => htu ⟨i, j, ok, h⟩)]
      exact ih

/-! ## a concrete schedule -/

/-- thread 0 makes a consumer, enqueues and dequeues 7; thread 1 dequeues, reading a `published_tail` older than the head it knows, so that it has
to try again; then nothing happens for ever -/
def lateDemo : List (WAct Nat 2) :=
  [.consumer 0 0, .enqueue 0 7, .next 0 0 (fun _ => 0) true, .next 0 0 (fun _ => 0) true, .dequeue 0 0 0, .next 0 1 (fun _ => 0) true,
   .next 0 0 (fun _ => 0) true, .next 0 1 (fun _ => 1) true, .dequeue 1 0 1, .next 1 0 (fun _ => 0) true, .next 1 1 (fun _ => 0) true,
   .next 1 1 (fun _ => 0) true]

def lateσ (n : Nat) : WAct Nat 2 := (lateDemo[n]?).getD (.sync 0 0)

theorem late_sync (n : Nat) (hn : 12 ≤ n) : lateσ n = .sync 0 0 := by
  unfold lateσ
  rw [List.getElem?_eq_none (by exact hn)]
  rfl

theorem late_tail (k : Nat) : (∀ u, (WRing.at .checked 2 lateσ (12 + k)).pc u = .idle) ∧ (WRing.at .checked 2 lateσ (12 + k)).log = [7] := by
  induction k with
  | zero => exact ⟨by intro u; match u with | 0 => rfl | 1 => rfl, rfl⟩
  | succ k ih =>
    have e : WRing.at .checked 2 lateσ (12 + (k + 1)) = (WRing.at .checked 2 lateσ (12 + k)).act .checked 2 (.sync 0 0) := by
      show (WRing.at .checked 2 lateσ (12 + k)).act .checked 2 (lateσ (12 + k)) = _
      rw [late_sync _ (by omega)]
    rw [e]
    exact ih

theorem late_sized : SizedW .checked 2 lateσ := by
  refine C115_enough_slots_suffice _ _ (by decide) (by decide) _ (fun n => ?_)
  by_cases hn : n < 12
  · have : ∀ m : Fin 12, (WRing.at .checked 2 lateσ m).log.length < 2 ^ 32 := by decide +kernel
    exact this ⟨n, hn⟩
  · obtain ⟨k, rfl⟩ := Nat.exists_eq_add_of_le (Nat.not_lt.1 hn)
    rw [(late_tail k).2]; decide

theorem late_runs (u : Fin 2) : KeepsRunningW .checked 2 lateσ u := by
  refine ⟨fun n => ⟨12 + n, by omega, Or.inl (by rw [(late_tail n).1 u]; exact id)⟩, fun a h => ?_⟩
  obtain ⟨m, hm, _, i, j, ok, hσ, _⟩ := h 12
  rw [late_sync m hm] at hσ; cases hσ

/-- the hypotheses are met: the enqueue of thread 0 and the waiting `dequeue` of thread 1 return -/
example : (∃ m, 1 < m ∧ (WRing.at .checked 2 lateσ m).pc 0 = .idle ∧ REv.enqDone 7 0 ∈ (WRing.at .checked 2 lateσ m).events) ∧
    (∃ m, 8 < m ∧ (((WRing.at .checked 2 lateσ (m + 1)).pc 1 = .idle ∧
      ∃ x, (WRing.at .checked 2 lateσ (m + 1)).events = (WRing.at .checked 2 lateσ m).events ++ [x] ∧ x.answersDequeue 0) ∨
      (Profile.checked = .checked ∧ ∃ q, (WRing.at .checked 2 lateσ (m + 1)).pc 1 = .panicked q))) ∧
    (WRing.at .checked 2 lateσ 10).pc 1 = .deqReload 0 :=
  ⟨C115_enqueue_returns late_sized late_runs 0 1 7 rfl rfl,
    C115_dequeue_ends late_sized 1 (late_runs 1) 8 0 1 rfl rfl (show (RPc.deqHead 0 1 : RPc Nat) ≠ .idle by simp), rfl⟩

end BigO
