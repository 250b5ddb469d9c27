import Verif.Proofs.RingTurns
import Verif.Props.RingConc

/-!
# Ring buffer with the memory orderings of the code: C89, C90

`(WRing.init α T).run p N acts` is a fresh buffer of `N` slots used by `T` threads following the schedule `acts`, which also says how
stale each load is.  `newest` gives the newest value of every location; `log` is the list of enqueued elements in the order of
their reservations.
-/
namespace BigO

variable {α : Type} {T : Nat}

/-- what the theorems below assume of a schedule: never more than `N` enqueues in flight, fewer than 2^32 in total -/
structure WithinW (p : Profile) (N : Nat) (acts : List (WAct α T)) : Prop where
  slots : 0 < N
  inFlight : ∀ k, ((WRing.init α T).run p N (acts.take k)).newest.inFlight ≤ N
  few : ((WRing.init α T).run p N acts).log.length < 2 ^ 32

/-- at most `N` threads guarantee the condition on the enqueues in flight -/
theorem C89_enough_slots_suffice (p : Profile) (N : Nat) (hN : 0 < N) (hT : T ≤ N)
    (acts : List (WAct α T)) (hfew : ((WRing.init α T).run p N acts).log.length < 2 ^ 32) : WithinW p N acts :=
  ⟨hN, fun _ => Nat.le_trans (inFlight_le_threads _) hT, hfew⟩

private theorem winv_of {p : Profile} {N : Nat} {acts : List (WAct α T)} {s : WRing α T}
    (hs : (WRing.init α T).run p N acts = s) (hw : WithinW p N acts) : WInv N s := by
  subst hs
  exact winv_run hw.slots acts (winv_init N) hw.inFlight hw.few

/-! ## C89 -/

/-- C89: no step of an `enqueue` call panics, however stale the values its failed compare-exchanges return -/
theorem C89_enqueue_no_panic (p : Profile) (N : Nat) (acts : List (WAct α T)) (s : WRing α T)
    (hs : (WRing.init α T).run p N acts = s) (hw : WithinW p N acts) (t : Fin T) (ht : (s.pc t).enq? ≠ none)
    (i : Nat) (j : Nat → Nat) (ok : Bool) (q : Panic) : (s.act p N (.next t i j ok)).pc t ≠ .panicked q := by
  have h := winv_of hs hw
  have hfew : s.log.length < 2 ^ 32 := by rw [← hs]; exact hw.few
  have hN' : N ≠ 0 := Nat.pos_iff_ne_zero.1 hw.slots
  simp only [WRing.act]
  cases hpc : s.pc t with
  | enqReserved e r => simp [WRing.nextStep, hN', WRing.setPc]
  | enqWritten e r =>
    obtain ⟨h1, h2⟩ := h.prod.hold t e r (by show (s.pc t).enq? = _; rw [hpc]; rfl)
    have h3 : r < s.log.length := (List.getElem?_eq_some_iff.1 h2).1
    have h4 : r + 1 < 2 ^ 32 := by omega
    simp only [WRing.nextStep, u32Add, h4, if_true]
    split
    · split
      · simp [WRing.setPc, WRing.emit]
      · rw [hpc]; simp
    · split
      · rename_i hr
        have := pub_le h ((readable_iff ..).1 hr).2
        rw [if_neg (by omega)]
        show s.pc t ≠ _
        rw [hpc]; simp
      · rw [hpc]; simp
  | _ => rw [hpc] at ht; simp [RPc.enq?] at ht

/-- C89: the completed enqueues are a prefix of the reservation order -/
theorem C89_completed_is_prefix (p : Profile) (N : Nat) (acts : List (WAct α T)) (s : WRing α T)
    (hs : (WRing.init α T).run p N acts = s) (hw : WithinW p N acts) :
    doneOf s.events = List.range s.published.last ∧ s.published.last ≤ s.log.length ∧
    ∀ e r, REv.enqDone e r ∈ s.events → r < s.published.last ∧ s.log[r]? = some e :=
  ⟨(winv_of hs hw).cons.doneAll, (winv_of hs hw).prod.pub, (winv_of hs hw).cons.done⟩

/-- C89: the last write to a published slot among the last `N` reservations is of the element enqueued for it -/
theorem C89_last_write (p : Profile) (N : Nat) (acts : List (WAct α T)) (s : WRing α T)
    (hs : (WRing.init α T).run p N acts = s) (hw : WithinW p N acts) (q : Nat) (hq : q < s.published.last)
    (hlast : s.log.length ≤ q + N) : ∃ e, s.log[q]? = some e ∧ (s.slot (q % N)).last = some e := by
  have hp := (winv_of hs hw).prod
  have hlt : q < s.log.length := Nat.lt_of_lt_of_le hq hp.pub
  refine ⟨_, List.getElem?_eq_getElem hlt, ?_⟩
  have := hp.slots q hlt hlast (Or.inl hq)
  exact this.trans (List.getElem?_eq_getElem hlt)

/-- C89: nothing is lost: every element of the log is published or belongs to exactly one enqueue still in flight; when no
enqueue is in flight everything is published -/
theorem C89_no_loss (p : Profile) (N : Nat) (acts : List (WAct α T)) (s : WRing α T)
    (hs : (WRing.init α T).run p N acts = s) (hw : WithinW p N acts) :
    (∀ r e, s.log[r]? = some e → r < s.published.last ∨ ∃ t, (s.pc t).enq? = some (e, r) ∧
      ∀ t' e', (s.pc t').enq? = some (e', r) → t' = t) ∧
    ((∀ t, (s.pc t).enq? = none) → s.published.last = s.log.length ∧ s.reserved.last = s.log.length) := by
  have hp := (winv_of hs hw).prod
  constructor
  · intro r e he
    by_cases hlt : r < s.published.last
    · exact Or.inl hlt
    · obtain ⟨t, e', ht⟩ := hp.cover r (Nat.le_of_not_lt hlt) (List.getElem?_eq_some_iff.1 he).1
      have := (hp.hold t e' r ht).2
      change s.log[r]? = some e' at this
      rw [he] at this
      obtain rfl := Option.some.inj this
      exact Or.inr ⟨t, ht, fun t' e' ht' => hp.uniq t' t e' e r ht' ht⟩
  · intro hnone
    refine ⟨?_, hp.res⟩
    rcases Nat.lt_or_ge s.published.last s.log.length with h | h
    · obtain ⟨t, e, ht⟩ := hp.cover _ (Nat.le_refl _) h
      change (s.pc t).enq? = _ at ht
      rw [hnone t] at ht; cases ht
    · have : s.published.last ≤ s.log.length := hp.pub
      omega

/-- C89: no deadlock: if an enqueue is in flight, some thread in `enqueue` finishes its call by two steps of its own -/
theorem C89_progress (p : Profile) (N : Nat) (acts : List (WAct α T)) (s : WRing α T)
    (hs : (WRing.init α T).run p N acts = s) (hw : WithinW p N acts) (t0 : Fin T) (h0 : (s.pc t0).enq? ≠ none) :
    ∃ t, (s.pc t).enq? ≠ none ∧ ∃ steps : List (WAct α T), steps.length ≤ 2 ∧ (∀ a ∈ steps, a.tid = t) ∧
      (s.run p N steps).pc t = .idle ∧ (s.run p N steps).published.last = s.published.last + 1 := by
  have hp := (winv_of hs hw).prod
  have hlt : s.published.last < s.log.length := by
    cases hh : (s.pc t0).enq? with
    | none => exact (h0 hh).elim
    | some x =>
      obtain ⟨a, b⟩ := hp.hold t0 x.1 x.2 hh
      exact Nat.lt_of_le_of_lt a (List.getElem?_eq_some_iff.1 b).1
  obtain ⟨t, e, ht⟩ := hp.cover _ (Nat.le_refl _) hlt
  change (s.pc t).enq? = some (e, s.published.last) at ht
  have hfew : s.log.length < 2 ^ 32 := by rw [← hs]; exact hw.few
  have hN' : N ≠ 0 := Nat.pos_iff_ne_zero.1 hw.slots
  have hr : s.published.last + 1 < 2 ^ 32 := by omega
  refine ⟨t, by rw [ht]; simp, ?_⟩
  cases hpc : s.pc t with
  | enqReserved e' r =>
    rw [hpc] at ht
    simp only [RPc.enq?, Option.some.injEq, Prod.mk.injEq] at ht
    obtain ⟨rfl, rfl⟩ := ht
    refine ⟨[.next t 0 (fun _ => 0) true, .next t 0 (fun _ => 0) true], by simp, by simp [WAct.tid], ?_⟩
    have hpub : (s.store t (s.published.last % N) e').published = s.published := rfl
    simp [WRing.run, WRing.act, hpc, WRing.nextStep, hN', WRing.setPc, WRing.emit, u32Add, hr, WRing.publish, WRing.see, hpub, WCell.last_push]
  | enqWritten e' r =>
    rw [hpc] at ht
    simp only [RPc.enq?, Option.some.injEq, Prod.mk.injEq] at ht
    obtain ⟨rfl, rfl⟩ := ht
    refine ⟨[.next t 0 (fun _ => 0) true], by simp, by simp [WAct.tid], ?_⟩
    simp [WRing.run, WRing.act, hpc, WRing.nextStep, WRing.setPc, WRing.emit, u32Add, hr, WRing.publish, WRing.see, WCell.last_push]
  | _ => rw [hpc] at ht; simp [RPc.enq?] at ht

/-- C89: each position is given to at most one `dequeue` call per consumer -/
theorem C89_at_most_once (p : Profile) (N : Nat) (acts : List (WAct α T)) (s : WRing α T)
    (hs : (WRing.init α T).run p N acts = s) (hw : WithinW p N acts) (c : Nat) : (resultsOf c s.events).Nodup :=
  (winv_of hs hw).cons.resNodup c

/-- C89: the positions claimed through a consumer are consecutive, starting where the consumer was created, and all published -/
theorem C89_claims_in_order (p : Profile) (N : Nat) (acts : List (WAct α T)) (s : WRing α T)
    (hs : (WRing.init α T).run p N acts = s) (hw : WithinW p N acts) (c st : Nat) (hst : s.starts[c]? = some st) :
    ∃ k, claimsOf c s.events = List.range' st k ∧ st + k ≤ s.published.last := by
  have hk := (winv_of hs hw).cons
  have hlt : c < s.newest.heads.length := by rw [← hk.len]; exact (List.getElem?_eq_some_iff.1 hst).1
  have hh := List.getElem?_eq_getElem hlt
  refine ⟨_, hk.claims c st _ hst hh, ?_⟩
  have h1 := hk.startLe c st _ hst hh
  have h2 : _ ≤ s.published.last := hk.headLe c _ hh
  omega

/-- two producers and two threads sharing a consumer, with a spurious failure returning a stale value -/
def weakDemo : List (WAct Nat 3) :=
  [.consumer 0 0, .enqueue 0 5, .enqueue 1 6, .next 0 0 (fun _ => 0) true, .next 1 0 (fun _ => 0) true, .next 1 0 (fun _ => 0) false,
   .next 0 0 (fun _ => 0) true, .next 1 0 (fun _ => 0) false, .next 1 0 (fun _ => 0) true, .dequeue 2 0 0, .dequeue 1 0 0,
   .next 2 2 (fun _ => 0) true, .next 1 2 (fun _ => 0) true, .next 2 0 (fun _ => 0) true, .next 1 1 (fun _ => 0) false,
   .next 1 2 (fun _ => 0) true, .next 1 0 (fun _ => 0) true, .next 1 2 (fun _ => 1) true, .next 2 0 (fun _ => 1) true]

example : WithinW .checked 3 weakDemo ∧
    doneOf ((WRing.init Nat 3).run .checked 3 weakDemo).events = [0, 1] ∧
    claimsOf 0 ((WRing.init Nat 3).run .checked 3 weakDemo).events = [0, 1] ∧
    resultsOf 0 ((WRing.init Nat 3).run .checked 3 weakDemo).events = [1, 0] :=
  ⟨C89_enough_slots_suffice _ _ (by decide) (by decide) _ (by decide), by decide, by decide, by decide⟩

/-! ## C90 -/

/-- C90, false: a thread dequeues the element another one published and gets the slot's contents from before the write,
uninitialised memory: the load of `published_tail` is `Relaxed`, so it does not synchronise with the publication. -/
theorem C90_dequeue_can_read_uninitialised :
    ∃ (acts : List (WAct Nat 2)) (s : WRing Nat 2), (WRing.init Nat 2).run .checked 4 acts = s ∧ WithinW .checked 4 acts ∧
      s.log = [7] ∧ s.events.getLast? = some (.deqSome 0 0 none) ∧ s.raced = true :=
  ⟨[.consumer 0 0, .enqueue 0 7, .next 0 0 (fun _ => 0) true, .next 0 0 (fun _ => 0) true, .dequeue 1 0 0,
    .next 1 1 (fun _ => 0) true, .next 1 0 (fun _ => 0) true, .next 1 0 (fun _ => 0) true], _, rfl,
    C89_enough_slots_suffice _ _ (by decide) (by decide) _ (by decide), rfl, rfl, rfl⟩

/-- C90, false: with overflow checks, `dequeue` panics on a stale `reserved_tail` smaller than the position just claimed. -/
theorem C90_dequeue_can_panic :
    ∃ (acts : List (WAct Nat 2)) (s : WRing Nat 2), (WRing.init Nat 2).run .checked 4 acts = s ∧ WithinW .checked 4 acts ∧
      s.log = [7, 8] ∧ s.pc 1 = .panicked .subtractOverflow :=
  ⟨[.consumer 0 0, .enqueue 0 7, .next 0 0 (fun _ => 0) true, .next 0 0 (fun _ => 0) true, .enqueue 0 8, .next 0 0 (fun _ => 0) true,
    .next 0 0 (fun _ => 0) true, .dequeue 1 0 0, .next 1 2 (fun _ => 0) true, .next 1 0 (fun _ => 0) true,
    .next 1 0 (fun _ => 1) true, .dequeue 1 0 1, .next 1 2 (fun _ => 0) true, .next 1 0 (fun _ => 0) true,
    .next 1 0 (fun _ => 1) true], _, rfl,
    C89_enough_slots_suffice _ _ (by decide) (by decide) _ (by decide), rfl, rfl⟩

/-- C90, false: without overflow checks the same schedule ends in the overflow error although nothing was overwritten. -/
theorem C90_overflow_can_be_spurious :
    ∃ (acts : List (WAct Nat 2)) (s : WRing Nat 2), (WRing.init Nat 2).run .wrapping 4 acts = s ∧ WithinW .wrapping 4 acts ∧
      s.log = [7, 8] ∧ s.events.getLast? = some (.deqErr 0 1) :=
  ⟨[.consumer 0 0, .enqueue 0 7, .next 0 0 (fun _ => 0) true, .next 0 0 (fun _ => 0) true, .enqueue 0 8, .next 0 0 (fun _ => 0) true,
    .next 0 0 (fun _ => 0) true, .dequeue 1 0 0, .next 1 2 (fun _ => 0) true, .next 1 0 (fun _ => 0) true,
    .next 1 0 (fun _ => 1) true, .dequeue 1 0 1, .next 1 2 (fun _ => 0) true, .next 1 0 (fun _ => 0) true,
    .next 1 0 (fun _ => 1) true], _, rfl,
    C89_enough_slots_suffice _ _ (by decide) (by decide) _ (by decide), by rfl, by rfl⟩

/-- C90, false: an overflow can go unnoticed: position 0 was overwritten by the element of position 2, and a `dequeue` of position 0
returns that element. -/
theorem C90_overflow_can_be_missed :
    ∃ (acts : List (WAct Nat 2)) (s : WRing Nat 2), (WRing.init Nat 2).run .checked 2 acts = s ∧ WithinW .checked 2 acts ∧
      s.log = [7, 8, 9] ∧ s.events.getLast? = some (.deqSome 0 0 (some 9)) :=
  ⟨[.consumer 0 0, .enqueue 0 7, .next 0 0 (fun _ => 0) true, .next 0 0 (fun _ => 0) true, .enqueue 0 8, .next 0 0 (fun _ => 0) true,
    .next 0 0 (fun _ => 0) true, .enqueue 0 9, .next 0 0 (fun _ => 0) true, .next 0 0 (fun _ => 0) true, .dequeue 1 0 0,
    .next 1 3 (fun _ => 0) true, .next 1 0 (fun _ => 0) true, .next 1 2 (fun _ => 2) true], _, rfl,
    C89_enough_slots_suffice _ _ (by decide) (by decide) _ (by decide), rfl, rfl⟩

/-- C90, false: `peek_all` panics on a `published_tail` older than the head another thread advanced. -/
theorem C90_peek_all_can_panic :
    ∃ (acts : List (WAct Nat 2)) (s : WRing Nat 2), (WRing.init Nat 2).run .checked 2 acts = s ∧ WithinW .checked 2 acts ∧
      s.log = [7] ∧ s.pc 1 = .panicked .subtractOverflow :=
  ⟨[.consumer 0 0, .enqueue 0 7, .next 0 0 (fun _ => 0) true, .next 0 0 (fun _ => 0) true, .dequeue 0 0 0,
    .next 0 1 (fun _ => 0) true, .next 0 0 (fun _ => 0) true, .next 0 1 (fun _ => 1) true, .peekAll 1 0 1,
    .next 1 0 (fun _ => 0) true], _, rfl,
    C89_enough_slots_suffice _ _ (by decide) (by decide) _ (by decide), rfl, rfl⟩

/-- C90, false: `dequeue` can wait, its head being ahead of the `published_tail` it reads. -/
theorem C90_dequeue_can_wait :
    ∃ (acts : List (WAct Nat 2)) (s : WRing Nat 2), (WRing.init Nat 2).run .checked 2 acts = s ∧ WithinW .checked 2 acts ∧
      s.pc 1 = .deqReload 0 :=
  ⟨[.consumer 0 0, .enqueue 0 7, .next 0 0 (fun _ => 0) true, .next 0 0 (fun _ => 0) true, .dequeue 0 0 0,
    .next 0 1 (fun _ => 0) true, .next 0 0 (fun _ => 0) true, .next 0 1 (fun _ => 1) true, .dequeue 1 0 1,
    .next 1 0 (fun _ => 0) true], _, rfl,
    C89_enough_slots_suffice _ _ (by decide) (by decide) _ (by decide), rfl⟩

/-- C90, the part that holds: a claim by a thread that has, by other means, synchronised with all writes so far ends in the error
exactly when more than `N` reservations were made since, and otherwise in the element enqueued there. (Missing: threads synchronised
through the ring only, for which it is false, see above.) -/
theorem C90_up_to_date_partial (p : Profile) (N : Nat) (hN32 : N < 2 ^ 32) (acts : List (WAct α T)) (s : WRing α T)
    (hs : (WRing.init α T).run p N acts = s) (hw : WithinW p N acts) (t : Fin T) (hu : s.UpToDate t) (c h tl : Nat)
    (hpc : s.pc t = .deqClaimed c h tl) (i : Nat) (j : Nat → Nat) (ok : Bool)
    (hstep : (s.act p N (.next t i j ok)).pc t ≠ s.pc t) :
    (s.act p N (.next t i j ok)).pc t = .idle ∧ (s.act p N (.next t i j ok)).raced = s.raced ∧
    (s.act p N (.next t i j ok)).events = s.events ++
      [if s.log.length > h + N then .deqErr c h else .deqSome c h s.log[h]?] := by
  have hi := winv_of hs hw
  have hp := hi.prod
  have hme := hi.cons.pcs t
  change (s.pc t).ok False s.newest at hme
  rw [hpc] at hme
  obtain ⟨m0, m1, _, _, _⟩ := hme
  have hpub : s.newest.ring.published ≤ s.log.length := hp.pub
  have hres : s.reserved.last = s.log.length := hp.res
  have hN' : N ≠ 0 := Nat.pos_iff_ne_zero.1 hw.slots
  simp only [WRing.act, hpc, WRing.nextStep] at hstep ⊢
  by_cases hr : s.readable t .reserved s.reserved.top i = true
  · have hii := utd_read hu.reserved hr
    have hval : s.reserved.val i = s.log.length := by rw [hii]; exact hres
    have hle : h ≤ s.log.length := by omega
    simp only [hr, if_true, hval, u32Sub, hle, Nat.mod_eq_of_lt hN32, hN', if_false] at hstep ⊢
    by_cases hov : s.log.length > h + N
    · rw [if_pos (by omega), if_pos hov]
      exact ⟨by simp [WRing.setPc, WRing.emit], rfl, rfl⟩
    · rw [if_neg (by omega)] at hstep ⊢
      rw [if_neg hov]
      by_cases hr2 : s.readable t (.slot (h % N)) (s.slot (h % N)).top (j (h % N)) = true
      · have hj := utd_read (hu.slots _) hr2
        simp only [hr2, if_true]
        refine ⟨by simp [WRing.setPc, WRing.emit], fetch_raced (utd_see hu _ i ((readable_iff ..).1 hr).1) (h % N) (j (h % N)), ?_⟩
        have hslot : (s.slot (h % N)).last = s.log[h]? := hp.slots h (by show h < s.log.length; omega)
          (by show s.log.length ≤ _; omega) (Or.inl (by omega))
        rw [hj]
        show s.events ++ [REv.deqSome c h (s.slot (h % N)).last] = _
        rw [hslot]
      · simp only [hr2] at hstep
        exact (hstep hpc).elim
  · simp only [hr] at hstep
    exact (hstep hpc).elim

/-- C90, the part that holds: when threads take turns (each synchronises with the previous one, by a lock, a join, a channel, or
because there is only one processor or one thread), there is no data race and the ring behaves as in some interleaving of
sequentially consistent accesses (C35, C36, C38). -/
theorem C90_turns_partial (p : Profile) (N : Nat) (acts : List (WAct α T)) (s : WRing α T)
    (hs : (WRing.init α T).run p N acts = s) (t : Fin T) (ht : TakingTurns t acts) :
    s.raced = false ∧ ∃ bs, s.newest = (RState.init α T).run p N bs := by
  subst hs
  exact turns_run p N acts _ t (utd_init t) ht

/-- C90: so, with at most `N` threads taking turns, no call panics, each element is delivered at most once per consumer, and every delivered
element is the one enqueued at that position -/
theorem C90_turns_values_partial (p : Profile) (N : Nat) (hN : 0 < N) (hN32 : N < 2 ^ 32) (hT : T ≤ N) (acts : List (WAct α T))
    (s : WRing α T) (hs : (WRing.init α T).run p N acts = s) (t : Fin T) (ht : TakingTurns t acts) (hfew : s.log.length < 2 ^ 32) :
    (∀ u q, s.pc u ≠ .panicked q) ∧ (∀ c, (resultsOf c s.events).Nodup) ∧
    ∀ c h v, REv.deqSome c h v ∈ s.events → ∃ e, v = some e ∧ s.log[h]? = some e := by
  obtain ⟨_, bs, hb⟩ := C90_turns_partial p N acts s hs t ht
  have hl : ((RState.init α T).run p N bs).log.length < 2 ^ 32 := by rw [← hb]; exact hfew
  have hw := C35_enough_slots_suffice p N hN hN32 hT bs hl
  exact ⟨fun u q => C35_no_panic p N bs s.newest hb.symm hw u q, fun c => C36_at_most_once p N bs s.newest hb.symm hw c,
    fun c h v hv => C36_right_value p N bs s.newest hb.symm hw c h v hv⟩

/-- C90: a single thread is always taking turns -/
theorem C90_one_thread_partial (t : Fin T) (acts : List (WAct α T)) (h : ∀ a ∈ acts, a.tid = t) : TakingTurns t acts := by
  induction acts with
  | nil => trivial
  | cons a acts ih =>
    have h1 := h a (List.mem_cons_self ..)
    have h2 := ih fun b hb => h b (List.mem_cons_of_mem _ hb)
    cases a <;> simp only [WAct.tid] at h1 <;> subst h1
    case sync u => exact ⟨Or.inl rfl, h2⟩
    all_goals exact ⟨rfl, h2⟩

/-- thread 0 enqueues, thread 1 synchronises with it and dequeues -/
def turnsDemo : List (WAct Nat 2) :=
  [.consumer 0 0, .enqueue 0 7, .next 0 0 (fun _ => 0) true, .next 0 0 (fun _ => 0) true, .sync 1 0, .dequeue 1 0 0,
   .next 1 1 (fun _ => 0) true, .next 1 0 (fun _ => 0) true, .next 1 1 (fun _ => 1) true]

example : TakingTurns 0 turnsDemo ∧
    ((WRing.init Nat 2).run .checked 4 turnsDemo).events.getLast? = some (.deqSome 0 0 (some 7)) :=
  ⟨⟨rfl, rfl, rfl, rfl, Or.inr rfl, rfl, rfl, rfl, rfl, trivial⟩, rfl⟩

/-- the hypotheses of `C90_up_to_date_partial` are met on the way -/
example : ((WRing.init Nat 2).run .checked 4 (turnsDemo.take 8)).pc 1 = .deqClaimed 0 0 1 ∧
    ((WRing.init Nat 2).run .checked 4 (turnsDemo.take 8)).UpToDate 1 := by
  refine ⟨rfl, ⟨by decide, by decide, ?_, ?_⟩⟩
  · intro c l hl
    match c, hl with
    | 0, hl => obtain rfl := Option.some.inj hl; decide
    | c + 1, hl => cases hl
  · intro k
    by_cases hk : k = 0
    · subst hk; decide
    · have : (((WRing.init Nat 2).run .checked 4 (turnsDemo.take 8)).slot k).top = 0 := by
        simp [turnsDemo, WRing.run, WRing.act, WRing.init, WRing.addConsumer, WRing.see, WRing.setPc, WRing.reserve, WRing.nextStep,
          WRing.store, hk, WCell.new, u32Add, WRing.publish, WRing.emit, WCell.last, WRing.readable, WRing.learn, WRing.claim, View.set,
          View.join, WCell.push]
      rw [this]; exact Nat.zero_le _

end BigO
