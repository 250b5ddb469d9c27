import Verif.Proofs.RingConc

/-!
# Ring buffer under concurrency: C35, C36, C38

`(RState.init α T).run p N acts` is a fresh buffer of `N` slots used by `T` threads following the schedule `acts`: any
interleaving, any number of calls, threads may stop anywhere for good.  `log` is the list of enqueued elements in the order
in which the calls reserved their slots.
-/
namespace BigO

variable {α : Type} {T : Nat}

/-- what the theorems below assume of a schedule: never more than `N` enqueues in flight, fewer than 2^32 in total -/
structure Within (p : Profile) (N : Nat) (acts : List (RAct α T)) : Prop where
  slots : 0 < N
  size : N < 2 ^ 32
  inFlight : ∀ k, ((RState.init α T).run p N (acts.take k)).inFlight ≤ N
  few : ((RState.init α T).run p N acts).log.length < 2 ^ 32

/-- at most `N` threads guarantee the condition on the enqueues in flight -/
theorem C35_enough_slots_suffice (p : Profile) (N : Nat) (hN : 0 < N) (hN32 : N < 2 ^ 32) (hT : T ≤ N)
    (acts : List (RAct α T)) (hfew : ((RState.init α T).run p N acts).log.length < 2 ^ 32) : Within p N acts :=
  ⟨hN, hN32, fun _ => Nat.le_trans (inFlight_le_threads _) hT, hfew⟩

theorem inv_of {p : Profile} {N : Nat} {acts : List (RAct α T)} {s : RState α T}
    (hs : (RState.init α T).run p N acts = s) (hw : Within p N acts) : PInv N s ∧ KInv True s := by
  subst hs
  exact inv_run hw.slots hw.size acts (pinv_init N) kinv_init hw.inFlight hw.few

/-! ## C35 -/

/-- C35: no call ever panics -/
theorem C35_no_panic (p : Profile) (N : Nat) (acts : List (RAct α T)) (s : RState α T)
    (hs : (RState.init α T).run p N acts = s) (hw : Within p N acts) (t : Fin T) (q : Panic) :
    s.pc t ≠ .panicked q := by
  intro h
  have := (inv_of hs hw).2.pcs t
  rw [h] at this
  exact this trivial

/-- C35: the completed enqueues are a prefix of the reservation order: the k-th completed call is the one that reserved
position k, and the element it enqueued is the k-th of the log -/
theorem C35_completed_is_prefix (p : Profile) (N : Nat) (acts : List (RAct α T)) (s : RState α T)
    (hs : (RState.init α T).run p N acts = s) (hw : Within p N acts) :
    doneOf s.events = List.range s.ring.published ∧ s.ring.published ≤ s.log.length ∧
    ∀ e r, REv.enqDone e r ∈ s.events → r < s.ring.published ∧ s.log[r]? = some e :=
  ⟨(inv_of hs hw).2.doneAll, (inv_of hs hw).1.pub, (inv_of hs hw).2.done⟩

/-- C35: every published slot among the last `N` reservations holds the element enqueued for it -/
theorem C35_no_corruption (p : Profile) (N : Nat) (acts : List (RAct α T)) (s : RState α T)
    (hs : (RState.init α T).run p N acts = s) (hw : Within p N acts) (q : Nat) (hq : q < s.ring.published)
    (hlast : s.ring.reserved ≤ q + N) : ∃ e, s.log[q]? = some e ∧ s.ring.slot (q % N) = some e := by
  obtain ⟨hp, _⟩ := inv_of hs hw
  have hlt : q < s.log.length := Nat.lt_of_lt_of_le hq hp.pub
  refine ⟨_, List.getElem?_eq_getElem hlt, ?_⟩
  rw [hp.slots q hlt (by rw [← hp.res]; exact hlast) (Or.inl hq), List.getElem?_eq_getElem hlt]

/-- C35: nothing is lost: every element of the log is published or belongs to exactly one enqueue still in flight; when no
enqueue is in flight everything is published -/
theorem C35_no_loss (p : Profile) (N : Nat) (acts : List (RAct α T)) (s : RState α T)
    (hs : (RState.init α T).run p N acts = s) (hw : Within p N acts) :
    (∀ r e, s.log[r]? = some e → r < s.ring.published ∨ ∃ t, (s.pc t).enq? = some (e, r) ∧
      ∀ t' e', (s.pc t').enq? = some (e', r) → t' = t) ∧
    ((∀ t, (s.pc t).enq? = none) → s.ring.published = s.log.length ∧ s.ring.reserved = s.log.length) := by
  obtain ⟨hp, _⟩ := inv_of hs hw
  constructor
  · intro r e he
    by_cases hlt : r < s.ring.published
    · exact Or.inl hlt
    · obtain ⟨t, e', ht⟩ := hp.cover r (by omega) (List.getElem?_eq_some_iff.1 he).1
      have := (hp.hold t e' r ht).2
      rw [he] at this
      obtain rfl := Option.some.inj this
      exact Or.inr ⟨t, ht, fun t' e' ht' => hp.uniq t' t e' e r ht' ht⟩
  · intro hnone
    refine ⟨?_, hp.res⟩
    rcases Nat.lt_or_ge s.ring.published s.log.length with h | h
    · obtain ⟨t, e, ht⟩ := hp.cover _ (Nat.le_refl _) h
      rw [hnone t] at ht; cases ht
    · have := hp.pub; omega

/-- C35: no deadlock: if an enqueue is in flight, some thread in `enqueue` finishes its call by two steps of its own -/
theorem C35_progress (p : Profile) (N : Nat) (acts : List (RAct α T)) (s : RState α T)
    (hs : (RState.init α T).run p N acts = s) (hw : Within p N acts) (t0 : Fin T) (h0 : (s.pc t0).enq? ≠ none) :
    ∃ t, (s.pc t).enq? ≠ none ∧ ((s.run p N [.next t false, .next t false]).pc t = .idle) ∧
      (s.run p N [.next t false, .next t false]).ring.published = s.ring.published + 1 := by
  obtain ⟨hp, _⟩ := inv_of hs hw
  have hlt : s.ring.published < s.log.length := by
    cases hh : (s.pc t0).enq? with
    | none => exact (h0 hh).elim
    | some x =>
      obtain ⟨a, b⟩ := hp.hold t0 x.1 x.2 hh
      have := (List.getElem?_eq_some_iff.1 b).1
      omega
  obtain ⟨t, e, ht⟩ := hp.cover _ (Nat.le_refl _) hlt
  have hfew : s.log.length < 2 ^ 32 := by rw [← hs]; exact hw.few
  have hN := hw.slots
  have hN' : N ≠ 0 := by omega
  have hr : s.ring.published + 1 < 2 ^ 32 := by omega
  refine ⟨t, by rw [ht]; simp, ?_⟩
  cases hpc : s.pc t with
  | enqReserved e' r =>
    rw [hpc] at ht
    simp only [RPc.enq?, Option.some.injEq, Prod.mk.injEq] at ht
    obtain ⟨rfl, rfl⟩ := ht
    simp [RState.run, RState.act, hpc, RState.nextStep, hN', RState.setPc, Ring.write, u32Add, hr, RState.emit]
  | enqWritten e' r =>
    rw [hpc] at ht
    simp only [RPc.enq?, Option.some.injEq, Prod.mk.injEq] at ht
    obtain ⟨rfl, rfl⟩ := ht
    simp [RState.run, RState.act, hpc, RState.nextStep, RState.setPc, u32Add, hr, RState.emit]
  | _ => rw [hpc] at ht; simp [RPc.enq?] at ht

/-- C35: the assumption on the enqueues in flight is needed: with one slot and two threads there is a schedule after which
no call is in flight, yet the last published slot holds the other thread's element. -/
theorem C35_more_threads_than_slots_corrupts :
    ∃ (acts : List (RAct Nat 2)) (s : RState Nat 2), (RState.init Nat 2).run .checked 1 acts = s ∧
      (∀ t, s.pc t = .idle) ∧ s.ring.published = 2 ∧ s.log = [7, 8] ∧ s.ring.slot (1 % 1) = some 7 :=
  ⟨[.enqueue 0 7, .enqueue 1 8, .next 1 false, .next 0 false, .next 0 false, .next 1 false], _, rfl,
    by intro t; match t with | 0 => rfl | 1 => rfl, rfl, rfl, rfl⟩

/-! ## C36 -/

/-- C36: each element is given to at most one `dequeue` call per consumer -/
theorem C36_at_most_once (p : Profile) (N : Nat) (acts : List (RAct α T)) (s : RState α T)
    (hs : (RState.init α T).run p N acts = s) (hw : Within p N acts) (c : Nat) : (resultsOf c s.events).Nodup :=
  (inv_of hs hw).2.resNodup c

/-- C36: a returned element is the one enqueued at the claimed position (never uninitialised or overwritten memory) -/
theorem C36_right_value (p : Profile) (N : Nat) (acts : List (RAct α T)) (s : RState α T)
    (hs : (RState.init α T).run p N acts = s) (hw : Within p N acts) (c h : Nat) (v : Option α)
    (hv : REv.deqSome c h v ∈ s.events) : ∃ e, v = some e ∧ s.log[h]? = some e :=
  (inv_of hs hw).2.vals trivial c h v hv

/-- C36: the claims of a consumer are consecutive positions, starting where the consumer was created: no element is
skipped, whatever threads share the consumer -/
theorem C36_claims_in_order (p : Profile) (N : Nat) (acts : List (RAct α T)) (s : RState α T)
    (hs : (RState.init α T).run p N acts = s) (hw : Within p N acts) (c st : Nat) (hst : s.starts[c]? = some st) :
    ∃ k, claimsOf c s.events = List.range' st k := by
  obtain ⟨_, hk⟩ := inv_of hs hw
  have hlt : c < s.heads.length := by rw [← hk.len]; exact (List.getElem?_eq_some_iff.1 hst).1
  exact ⟨_, hk.claims c st _ hst (List.getElem?_eq_getElem hlt)⟩

/-- C36: every claimed position is reported by a call that returned, or is still held by the one call that claimed it -/
theorem C36_claimed_is_reported (p : Profile) (N : Nat) (acts : List (RAct α T)) (s : RState α T)
    (hs : (RState.init α T).run p N acts = s) (hw : Within p N acts) (c x : Nat) (hx : x ∈ claimsOf c s.events) :
    x ∈ resultsOf c s.events ∨ ∃ t tl, s.pc t = .deqClaimed c x tl := by
  obtain ⟨_, hk⟩ := inv_of hs hw
  cases hh : s.heads[c]? with
  | none => rw [hk.noClaims c hh] at hx; cases hx
  | some h =>
    have hlt : c < s.starts.length := by rw [hk.len]; exact (List.getElem?_eq_some_iff.1 hh).1
    have hst := List.getElem?_eq_getElem hlt
    rw [hk.claims c _ h hst hh, List.mem_range'_1] at hx
    have := hk.startLe c _ h hst hh
    exact hk.resCover trivial c _ h x hst hh hx.1 (by omega)

/-- C36: `Ok(None)` is answered only at a moment when everything published has been claimed -/
theorem C36_none_only_when_empty (p : Profile) (N : Nat) (acts : List (RAct α T)) (s : RState α T)
    (hs : (RState.init α T).run p N acts = s) (hw : Within p N acts) (t : Fin T) (sp : Bool) (c : Nat)
    (hev : (s.act p N (.next t sp)).events = s.events ++ [.deqNone c]) : s.heads[c]? = some s.ring.published := by
  obtain ⟨_, hk⟩ := inv_of hs hw
  have hme := hk.pcs t
  simp only [RState.act] at hev
  cases hpc : s.pc t with
  | deqHead c' h =>
    rw [hpc] at hev hme
    obtain ⟨hh, m1, m2⟩ := hme
    have := hk.headLe _ _ m1
    simp only [RState.nextStep] at hev
    split at hev
    · simp [RState.setPc] at hev
    · split at hev
      · simp only [RState.emit, RState.setPc, List.append_cancel_left_eq, List.cons.injEq, REv.deqNone.injEq] at hev
        obtain ⟨rfl, _⟩ := hev
        rw [m1]; congr 1; omega
      · simp [RState.setPc] at hev
  | deqTail c' h tl =>
    rw [hpc] at hev
    simp only [RState.nextStep] at hev
    split at hev
    · simp [RState.setPc] at hev
    · split at hev <;> simp [RState.setPc, RState.emit] at hev
  | deqClaimed c' h tl =>
    rw [hpc] at hev
    simp only [RState.nextStep] at hev
    split at hev
    · simp [RState.setPc] at hev
    · split at hev
      · simp [RState.setPc, RState.emit] at hev
      · split at hev <;> simp [RState.setPc, RState.emit] at hev
  | peekHead c' h =>
    rw [hpc] at hev hme
    obtain ⟨hh, m1, m2⟩ := hme
    have := hk.headLe _ _ m1
    simp only [RState.nextStep, peekEvent] at hev
    split at hev
    · rename_i e he
      simp only [RState.emit, RState.setPc, List.append_cancel_left_eq, List.cons.injEq, and_true] at hev
      subst hev
      split at he <;> cases he
    · simp [RState.setPc] at hev
  | enqWritten e r =>
    rw [hpc] at hev
    simp only [RState.nextStep] at hev
    split at hev
    · simp [RState.setPc] at hev
    · split at hev
      · simp [RState.setPc, RState.emit] at hev
      · split at hev <;> simp [RState.setPc] at hev
  | enqReserved e r =>
    rw [hpc] at hev
    simp only [RState.nextStep] at hev
    split at hev <;> simp [RState.setPc] at hev
  | _ => rw [hpc] at hev; simp [RState.nextStep, RState.setPc] at hev

/-- C36: a claim ends in the error exactly when the slot may have been reused (more than `N` reservations since) -/
theorem C36_error_iff_overwritten (p : Profile) (N : Nat) (acts : List (RAct α T)) (s : RState α T)
    (hs : (RState.init α T).run p N acts = s) (hw : Within p N acts) (t : Fin T) (sp : Bool) (c h tl : Nat)
    (hpc : s.pc t = .deqClaimed c h tl) :
    (s.act p N (.next t sp)).events = s.events ++
      [if s.log.length > h + N then .deqErr c h else .deqSome c h s.log[h]?] := by
  obtain ⟨hp, hk⟩ := inv_of hs hw
  have hme := hk.pcs t
  rw [hpc] at hme
  obtain ⟨m0, m1, _, _, _⟩ := hme
  have hpub := hp.pub
  have hN := hw.slots
  have hN' : N ≠ 0 := by omega
  have h4 : h ≤ s.ring.reserved := by rw [hp.res]; omega
  simp only [RState.act, hpc, RState.nextStep, u32Sub, h4, if_true, Nat.mod_eq_of_lt hw.size, hN', if_false]
  rw [hp.res]
  by_cases hov : s.log.length > h + N
  · rw [if_pos (by omega), if_pos hov]; rfl
  · rw [if_neg (by omega), if_neg hov, hp.slots h (by omega) (by omega) (Or.inl (by omega))]; rfl

/-- C36: `dequeue` never takes its "head is ahead of the tail" waiting branch, so it does not spin on it -/
theorem C36_never_waits_for_tail (p : Profile) (N : Nat) (acts : List (RAct α T)) (s : RState α T)
    (hs : (RState.init α T).run p N acts = s) (hw : Within p N acts) (t : Fin T) (c : Nat) : s.pc t ≠ .deqReload c := by
  intro h
  have := (inv_of hs hw).2.pcs t
  rw [h] at this
  exact this trivial

/-- a schedule in which two threads race for the same element (thread 1 claims it first, thread 0 retries) -/
def raceDemo : List (RAct Nat 2) :=
  [.consumer 0, .enqueue 0 5, .next 0 false, .enqueue 1 6, .next 0 false, .next 1 true, .next 1 false, .next 1 false,
   .dequeue 0 0, .next 0 false, .dequeue 1 0, .next 1 false, .next 1 false, .next 0 false, .next 0 false, .next 0 false,
   .next 0 false, .next 1 false]

example : Within .checked 2 raceDemo ∧
    claimsOf 0 ((RState.init Nat 2).run .checked 2 raceDemo).events = [0, 1] ∧
    resultsOf 0 ((RState.init Nat 2).run .checked 2 raceDemo).events = [1, 0] :=
  ⟨C35_enough_slots_suffice _ _ (by decide) (by decide) (by decide) _ (by decide), rfl, rfl⟩

/-! ## C38 -/

/-- C38, false: with two slots and two threads, an enqueue that has stored its element but not yet published it makes
`peek_all` answer `Ok` with that element in place of the oldest pending one. -/
theorem C38_peek_all_can_be_corrupted :
    ∃ (acts : List (RAct Nat 2)) (s : RState Nat 2), (RState.init Nat 2).run .checked 2 acts = s ∧
      s.log.take s.ring.published = [1, 2] ∧ s.heads = [0] ∧
      s.events.getLast? = some (.peekOk 0 0 2 [some 3, some 2] []) :=
  ⟨[.consumer 0, .enqueue 0 1, .next 0 false, .next 0 false, .enqueue 0 2, .next 0 false, .next 0 false,
    .enqueue 0 3, .next 0 false, .peekAll 1 0, .next 1 false], _, rfl, rfl, rfl, by rfl⟩

/-- C38, the part that holds: a `peek_all` whose last access happens while at most `N` reservations lie beyond the
consumer's position (in particular whenever no enqueue is in flight) returns exactly the elements published and pending at
that moment. (Missing: enqueues in flight beyond that, for which it is false, see above.) -/
theorem C38_peek_all_partial (p : Profile) (N : Nat) (acts : List (RAct α T)) (s : RState α T)
    (hs : (RState.init α T).run p N acts = s) (hw : Within p N acts) (t : Fin T) (sp : Bool) (c h : Nat)
    (hpc : s.pc t = .peekHead c h) (hroom : s.ring.reserved ≤ h + N) :
    ∃ s1 s2, (s.act p N (.next t sp)).events = s.events ++ [.peekOk c h s.ring.published s1 s2] ∧
      s1 ++ s2 = ((s.log.take s.ring.published).drop h).map some := by
  obtain ⟨hp, hk⟩ := inv_of hs hw
  have hme := hk.pcs t
  rw [hpc] at hme
  obtain ⟨hh, m1, m2⟩ := hme
  have hpub := hp.pub
  have hle : h ≤ s.ring.published := Nat.le_trans m2 (hk.headLe _ _ m1)
  have hres := hp.res
  have hN := hw.slots
  have hN' : N ≠ 0 := by omega
  have hNs := hw.size
  simp only [RState.act, hpc, RState.nextStep, peekEvent, Ring.peekAll, hN', if_false, u32Sub, hle, if_true,
    Nat.mod_eq_of_lt hNs]
  by_cases he : h = s.ring.published
  · refine ⟨[], [], ?_, ?_⟩
    · simp only [he, if_true]; rfl
    · rw [List.drop_eq_nil_of_le (by simp; omega)]; rfl
  · have hov : ¬ s.ring.published - h > N := by omega
    simp only [he, if_false, hov]
    obtain ⟨d, hd⟩ : ∃ d, h + d = s.ring.published := ⟨s.ring.published - h, by omega⟩
    have hr := range_mod (N := N) (head := h) (d := d) hN (by omega) (by omega)
    have hwin : ((List.range' h d).map (· % N)).map s.ring.slot = ((s.log.take s.ring.published).drop h).map some := by
      apply List.ext_getElem
      · simp; omega
      · intro i h1 h2
        simp only [List.length_map, List.length_range'] at h1
        simp only [List.getElem_map, List.getElem_range', List.getElem_drop, Nat.one_mul, List.getElem_take]
        rw [hp.slots (h + i) (by omega) (by omega) (Or.inl (by omega))]
        exact List.getElem?_eq_getElem _
    rw [hd] at hr
    by_cases hlt : h % N < s.ring.published % N
    · rw [if_pos hlt] at hr
      refine ⟨_, _, by simp only [hlt, if_true]; rfl, ?_⟩
      rw [← hwin, hr]; simp [Ring.slice]
    · rw [if_neg hlt] at hr
      refine ⟨_, _, by simp only [hlt, if_false]; rfl, ?_⟩
      rw [← hwin, hr]; simp [Ring.slice]

example : ((RState.init Nat 2).run .checked 2 [.consumer 0, .enqueue 0 1, .next 0 false, .next 0 false, .enqueue 0 2,
    .next 0 false, .peekAll 1 0, .next 1 false]).events.getLast? = some (.peekOk 0 0 1 [some 1] []) := by rfl

/-! ## the interleaved model restricted to one thread at a time is the sequential one -/

/-- C35: an `enqueue` call that runs alone does what the sequential model of `Verif.Model.Ring` says -/
theorem C35_solo_enqueue (p : Profile) (N : Nat) (s : RState α T) (t : Fin T) (e : α) (hidle : s.pc t = .idle)
    (r : Ring α) (hseq : s.ring.enqueue p N e = (r, .ok ())) :
    (s.run p N [.enqueue t e, .next t false, .next t false]).ring = r ∧
    (s.run p N [.enqueue t e, .next t false, .next t false]).pc t = .idle := by
  simp only [Ring.enqueue] at hseq
  by_cases hN : N = 0
  · simp [hN] at hseq
  · simp only [hN, if_false] at hseq
    cases hu : u32Add p s.ring.reserved 1 with
    | error q => rw [hu] at hseq; simp at hseq
    | ok nx =>
      rw [hu] at hseq
      simp only at hseq
      by_cases hp : s.ring.published = s.ring.reserved
      · have : ({ s.ring with reserved := (s.ring.reserved + 1) % 2 ^ 32 }.write (s.ring.reserved % N) e : Ring α).published
            = s.ring.reserved := hp
        rw [if_pos this] at hseq
        have hr := (Prod.mk.inj hseq).1
        simp [RState.run, RState.act, hidle, RState.nextStep, hN, RState.setPc, RState.emit, hu, Ring.write, hp, ← hr]
      · have : ¬ ({ s.ring with reserved := (s.ring.reserved + 1) % 2 ^ 32 }.write (s.ring.reserved % N) e : Ring α).published
            = s.ring.reserved := hp
        rw [if_neg this] at hseq
        split at hseq <;> simp at hseq

/-- the events of a `dequeue` call with the given result -/
def dequeueEvents (c h : Nat) : Except OverflowError (Option (Option α)) → List (REv α)
  | .ok none => [.deqNone c]
  | .ok (some v) => [.claim c h, .deqSome c h v]
  | .error _ => [.claim c h, .deqErr c h]

/-- C36: a `dequeue` call that runs alone does what the sequential model says -/
theorem C36_solo_dequeue (p : Profile) (N : Nat) (s : RState α T) (t : Fin T) (c h : Nat) (hidle : s.pc t = .idle)
    (hh : s.heads[c]? = some h) (h' : Nat) (res : Except OverflowError (Option (Option α)))
    (hseq : s.ring.dequeue p N h = (h', .ok res)) :
    (s.run p N [.dequeue t c, .next t false, .next t false, .next t false]).heads = s.heads.set c h' ∧
    (s.run p N [.dequeue t c, .next t false, .next t false, .next t false]).pc t = .idle ∧
    (s.run p N [.dequeue t c, .next t false, .next t false, .next t false]).events = s.events ++ dequeueEvents c h res := by
  have hcl : c < s.heads.length := (List.getElem?_eq_some_iff.1 hh).1
  have hself : s.heads.set c h = s.heads := by
    have := (List.getElem?_eq_some_iff.1 hh).2
    rw [← this]; exact List.set_getElem_self _
  simp only [Ring.dequeue] at hseq
  by_cases h1 : h > s.ring.published
  · simp [h1] at hseq
  · simp only [h1, if_false] at hseq
    by_cases h2 : h = s.ring.published
    · simp only [h2, if_true, Prod.mk.injEq, Outcome.ok.injEq] at hseq
      obtain ⟨rfl, rfl⟩ := hseq
      rw [h2] at hself hh
      simp [RState.run, RState.act, hidle, hh, RState.nextStep, RState.setPc, RState.emit, hself, dequeueEvents]
    · simp only [h2, if_false] at hseq
      cases hu : u32Add p h 1 with
      | error q => rw [hu] at hseq; simp at hseq
      | ok nx =>
        rw [hu] at hseq
        simp only at hseq
        cases hsub : u32Sub p s.ring.reserved h with
        | error q => rw [hsub] at hseq; simp at hseq
        | ok d =>
          rw [hsub] at hseq
          simp only at hseq
          by_cases hd : d > N % 2 ^ 32
          · simp only [hd, if_true, Prod.mk.injEq, Outcome.ok.injEq] at hseq
            obtain ⟨rfl, rfl⟩ := hseq
            simp [RState.run, RState.act, hidle, hh, RState.nextStep, RState.setPc, RState.emit, h1, h2, hu, hsub, hd, dequeueEvents]
          · simp only [hd, if_false] at hseq
            by_cases hN : N = 0
            · simp [hN] at hseq
            · simp only [hN, if_false, Prod.mk.injEq, Outcome.ok.injEq] at hseq
              obtain ⟨rfl, rfl⟩ := hseq
              simp [RState.run, RState.act, hidle, hh, RState.nextStep, RState.setPc, RState.emit, h1, h2, hu, hsub, hd, hN, dequeueEvents]

end BigO
