import Verif.Proofs.RingRefs
import Verif.Props.Ring
import Verif.Props.RingConc

/-!
# C92, C93: references into the ring buffer and dropping of its elements
-/
namespace BigO

variable {α : Type} {T : Nat}

/-- **C92** (what is returned): looking at the reference right after the call shows what `Model/Ring` says that the call returned; a
call returns a reference exactly when it returns one or more elements (or the two empty slices). -/
theorem C92_shows_result (p : Profile) (N : Nat) (s : RingSys α) (op : RingOp α) :
    (∀ v, (s.step p N op).2 = .dequeued (some v) →
      ∃ x, s.refOf p N op = some x ∧ (s.step p N op).1.ring.look x = [v]) ∧
    (∀ s1 s2, (s.step p N op).2 = .peeked s1 s2 →
      ∃ x, s.refOf p N op = some x ∧ (s.step p N op).1.ring.look x = s1 ++ s2) ∧
    (∀ x, s.refOf p N op = some x → (∃ v, (s.step p N op).2 = .dequeued (some v)) ∨ ∃ s1 s2, (s.step p N op).2 = .peeked s1 s2) := by
  cases op with
  | enqueue e =>
    simp only [RingSys.step, RingSys.refOf]
    refine ⟨fun v h => ?_, fun s1 s2 h => ?_, fun x h => by cases h⟩ <;> (split at h <;> cases h)
  | consumer =>
    simp only [RingSys.step, RingSys.refOf]
    exact ⟨fun v h => (by cases h), fun s1 s2 h => (by cases h), fun x h => (by cases h)⟩
  | dequeue c =>
    simp only [RingSys.step, RingSys.refOf]
    cases hc : s.heads[c]? with
    | none => exact ⟨fun v h => by simp at h, fun s1 s2 h => by simp at h, fun x h => by simp at h⟩
    | some head =>
      simp only
      refine ⟨fun v h => ?_, fun s1 s2 h => ?_, fun x h => ?_⟩
      · rw [h]
        refine ⟨_, rfl, ?_⟩
        have hd : (s.ring.dequeue p N head).2 = .ok (.ok (some v)) := by
          revert h
          cases (s.ring.dequeue p N head).2 with
          | ok r =>
            cases r with
            | ok w => intro h; simp only [RingOut.dequeued.injEq] at h; rw [h]
            | error e => intro h; cases h
          | panic e => intro h; cases h
          | diverges => intro h; cases h
        show [s.ring.slot (head % N)] = [v]
        revert hd
        unfold Ring.dequeue
        intro hd
        split at hd
        · cases hd
        · split at hd
          · simp at hd
          · split at hd
            · cases hd
            · split at hd
              · cases hd
              · split at hd
                · cases hd
                · split at hd
                  · cases hd
                  · simp only [Outcome.ok.injEq, Except.ok.injEq, Option.some.injEq] at hd
                    rw [hd]
      · split at h <;> cases h
      · split at h
        · rename_i v _ hv
          exact Or.inl ⟨v, hv⟩
        · cases h
  | peekAll c =>
    simp only [RingSys.step, RingSys.refOf]
    cases hc : s.heads[c]? with
    | none => exact ⟨fun v h => by simp at h, fun s1 s2 h => by simp at h, fun x h => by simp at h⟩
    | some head =>
      simp only
      refine ⟨fun v h => ?_, fun s1 s2 h => ?_, fun x h => ?_⟩
      · split at h <;> cases h
      · rw [h]
        refine ⟨_, rfl, ?_⟩
        have hd : s.ring.peekAll p N head = .ok (.ok (s1, s2)) := by
          revert h
          cases s.ring.peekAll p N head with
          | ok r =>
            cases r with
            | ok w => intro h; obtain ⟨a, b⟩ := w; simp only [RingOut.peeked.injEq] at h; rw [h.1, h.2]
            | error e => intro h; cases h
          | panic e => intro h; cases h
          | diverges => intro h; cases h
        revert hd
        unfold Ring.peekAll peekRef Ring.look
        intro hd
        split at hd
        · cases hd
        · simp only at hd
          by_cases he : head = s.ring.published
          · simp only [he, if_true] at hd
            cases hd
            simp [he]
          · rw [if_neg he] at hd
            simp only [he, if_false]
            split at hd
            · cases hd
            · split at hd
              · cases hd
              · split at hd
                · rename_i hlt
                  cases hd
                  rw [if_pos hlt]; simp [Ring.slice]
                · rename_i hlt
                  cases hd
                  rw [if_neg hlt]; simp [Ring.slice]
      · split at h
        · rename_i s1 s2 _ hv
          exact Or.inr ⟨s1, s2, hv⟩
        · cases h

/-- **C92** (what a reference returned by `dequeue` shows at any later time): after any history, a consumer with pending elements
`x :: rest` (at most `N`) calls `dequeue`; after any further calls `later` (of anybody, on any consumer) the reference shows the last
element, of `x`, `rest` and those enqueued later, that used the place of `x`, that is whose distance from `x` is a multiple of `N`. -/
theorem C92_dequeued_reference (p : Profile) (N : Nat) (hN : 0 < N) (hN32 : N < 2 ^ 32)
    (pre post later : List (RingOp α)) (hfew : (enqueued (pre ++ post)).length + (enqueued later).length < 2 ^ 32) (id : Nat)
    (hid : ((afterHist p N pre).step p N .consumer).2 = .consumer id)
    (s : RingSys α) (outs : List (RingOut α))
    (hrun : ((afterHist p N pre).step p N .consumer).1.run p N post = (s, outs))
    (pending : List α) (hp : pending = (enqueued post).drop (consumedCount id post outs)) (ref : SlotRef)
    (href : s.refOf p N (.dequeue id) = some ref) :
    ((s.step p N (.dequeue id)).1.run p N later).1.ring.look ref = [latestLap N (pending ++ enqueued later)] := by
  obtain ⟨l, h1, h2, h3, h4⟩ := sys_after p N hN hN32 pre post (by omega) hid
  have happ : ∀ a b : List (RingOp α), enqueued (a ++ b) = enqueued a ++ enqueued b := by
    intro a b
    induction a with
    | nil => rfl
    | cons x a ih => rw [List.cons_append, enqueued_cons, ih, enqueued_cons x a, List.append_assoc]
  rw [happ, List.length_append] at hfew
  have hf0 : FullInv N ((afterHist p N pre).step p N .consumer).1.ring l.log := by
    have := full_run (p := p) hN32 pre (sysInv_init N hN) (fullInv_new N) (by simp [LogSys.init]; omega)
    rw [h2]
    simpa [LogSys.init, RingSys.step] using this
  obtain ⟨k1, _, k3⟩ := run_cursor (p := p) hN32 post h1 h4 h3
  obtain ⟨_, hsys, hlog⟩ := run_refines (p := p) hN32 post h1 h4
  have hf1 := full_run (p := p) hN32 post h1 hf0 h4
  rw [hrun] at k1 k3 hsys hf1
  simp only at k1 k3 hsys hf1
  rw [← hlog] at hf1
  have hpend : (l.run N post).1.log.drop ((enqueued pre).length + consumedCount id post outs) = pending := by
    rw [hlog, h2, hp, List.drop_length_add_append]
  rw [refOf_dequeue hN32 hsys k1] at href
  split at href
  · cases href
  · rename_i hno
    rw [not_or] at hno
    cases href
    have hlen : (l.run N post).1.log.length = (enqueued pre).length + (enqueued post).length := by rw [hlog, h2]; simp
    obtain ⟨-, hsys', hlog'⟩ := step_refines (p := p) hN32 hsys (.dequeue id) (by rw [hlen]; simp [enqueued]; omega)
    have hf2 := full_step (p := p) hsys hf1 (.dequeue id)
    rw [← hlog'] at hf2
    have hlen' : ((l.run N post).1.step N (.dequeue id)).1.log = (l.run N post).1.log := by rw [hlog']; simp [enqueued]
    have hf3 := full_run (p := p) hN32 later hsys' hf2 (by rw [hlen', hlen]; omega)
    rw [hlen'] at hf3
    show [_] = [_]
    rw [hf3.used _ (by simp; omega), List.drop_append_of_le_length (by omega), hpend]

/-- **C92** (what the references returned by `peek_all` show at any later time): the same for each of the pending elements. -/
theorem C92_peeked_references (p : Profile) (N : Nat) (hN : 0 < N) (hN32 : N < 2 ^ 32)
    (pre post later : List (RingOp α)) (hfew : (enqueued (pre ++ post)).length + (enqueued later).length < 2 ^ 32) (id : Nat)
    (hid : ((afterHist p N pre).step p N .consumer).2 = .consumer id)
    (s : RingSys α) (outs : List (RingOut α))
    (hrun : ((afterHist p N pre).step p N .consumer).1.run p N post = (s, outs))
    (pending : List α) (hp : pending = (enqueued post).drop (consumedCount id post outs)) (ref : SlotRef)
    (href : s.refOf p N (.peekAll id) = some ref) :
    ((s.step p N (.peekAll id)).1.run p N later).1.ring.look ref =
      (List.range pending.length).map fun i => latestLap N (pending.drop i ++ enqueued later) := by
  obtain ⟨l, h1, h2, h3, h4⟩ := sys_after p N hN hN32 pre post (by omega) hid
  have happ : ∀ a b : List (RingOp α), enqueued (a ++ b) = enqueued a ++ enqueued b := by
    intro a b
    induction a with
    | nil => rfl
    | cons x a ih => rw [List.cons_append, enqueued_cons, ih, enqueued_cons x a, List.append_assoc]
  rw [happ, List.length_append] at hfew
  have hf0 : FullInv N ((afterHist p N pre).step p N .consumer).1.ring l.log := by
    have := full_run (p := p) hN32 pre (sysInv_init N hN) (fullInv_new N) (by simp [LogSys.init]; omega)
    rw [h2]
    simpa [LogSys.init, RingSys.step] using this
  obtain ⟨k1, _, k3⟩ := run_cursor (p := p) hN32 post h1 h4 h3
  obtain ⟨_, hsys, hlog⟩ := run_refines (p := p) hN32 post h1 h4
  have hf1 := full_run (p := p) hN32 post h1 hf0 h4
  rw [hrun] at k1 k3 hsys hf1
  simp only at k1 k3 hsys hf1
  rw [← hlog] at hf1
  have hpend : (l.run N post).1.log.drop ((enqueued pre).length + consumedCount id post outs) = pending := by
    rw [hlog, h2, hp, List.drop_length_add_append]
  rw [refOf_peek hN32 hsys k1] at href
  split at href
  · cases href
  · rename_i hno
    cases href
    have hlen : (l.run N post).1.log.length = (enqueued pre).length + (enqueued post).length := by rw [hlog, h2]; simp
    have hpl : pending.length = (l.run N post).1.log.length - ((enqueued pre).length + consumedCount id post outs) := by
      rw [← hpend, List.length_drop]
    obtain ⟨-, hsys', hlog'⟩ := step_refines (p := p) hN32 hsys (.peekAll id) (by rw [hlen]; simp [enqueued]; omega)
    have hf2 := full_step (p := p) hsys hf1 (.peekAll id)
    rw [← hlog'] at hf2
    have hlen' : ((l.run N post).1.step N (.peekAll id)).1.log = (l.run N post).1.log := by rw [hlog']; simp [enqueued]
    have hf3 := full_run (p := p) hN32 later hsys' hf2 (by rw [hlen', hlen]; omega)
    rw [hlen'] at hf3
    apply List.ext_getElem
    · simp [Ring.look, hpl]
    · intro i i1 i2
      simp only [List.length_map, List.length_range] at i2
      simp only [Ring.look, List.getElem_map, List.getElem_range', List.getElem_range, Nat.one_mul]
      rw [hf3.used _ (by simp; omega), List.drop_append_of_le_length (by omega), ← hpend, List.drop_drop]

/-- **C92** (for how long): with at most `N` elements from `x` on, the reference shows `x`; with more, it shows another element (a
different one, if no element is enqueued twice). -/
theorem C92_valid_exactly (N : Nat) (hN : 0 < N) (x : α) (rest later : List α) :
    ((x :: rest ++ later).length ≤ N → latestLap N (x :: rest ++ later) = some x) ∧
    (N < (x :: rest ++ later).length → (x :: rest ++ later).Nodup → ∃ y, latestLap N (x :: rest ++ later) = some y ∧ y ≠ x) := by
  refine ⟨fun h => by rw [latestLap_short h]; rfl, fun h hnd => ?_⟩
  unfold latestLap
  set L := x :: rest ++ later with hL
  have hk : (L.length - 1) / N * N < L.length := by
    have := Nat.div_mul_le_self (L.length - 1) N
    omega
  have h1 : 1 ≤ (L.length - 1) / N := by
    rw [Nat.one_le_div_iff hN]; omega
  have hpos : 0 < (L.length - 1) / N * N := Nat.mul_pos h1 hN
  refine ⟨L[(L.length - 1) / N * N], List.getElem?_eq_getElem hk, ?_⟩
  have h0 : L[0] = x := rfl
  intro he
  rw [← h0] at he
  have := (List.Nodup.getElem_inj_iff hnd).1 he
  omega

theorem act_events_prefix {p : Profile} {N : Nat} (s : RState α T) (a : RAct α T) : s.events <+: (s.act p N a).events := by
  cases a with
  | enqueue t e =>
    simp only [RState.act]
    cases s.pc t <;> exact List.prefix_refl _
  | consumer t => simp only [RState.act]; cases s.pc t <;> exact List.prefix_refl _
  | dequeue t c =>
    simp only [RState.act]; cases s.pc t <;> cases s.heads[c]? <;> exact List.prefix_refl _
  | peekAll t c =>
    simp only [RState.act]; cases s.pc t <;> cases s.heads[c]? <;> exact List.prefix_refl _
  | next t sp =>
    simp only [RState.act]
    cases s.pc t <;> simp only [RState.nextStep, RState.setPc, RState.emit] <;>
      repeat (first | exact List.prefix_refl _ | exact List.prefix_append _ _ | split)

theorem run_events_prefix {p : Profile} {N : Nat} (acts : List (RAct α T)) :
    ∀ s : RState α T, s.events <+: (s.run p N acts).events := by
  induction acts with
  | nil => intro s; exact List.prefix_refl _
  | cons a acts ih => intro s; exact (act_events_prefix s a).trans (ih _)

theorem within_prefix {p : Profile} {N : Nat} {acts later : List (RAct α T)} (hw : Within p N (acts ++ later)) : Within p N acts := by
  refine ⟨hw.slots, hw.size, fun k => ?_, ?_⟩
  · have := hw.inFlight (min k acts.length)
    rwa [List.take_append_of_le_length (by omega), List.take_eq_take_min.symm] at this
  · have h1 := hw.few
    rw [run_append] at h1
    exact Nat.lt_of_le_of_lt (run_log_prefix later _).length_le h1

/-- **C92** (concurrency, `dequeue`): with at most `N` enqueues in flight at any time, in every interleaving, what `dequeue` returned
can be looked at later, as long as no more than `N` positions have been reserved from that of the element on. -/
theorem C92_concurrent_dequeue (p : Profile) (N : Nat) (acts later : List (RAct α T)) (s s' : RState α T)
    (hs : (RState.init α T).run p N acts = s) (hs' : s.run p N later = s') (hw : Within p N (acts ++ later))
    (c h : Nat) (v : Option α) (hv : REv.deqSome c h v ∈ s.events) (hroom : s'.ring.reserved ≤ h + N) :
    (∃ e, v = some e) ∧ s'.ring.look (dequeueRef N h) = [v] := by
  obtain ⟨e, rfl, he⟩ := C36_right_value p N acts s hs (within_prefix hw) c h v hv
  have hr : (RState.init α T).run p N (acts ++ later) = s' := by rw [run_append, hs, hs']
  have hpre : s.log <+: s'.log := by rw [← hs']; exact run_log_prefix later s
  have hpub : h < s'.ring.published := by
    obtain ⟨-, hk⟩ := inv_of hr hw
    have hv' : REv.deqSome c h (some e) ∈ s'.events := by rw [← hs']; exact (run_events_prefix later s).subset hv
    have hmem : h ∈ resultsOf c s'.events := by
      obtain ⟨a, b, hab⟩ := List.append_of_mem hv'
      rw [hab, resultsOf_append]
      apply List.mem_append_right
      simp [resultsOf]
    obtain ⟨st, hh, -, h2, -, h4⟩ := hk.results c h hmem
    have := hk.headLe c hh h2
    omega
  obtain ⟨e', h1, h2⟩ := C35_no_corruption p N (acts ++ later) s' hr hw h hpub hroom
  refine ⟨⟨e, rfl⟩, ?_⟩
  show [_] = [_]
  rw [h2]
  obtain ⟨t, ht⟩ := hpre
  have : s'.log[h]? = some e := by
    rw [← ht, List.getElem?_append_left (List.getElem?_eq_some_iff.1 he).1, he]
  rw [this] at h1
  rw [Option.some.inj h1]

/-- **C92** (concurrency, `peek_all`): the same for the slices returned by the last step of a `peek_all` call. -/
theorem C92_concurrent_peek (p : Profile) (N : Nat) (acts later : List (RAct α T)) (s s' : RState α T) (t : Fin T) (sp : Bool)
    (hs : (RState.init α T).run p N acts = s) (hs' : (s.act p N (.next t sp)).run p N later = s')
    (hw : Within p N (acts ++ .next t sp :: later)) (c h : Nat) (hpc : s.pc t = .peekHead c h) (hroom : s'.ring.reserved ≤ h + N) :
    ∃ s1 s2, (s.act p N (.next t sp)).events = s.events ++ [.peekOk c h s.ring.published s1 s2] ∧
      s'.ring.look (peekRef N s.ring.published h) = s1 ++ s2 := by
  have hw1 := within_prefix hw
  have hr : (RState.init α T).run p N (acts ++ .next t sp :: later) = s' := by
    rw [run_append, hs]; exact hs'
  have hlog : s.log <+: s'.log := by
    rw [← hs']; exact (act_log_prefix s _).trans (run_log_prefix later _)
  obtain ⟨hp, hk⟩ := inv_of hs hw1
  obtain ⟨hp', hk'⟩ := inv_of hr hw
  have hle := hlog.length_le
  obtain ⟨s1, s2, h1, h2⟩ := C38_peek_all_partial p N acts s hs hw1 t sp c h hpc (by rw [hp.res]; rw [hp'.res] at hroom; omega)
  refine ⟨s1, s2, h1, ?_⟩
  rw [h2]
  have hh : h ≤ s.ring.published := by
    have := hk.pcs t
    rw [hpc] at this
    obtain ⟨hh, h3, h4⟩ := this
    have := hk.headLe c hh h3
    omega
  have hpubm : s.ring.published ≤ s'.ring.published := by
    have hev : s.events <+: s'.events := by
      rw [← hs']; exact (act_events_prefix s _).trans (run_events_prefix later _)
    obtain ⟨x, hx⟩ := hev
    have e1 := hk.doneAll
    have e2 := hk'.doneAll
    rw [← hx, doneOf_append, e1] at e2
    have := congrArg List.length e2
    simp at this
    omega
  have hN := hw.slots
  have hpl := hp.pub
  rw [hp'.res] at hroom
  have hslots : (peekRef N s.ring.published h).slots = (List.range' h (s.ring.published - h)).map (· % N) := by
    unfold peekRef
    by_cases he : h = s.ring.published
    · simp [he]
    · have := range_mod (N := N) (head := h) (d := s.ring.published - h) hN (by omega) (by omega)
      have e1 : h + (s.ring.published - h) = s.ring.published := by omega
      rw [e1] at this
      rw [this]
      simp only [he, if_false]
      split <;> rfl
  unfold Ring.look
  rw [hslots]
  apply List.ext_getElem
  · simp; omega
  · intro i i1 i2
    simp only [List.length_map, List.length_range'] at i1
    simp only [List.getElem_map, List.getElem_range', Nat.one_mul, List.getElem_drop, List.getElem_take]
    rw [hp'.slots (h + i) (by omega) (by omega) (Or.inl (by omega))]
    obtain ⟨x, hx⟩ := hlog
    rw [← hx, List.getElem?_append_left (by omega), List.getElem?_eq_getElem (by omega)]

/-- **C93** (exactly what is dropped): `SIZE` times uninitialised memory, then the elements in the order of their enqueueing, except
the last `SIZE` ones. -/
theorem C93_exact (p : Profile) (N : Nat) (hN : 0 < N) (hN32 : N < 2 ^ 32) (ops : List (RingOp α))
    (hfew : (enqueued ops).length < 2 ^ 32) :
    (RingSys.init α).dropsOverall p N ops =
      List.replicate (min N (enqueued ops).length) none ++ ((enqueued ops).take ((enqueued ops).length - N)).map some := by
  have := drops_run (p := p) hN32 ops (sysInv_init N hN) (fullInv_new (α := α) N) (by simpa [LogSys.init] using hfew)
  unfold RingSys.dropsOverall Ring.dropsAtEnd
  rw [this, List.append_nil]
  simp only [LogSys.init, List.length_nil, List.nil_append]
  apply List.ext_getElem
  · simp; omega
  · intro i i1 i2
    simp only [List.length_map, List.length_range'] at i1
    simp only [List.getElem_map, List.getElem_range', Nat.zero_add, Nat.one_mul]
    rw [List.getElem_append]
    simp only [List.length_replicate, List.getElem_replicate]
    by_cases hi : i < N
    · rw [if_pos hi, dif_pos (by omega)]
    · rw [if_neg hi, dif_neg (by omega)]
      simp only [List.getElem_map, List.getElem_take]
      rw [List.getElem?_eq_getElem (by omega)]
      congr 2
      omega

/-- **C93** is false: any program that enqueues anything drops uninitialised memory, and never drops the last element enqueued. -/
theorem C93_uninitialised_dropped (p : Profile) (N : Nat) (hN : 0 < N) (hN32 : N < 2 ^ 32) (ops : List (RingOp α))
    (hfew : (enqueued ops).length < 2 ^ 32) (hsome : enqueued ops ≠ []) :
    none ∈ (RingSys.init α).dropsOverall p N ops ∧
    ¬ ((RingSys.init α).dropsOverall p N ops).Perm ((enqueued ops).map some) := by
  have h : none ∈ (RingSys.init α).dropsOverall p N ops := by
    rw [C93_exact p N hN hN32 ops hfew]
    have := List.length_pos_iff.2 hsome
    apply List.mem_append_left
    rw [List.mem_replicate]
    exact ⟨by omega, rfl⟩
  refine ⟨h, fun hp => ?_⟩
  have := hp.mem_iff.1 h
  simp at this

/-- **C93** (what does hold): the elements that are dropped are the first ones enqueued, each once, in order; the last `SIZE` ones are
not, whether consumed or not. -/
theorem C93_dropped_partial (p : Profile) (N : Nat) (hN : 0 < N) (hN32 : N < 2 ^ 32) (ops : List (RingOp α))
    (hfew : (enqueued ops).length < 2 ^ 32) :
    ((RingSys.init α).dropsOverall p N ops).filterMap id = (enqueued ops).take ((enqueued ops).length - N) := by
  rw [C93_exact p N hN hN32 ops hfew]
  rw [List.filterMap_append, List.filterMap_map]
  have : (List.replicate (min N (enqueued ops).length) (none : Option α)).filterMap id = [] := by simp
  rw [this]
  simp

/-! ## concrete cases -/

/-- three slots, a consumer, and the elements 1, 2 -/
def refDemo : RingSys Nat := ((RingSys.init Nat).run .checked 3 [.consumer, .enqueue 1, .enqueue 2]).1

-- C92: the references returned by `dequeue` and `peek_all`, after a third element, and after two more
example : refDemo.refOf .checked 3 (.dequeue 0) = some ⟨[0]⟩ ∧ refDemo.refOf .checked 3 (.peekAll 0) = some ⟨[0, 1]⟩ ∧
    ((refDemo.step .checked 3 (.dequeue 0)).1.run .checked 3 [.enqueue 3]).1.ring.look ⟨[0]⟩ = [some 1] ∧
    ((refDemo.step .checked 3 (.dequeue 0)).1.run .checked 3 [.enqueue 3, .enqueue 4]).1.ring.look ⟨[0]⟩ = [some 4] ∧
    ((refDemo.step .checked 3 (.peekAll 0)).1.run .checked 3 [.enqueue 3, .enqueue 4]).1.ring.look ⟨[0, 1]⟩ = [some 4, some 2] :=
  ⟨rfl, rfl, rfl, rfl, rfl⟩

-- the hypotheses of `C92_dequeued_reference` are met
example : ((refDemo.step .checked 3 (.dequeue 0)).1.run .checked 3 [.enqueue 3, .enqueue 4]).1.ring.look ⟨[0]⟩ =
    [latestLap 3 ([1, 2] ++ [3, 4])] :=
  C92_dequeued_reference .checked 3 (by decide) (by decide) [] [.enqueue 1, .enqueue 2] [.enqueue 3, .enqueue 4] (by decide) 0 rfl
    refDemo [.done, .done] rfl [1, 2] rfl ⟨[0]⟩ rfl

-- C92, concurrency: two threads, two slots; thread 1 dequeues the first element while thread 0 enqueues the second
example : ∃ s s' : RState Nat 2,
    (RState.init Nat 2).run .checked 2 [.consumer 1, .enqueue 0 7, .next 0 false, .next 0 false, .dequeue 1 0, .next 1 false, .next 1 false,
      .enqueue 0 8, .next 1 false] = s ∧ s.run .checked 2 [.next 0 false, .next 0 false] = s' ∧
    REv.deqSome 0 0 (some 7) ∈ s.events ∧ s'.ring.reserved ≤ 0 + 2 ∧ s'.ring.look (dequeueRef 2 0) = [some 7] :=
  ⟨_, _, rfl, rfl, List.mem_of_getLast? rfl, by decide, rfl⟩

-- C93: with two slots, five elements enqueued: two uninitialised slots and three elements are dropped, two elements are not
example : (RingSys.init Nat).dropsOverall .checked 2 [.enqueue 1, .consumer, .enqueue 2, .enqueue 3, .dequeue 0, .enqueue 4, .enqueue 5] =
    [none, none, some 1, some 2, some 3] := rfl

end BigO
