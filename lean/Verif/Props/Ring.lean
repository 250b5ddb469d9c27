import Verif.Proofs.RingMore

/-!
# Ring buffer used one call at a time: C30 - C34, C37

`RingSys.run p N (RingSys.init α) ops` is the implementation executing the calls `ops` on a fresh buffer of `N`
slots in build profile `p`; its second component is what each call returned.  `RingOut.view` reads such a result as
a result of the log specification (`none` for a panic, a hang, or a read of uninitialised memory).
-/
namespace BigO

variable {α : Type}

/-! ## C30 -/

/-- C30: any history of calls on any number of consumers, with fewer than 2^32 enqueues, gives exactly the results of
the log-with-cursors specification - so in particular no call panics, hangs, or reads uninitialised memory. -/
theorem C30_ring_refines_log (p : Profile) (N : Nat) (hN : 0 < N) (hN32 : N < 2 ^ 32) (ops : List (RingOp α))
    (hfew : (enqueued ops).length < 2 ^ 32) :
    ((RingSys.init α).run p N ops).2.map RingOut.view = ((LogSys.init α).run N ops).2.map some :=
  (run_refines (p := p) hN32 ops (sysInv_init N hN) (by simpa [LogSys.init] using hfew)).1

/-- the specification's log is what was enqueued, in order -/
theorem C30_log_is_enqueued (p : Profile) (N : Nat) (hN : 0 < N) (hN32 : N < 2 ^ 32) (ops : List (RingOp α))
    (hfew : (enqueued ops).length < 2 ^ 32) : ((LogSys.init α).run N ops).1.log = enqueued ops := by
  simpa [LogSys.init] using
    (run_refines (p := p) hN32 ops (sysInv_init N hN) (by simpa [LogSys.init] using hfew)).2.2

/-- non-vacuity: a history with two consumers, wrap-around of the slots and an overflow -/
def ringDemo : List (RingOp Nat) :=
  [.consumer, .enqueue 10, .enqueue 11, .dequeue 0, .consumer, .enqueue 12, .peekAll 0, .enqueue 13, .peekAll 0,
   .dequeue 1, .dequeue 0, .dequeue 0]

example : (enqueued ringDemo).length < 2 ^ 32 ∧ 0 < 2 ∧ 2 < 2 ^ 32 := by decide

example : ((RingSys.init Nat).run .checked 2 ringDemo).2.map RingOut.view =
    [some (.consumer 0), some .done, some .done, some (.dequeued (some 10)), some (.consumer 1), some .done,
     some (.peeked [11, 12]), some .done, some .overflow, some (.dequeued (some 12)), some .overflow,
     some (.dequeued (some 12))] := by rfl

/-! ## C31 -/

/-- state after the history `pre` -/
abbrev afterHist (p : Profile) (N : Nat) (pre : List (RingOp α)) : RingSys α := ((RingSys.init α).run p N pre).1

/-- the consumer created after `pre` has this id (consumers are numbered in creation order) -/
theorem C31_consumer_id (p : Profile) (N : Nat) (pre : List (RingOp α)) :
    ∃ id, ((afterHist p N pre).step p N .consumer).2 = .consumer id := ⟨_, rfl⟩

theorem sys_after (p : Profile) (N : Nat) (hN : 0 < N) (hN32 : N < 2 ^ 32) (pre post : List (RingOp α))
    (hfew : (enqueued (pre ++ post)).length < 2 ^ 32) {id : Nat}
    (hid : ((afterHist p N pre).step p N .consumer).2 = .consumer id) :
    ∃ l : LogSys α, SysInv N ((afterHist p N pre).step p N .consumer).1 l ∧ l.log = enqueued pre ∧
      l.cursors[id]? = some (enqueued pre).length ∧ l.log.length + (enqueued post).length < 2 ^ 32 := by
  have happ : ∀ a b : List (RingOp α), enqueued (a ++ b) = enqueued a ++ enqueued b := by
    intro a b
    induction a with
    | nil => rfl
    | cons x a ih => rw [List.cons_append, enqueued_cons, ih, enqueued_cons x a, List.append_assoc]
  rw [happ] at hfew
  simp only [List.length_append] at hfew
  obtain ⟨_, h2, h3⟩ := run_refines (p := p) hN32 pre (sysInv_init N hN) (by simp [LogSys.init]; omega)
  obtain ⟨_, h5, h6⟩ := step_refines (p := p) hN32 h2 .consumer (by rw [h3]; simp [LogSys.init, enqueued]; omega)
  refine ⟨_, h5, ?_, ?_, ?_⟩
  · rw [h6, h3]; simp [LogSys.init, enqueued]
  · have : id = ((LogSys.init α).run N pre).1.cursors.length := by
      simp only [RingSys.step] at hid
      have := RingOut.consumer.inj hid
      rw [← this, h2.heads]
    subst this
    have : ((LogSys.init α).run N pre).1.log = enqueued pre := by rw [h3]; rfl
    simp [LogSys.step, this]
  · rw [h6, h3]; simp [LogSys.init, enqueued]; omega

/-- C31: after any history `pre`, a new consumer `id` followed by any calls `post` (of anybody, on any consumer): as long
as `id` never saw the overflow error, the values it received are exactly the first ones enqueued since its creation, in
order, each once - as many as the number of its `dequeue` calls that did not answer `Ok(None)`. -/
theorem C31_fifo (p : Profile) (N : Nat) (hN : 0 < N) (hN32 : N < 2 ^ 32) (pre post : List (RingOp α))
    (hfew : (enqueued (pre ++ post)).length < 2 ^ 32) (id : Nat)
    (hid : ((afterHist p N pre).step p N .consumer).2 = .consumer id)
    (outs : List (RingOut α)) (houts : outs = (((afterHist p N pre).step p N .consumer).1.run p N post).2)
    (hno : ¬ sawOverflow id post outs) :
    received id post outs = (enqueued post).take (consumedCount id post outs) ∧
      (received id post outs).length = consumedCount id post outs := by
  subst houts
  obtain ⟨l, h1, h2, h3, h4⟩ := sys_after p N hN hN32 pre post hfew hid
  obtain ⟨_, k2, k3⟩ := run_cursor (p := p) hN32 post h1 h4 h3
  obtain ⟨_, _, hlog⟩ := run_refines (p := p) hN32 post h1 h4
  have hr := k2 hno
  rw [hlog, h2, List.drop_append_of_le_length (Nat.le_refl _)] at hr
  simp only [List.drop_length, List.nil_append] at hr
  refine ⟨hr, ?_⟩
  rw [hlog, h2] at k3
  simp only [List.length_append] at k3
  rw [hr, List.length_take]; omega

/-- C31: nothing is withheld: when a further `dequeue` answers `Ok(None)`, the consumer has received everything enqueued
since its creation. -/
theorem C31_none_means_all_received (p : Profile) (N : Nat) (hN : 0 < N) (hN32 : N < 2 ^ 32)
    (pre post : List (RingOp α)) (hfew : (enqueued (pre ++ post)).length < 2 ^ 32) (id : Nat)
    (hid : ((afterHist p N pre).step p N .consumer).2 = .consumer id)
    (s : RingSys α) (outs : List (RingOut α))
    (hrun : ((afterHist p N pre).step p N .consumer).1.run p N post = (s, outs))
    (hno : ¬ sawOverflow id post outs) (hnone : (s.step p N (.dequeue id)).2 = .dequeued none) :
    received id post outs = enqueued post := by
  obtain ⟨l, h1, h2, h3, h4⟩ := sys_after p N hN hN32 pre post hfew hid
  have hf := C31_fifo p N hN hN32 pre post hfew id hid outs (by rw [hrun]) hno
  obtain ⟨k1, k2, k3⟩ := run_cursor (p := p) hN32 post h1 h4 h3
  obtain ⟨_, hsys, hlog⟩ := run_refines (p := p) hN32 post h1 h4
  rw [hrun] at k1 k2 k3 hsys
  simp only at k1 k2 k3 hsys
  have hd := dequeue_inv (p := p) hsys.ring hN32 k3
  simp only [RingSys.step, hsys.heads, k1, hd] at hnone
  rw [hlog, h2] at k3 hnone
  simp only [List.length_append] at k3 hnone
  by_cases he : (enqueued pre).length + consumedCount id post outs = (enqueued pre).length + (enqueued post).length
  · rw [hf.1, List.take_of_length_le (by omega)]
  · rw [if_neg he] at hnone
    split at hnone
    · rename_i hx
      split at hx
      · cases hx
      · simp only [Outcome.ok.injEq, Except.ok.injEq] at hx
        subst hx
        cases hnone
    all_goals cases hnone

/-- non-vacuity of C31: `pre` leaves two elements behind, the consumer receives two of three -/
example : ((afterHist .checked 2 [.enqueue 1, .enqueue 2]).step .checked 2 .consumer).2 = .consumer 0 ∧
    received 0 [.enqueue 3, .dequeue 0, .enqueue 4, .enqueue 5, .dequeue 0]
      (((afterHist .checked 2 [.enqueue 1, .enqueue 2]).step .checked 2 .consumer).1.run .checked 2
        [.enqueue 3, .dequeue 0, .enqueue 4, .enqueue 5, .dequeue 0]).2 = [3, 4] := by
  exact ⟨rfl, rfl⟩

/-! ## C32 -/

/-- C32: what a consumer sees is not changed by removing every call made on other consumers (no bound on anything: also
true when calls panic or hang, for every profile and size). -/
theorem C32_consumers_independent (p : Profile) (N : Nat) (ops : List (RingOp α)) (c : Nat) :
    seenBy c ops ((RingSys.init α).run p N ops).2 =
      seenBy c (ops.filter fun op => !op.byOther c)
        ((RingSys.init α).run p N (ops.filter fun op => !op.byOther c)).2 :=
  run_other c ops rfl rfl rfl

example : (seenBy 0 ringDemo ((RingSys.init Nat).run .checked 2 ringDemo).2).length = 5 ∧
    (ringDemo.filter fun op => !op.byOther 0).length < ringDemo.length :=
  ⟨by rfl, by decide⟩

/-! ## C33 -/

/-- C33: `peek_all` changes nothing: dropping all `peek_all` calls from a history leaves the final state and the results
of all other calls as they were. -/
theorem C33_peek_is_non_destructive (p : Profile) (N : Nat) (s : RingSys α) (ops : List (RingOp α)) :
    (s.run p N ops).1 = (s.run p N (ops.filter fun op => !op.isPeek)).1 ∧
    nonPeekOuts ops (s.run p N ops).2 = (s.run p N (ops.filter fun op => !op.isPeek)).2 :=
  run_nonPeek ops s

/-- C33: `peek_all` returns, as the concatenation of its two slices, exactly the pending elements in order (those enqueued
since the consumer's creation minus those consumed by `dequeue`) when at most `N` are pending, and the error otherwise. -/
theorem C33_peek_all_complete (p : Profile) (N : Nat) (hN : 0 < N) (hN32 : N < 2 ^ 32)
    (pre post : List (RingOp α)) (hfew : (enqueued (pre ++ post)).length < 2 ^ 32) (id : Nat)
    (hid : ((afterHist p N pre).step p N .consumer).2 = .consumer id)
    (s : RingSys α) (outs : List (RingOut α))
    (hrun : ((afterHist p N pre).step p N .consumer).1.run p N post = (s, outs))
    (pending : List α) (hp : pending = (enqueued post).drop (consumedCount id post outs)) :
    (pending.length > N → ∃ e, (s.step p N (.peekAll id)).2 = .overflow e) ∧
    (pending.length ≤ N → ∃ s1 s2, (s.step p N (.peekAll id)).2 = .peeked s1 s2 ∧ s1 ++ s2 = pending.map some) := by
  obtain ⟨l, h1, h2, h3, h4⟩ := sys_after p N hN hN32 pre post hfew hid
  obtain ⟨k1, _, k3⟩ := run_cursor (p := p) hN32 post h1 h4 h3
  obtain ⟨_, hsys, hlog⟩ := run_refines (p := p) hN32 post h1 h4
  rw [hrun] at k1 k3 hsys
  simp only at k1 k3 hsys
  have hpend : (l.run N post).1.log.drop ((enqueued pre).length + consumedCount id post outs) = pending := by
    rw [hlog, h2, hp, List.drop_length_add_append]
  have hk := peek_inv (p := p) hsys.ring hN32 k3
  rw [hpend] at hk
  simp only [RingSys.step, hsys.heads, k1]
  rcases hk with ⟨q1, q2⟩ | ⟨q1, a, b, q2, q3⟩
  · exact ⟨fun _ => ⟨_, by rw [q2]⟩, fun h => by omega⟩
  · exact ⟨fun h => by omega, fun _ => ⟨a, b, by rw [q2], q3⟩⟩

/-- C33/C31: `dequeue` answers with the error exactly when more than `N` elements are pending -/
theorem C33_dequeue_error_iff (p : Profile) (N : Nat) (hN : 0 < N) (hN32 : N < 2 ^ 32)
    (pre post : List (RingOp α)) (hfew : (enqueued (pre ++ post)).length < 2 ^ 32) (id : Nat)
    (hid : ((afterHist p N pre).step p N .consumer).2 = .consumer id)
    (s : RingSys α) (outs : List (RingOut α))
    (hrun : ((afterHist p N pre).step p N .consumer).1.run p N post = (s, outs))
    (pending : List α) (hp : pending = (enqueued post).drop (consumedCount id post outs)) :
    (s.step p N (.dequeue id)).2.view =
      some (match pending with
        | [] => .dequeued none
        | x :: _ => if pending.length > N then .overflow else .dequeued (some x)) := by
  obtain ⟨l, h1, h2, h3, h4⟩ := sys_after p N hN hN32 pre post hfew hid
  obtain ⟨k1, _, k3⟩ := run_cursor (p := p) hN32 post h1 h4 h3
  obtain ⟨_, hsys, hlog⟩ := run_refines (p := p) hN32 post h1 h4
  rw [hrun] at k1 k3 hsys
  simp only at k1 k3 hsys
  have hpend : (l.run N post).1.log.drop ((enqueued pre).length + consumedCount id post outs) = pending := by
    rw [hlog, h2, hp, List.drop_length_add_append]
  have hst := (step_refines (p := p) hN32 hsys (.dequeue id)
    (by rw [hlog]; simp [enqueued]; omega)).1
  rw [hst]
  simp only [LogSys.step, k1, hpend]
  cases pending <;> simp

example : ((RingSys.init Nat).run .checked 2 ringDemo).2.length = 12 := by rfl

/-! ## C34 -/

/-- C34, false as documented: for every size `N`, a consumer that is one element too far behind gets the overflow error
once, and its very next `dequeue` succeeds. -/
theorem C34_overflowed_consumer_recovers (p : Profile) (N : Nat) (hN : 0 < N) (hN32 : N + 1 < 2 ^ 32) (es : List α)
    (hes : es.length = N + 1) :
    ∃ (s : RingSys α) (e : OverflowError),
      ((RingSys.init α).run p N (.consumer :: es.map .enqueue)).1 = s ∧
      (s.step p N (.dequeue 0)).2 = .overflow e ∧
      ((s.step p N (.dequeue 0)).1.step p N (.dequeue 0)).2 = .dequeued (some es[1]?) := by
  refine ⟨_, overflowError N (N + 1) 0, rfl, ?_⟩
  have henq : ∀ es : List α, enqueued (es.map RingOp.enqueue) = es := by
    intro es; induction es with
    | nil => rfl
    | cons e es ih => rw [List.map_cons, enqueued, ih]
  have hE : enqueued (RingOp.consumer :: es.map RingOp.enqueue) = es := by rw [enqueued]; exact henq es; all_goals simp
  obtain ⟨_, hsys, hlog⟩ := run_refines (p := p) (N := N) (by omega) (RingOp.consumer :: es.map .enqueue)
    (sysInv_init N hN) (by rw [hE]; simp [LogSys.init]; omega)
  rw [hE] at hlog
  simp only [LogSys.init, List.nil_append] at hlog
  have hcur : ((LogSys.init α).run N (RingOp.consumer :: es.map .enqueue)).1.cursors = [0] := by
    have : ∀ (es : List α) (l : LogSys α), (l.run N (es.map RingOp.enqueue)).1.cursors = l.cursors := by
      intro es; induction es with
      | nil => intro l; rfl
      | cons e es ih => intro l; simp only [List.map_cons, LogSys.run, ih]; rfl
    simp only [LogSys.run, this]; rfl
  have hh := hsys.heads
  rw [hcur] at hh
  have hring := hsys.ring
  rw [show ((LogSys.init α).run N (RingOp.consumer :: es.map .enqueue)).1.log = es from hlog] at hring
  have d0 := dequeue_inv (p := p) hring (by omega) (head := 0) (by omega)
  have d1 := dequeue_inv (p := p) hring (by omega) (head := 1) (by omega)
  rw [if_neg (by omega), if_pos (by omega), hes] at d0
  rw [if_neg (by omega), if_neg (by omega)] at d1
  simp only [RingSys.step, hh, List.getElem?_cons_zero, d0, List.set_cons_zero, d1, and_self]

/-- the concrete case of 16 slots -/
example : (((RingSys.init Nat).run .checked 16
      (.consumer :: (List.range 17).map .enqueue ++ [.dequeue 0, .dequeue 0])).2.drop 18).map RingOut.view
    = [some .overflow, some (.dequeued (some 1))] := by rfl

/-- C34, the part that holds: while the consumer itself calls no `dequeue`, a `peek_all` error is permanent - whatever
else happens, later `peek_all` calls on it fail too. (Missing: `dequeue`, which is false, see above.) -/
theorem C34_peek_error_is_permanent_partial (p : Profile) (N : Nat) (hN : 0 < N) (hN32 : N < 2 ^ 32)
    (pre post : List (RingOp α)) (hfew : (enqueued (pre ++ post)).length < 2 ^ 32) (c : Nat) (e : OverflowError)
    (herr : ((afterHist p N pre).step p N (.peekAll c)).2 = .overflow e)
    (hnod : RingOp.dequeue c ∉ post) :
    ∃ e', (((afterHist p N pre).run p N post).1.step p N (.peekAll c)).2 = .overflow e' := by
  have happ : ∀ a b : List (RingOp α), enqueued (a ++ b) = enqueued a ++ enqueued b := by
    intro a b
    induction a with
    | nil => rfl
    | cons x a ih => rw [List.cons_append, enqueued_cons, ih, enqueued_cons x a, List.append_assoc]
  rw [happ] at hfew
  simp only [List.length_append] at hfew
  obtain ⟨_, h2, h3⟩ := run_refines (p := p) hN32 pre (sysInv_init N hN) (by simp [LogSys.init]; omega)
  have h4 : ((LogSys.init α).run N pre).1.log.length + (enqueued post).length < 2 ^ 32 := by
    rw [h3]; simp [LogSys.init]; omega
  simp only [RingSys.step] at herr
  cases hc : (afterHist p N pre).heads[c]? with
  | none => rw [hc] at herr; cases herr
  | some cur =>
    rw [hc] at herr
    have hcl : ((LogSys.init α).run N pre).1.cursors[c]? = some cur := by rw [← h2.heads]; exact hc
    have hle := h2.le cur (List.mem_of_getElem? hcl)
    have hov : N < (((LogSys.init α).run N pre).1.log.drop cur).length := by
      rcases peek_inv (p := p) h2.ring hN32 hle with ⟨q, _⟩ | ⟨_, a, b, q, _⟩
      · exact q
      · simp only [afterHist, q] at herr; cases herr
    obtain ⟨k1, _, k3⟩ := run_cursor (p := p) hN32 post h2 h4 hcl
    obtain ⟨_, hsys, hlog⟩ := run_refines (p := p) hN32 post h2 h4
    have hz : ∀ (ops : List (RingOp α)) (outs : List (RingOut α)), RingOp.dequeue c ∉ ops → consumedCount c ops outs = 0 := by
      intro ops
      induction ops with
      | nil => intro outs _; cases outs <;> rfl
      | cons op ops ih =>
        intro outs hn
        cases outs with
        | nil => cases op <;> rfl
        | cons o os =>
          rw [consumedCount_cons, ih os (fun h => hn (List.mem_cons_of_mem _ h))]
          cases op with
          | dequeue d =>
            have : d ≠ c := by rintro rfl; exact hn List.mem_cons_self
            rcases o with _ | _ | v | _ | _ | _ | _ | _ <;> try simp [consumedCount, this]
            cases v <;> simp [consumedCount, this]
          | _ => simp [consumedCount]
    rw [hz post _ hnod, Nat.add_zero] at k1 k3
    have hov' : N < ((((LogSys.init α).run N pre).1.run N post).1.log.drop cur).length := by
      rw [hlog]; simp only [List.length_drop, List.length_append] at hov ⊢; omega
    rcases peek_inv (p := p) hsys.ring hN32 k3 with ⟨_, q⟩ | ⟨q, _⟩
    · refine ⟨overflowError N (((LogSys.init α).run N pre).1.run N post).1.log.length cur, ?_⟩
      simp only [RingSys.step, hsys.heads, k1, q]
    · omega

example : ((afterHist .checked 1 [.consumer, .enqueue 1, .enqueue 2]).step .checked 1 (.peekAll 0)).2
    = .overflow (overflowError 1 2 0) := by rfl

/-! ## C37 -/

/-- C37, false in builds with overflow checks: after any history with 2^32 - 1 enqueues the next `enqueue` panics ... -/
theorem C37_checked_enqueue_panics (N : Nat) (hN : 0 < N) (hN32 : N < 2 ^ 32) (pre : List (RingOp α))
    (hlen : (enqueued pre).length = 2 ^ 32 - 1) (e : α) :
    ((afterHist .checked N pre).step .checked N (.enqueue e)).2 = .panic .addOverflow := by
  obtain ⟨_, h2, h3⟩ := run_refines (p := .checked) hN32 pre (sysInv_init N hN) (by simp [LogSys.init]; omega)
  have hres := h2.ring.res
  rw [h3] at hres
  simp only [LogSys.init, List.nil_append, hlen] at hres
  have hN' : N ≠ 0 := by omega
  simp only [RingSys.step, Ring.enqueue, afterHist, hN', if_false, hres, u32Add]
  rfl

/-- ... and from then on the buffer is unusable: whatever calls follow, every `enqueue` panics. -/
theorem C37_checked_never_recovers (N : Nat) (hN : 0 < N) (hN32 : N < 2 ^ 32) (pre post : List (RingOp α))
    (hlen : (enqueued pre).length = 2 ^ 32 - 1) (e e' : α) :
    ∃ q, ((((afterHist .checked N pre).step .checked N (.enqueue e)).1.run .checked N post).1.step .checked N
      (.enqueue e')).2 = .panic q := by
  obtain ⟨_, h2, h3⟩ := run_refines (p := .checked) hN32 pre (sysInv_init N hN) (by simp [LogSys.init]; omega)
  have hres := h2.ring.res
  have hpub := h2.ring.pub
  rw [h3] at hres hpub
  simp only [LogSys.init, List.nil_append, hlen] at hres hpub
  have hj : Jammed ((afterHist .checked N pre).step .checked N (.enqueue e)).1.ring := by
    have : Jammed (afterHist .checked N pre).ring := ⟨hpub, by rw [show (afterHist .checked N pre).ring.reserved = _ from hres]; decide⟩
    exact jammed_step this hN _
  have hrun : ∀ (post : List (RingOp α)) (s : RingSys α), Jammed s.ring → Jammed (s.run .checked N post).1.ring := by
    intro post
    induction post with
    | nil => intro s h; exact h
    | cons op post ih => intro s h; exact ih _ (jammed_step h hN op)
  obtain ⟨q, hq, _⟩ := jammed_enqueue (N := N) (hrun post _ hj) e' hN
  generalize (((afterHist .checked N pre).step .checked N (.enqueue e)).1.run .checked N post).1 = t at hq
  exact ⟨q, by simp only [RingSys.step, hq]⟩

/-- C37, false for `dequeue` in builds without overflow checks: a consumer created just before the 2^32-th enqueue hangs
forever on `dequeue` after it, although one element is pending. -/
theorem C37_wrapping_dequeue_hangs (N : Nat) (hN : 0 < N) (hd : N ∣ 2 ^ 32) (es : List α) (e : α)
    (hlen : es.length = 2 ^ 32 - 1) :
    (((RingSys.init α).run .wrapping N (es.map .enqueue ++ [.consumer, .enqueue e])).1.step .wrapping N (.dequeue 0)).2
      = .diverges := by
  obtain ⟨i1, i2, _⟩ := wrap_enqueues es (s := RingSys.init α) (wrapInv_new N hN hd)
  rw [runRing_append]
  generalize hs : ((RingSys.init α).run .wrapping N (es.map .enqueue)).1 = s at i1 i2
  have hpub := i1.pub
  simp only [List.nil_append, hlen] at hpub
  have hpub' : s.ring.published = 2 ^ 32 - 1 := by rw [hpub]
  obtain ⟨_, w2⟩ := wrap_enqueue i1 e
  have hp2 := w2.pub
  simp only [List.nil_append, List.length_append, hlen, List.length_singleton] at hp2
  have hp2' : (s.ring.enqueue .wrapping N e).1.published = 0 := by rw [hp2]
  have hheads : s.heads = [] := i2
  simp only [RingSys.run, RingSys.step, Ring.consumer, hheads, List.nil_append, List.getElem?_cons_zero, Ring.dequeue,
    hp2', hpub']
  rfl

/-- C37, the part that holds: in builds without overflow checks and for sizes dividing 2^32 (such as 1024), `enqueue`
never fails however many calls were made, and `peek_all` keeps giving exactly the pending elements (or the error) for a
consumer with fewer than 2^32 pending elements. (Missing: `dequeue`, and every build with overflow checks.) -/
theorem C37_wrapping_peek_survives_partial (N : Nat) (hN : 0 < N) (hd : N ∣ 2 ^ 32) (hN32 : N < 2 ^ 32)
    (before after : List α) (hfew : after.length < 2 ^ 32) :
    ((RingSys.init α).run .wrapping N (before.map .enqueue ++ [.consumer] ++ after.map .enqueue)).2 =
      before.map (fun _ => .done) ++ [.consumer 0] ++ after.map (fun _ => .done) ∧
    (after.length ≤ N → ∃ s1 s2,
      (((RingSys.init α).run .wrapping N (before.map .enqueue ++ [.consumer] ++ after.map .enqueue)).1.step .wrapping N
        (.peekAll 0)).2 = .peeked s1 s2 ∧ s1 ++ s2 = after.map some) ∧
    (after.length > N → ∃ e,
      (((RingSys.init α).run .wrapping N (before.map .enqueue ++ [.consumer] ++ after.map .enqueue)).1.step .wrapping N
        (.peekAll 0)).2 = .overflow e) := by
  obtain ⟨i1, i2, i3⟩ := wrap_enqueues before (s := RingSys.init α) (wrapInv_new N hN hd)
  rw [runRing_append, runRing_append]
  generalize hs : ((RingSys.init α).run .wrapping N (before.map .enqueue)) = r at i1 i2 i3
  obtain ⟨s, os⟩ := r
  simp only at i1 i2 i3
  have hheads : s.heads = [] := i2
  simp only [RingSys.run, i3]
  have hhead : s.ring.published = before.length % 2 ^ 32 := i1.pub
  have hst : s.step .wrapping N .consumer = ({ s with heads := [before.length % 2 ^ 32] }, .consumer 0) := by
    simp [RingSys.step, hheads, Ring.consumer, hhead]
  simp only [hst]
  obtain ⟨j1, j2, j3⟩ := wrap_enqueues after (s := { s with heads := [before.length % 2 ^ 32] }) i1
  have hk := wrap_peek j1 hN32 (cur := before.length) (by simp) (by simp; omega)
  simp only [List.nil_append, List.drop_left] at hk
  refine ⟨by rw [j3], ?_, ?_⟩
  · intro hle
    rcases hk with ⟨q, _⟩ | ⟨_, a, b, q1, q2⟩
    · omega
    · refine ⟨a, b, ?_, q2⟩
      simp only [RingSys.step, j2, List.getElem?_cons_zero, q1]
  · intro hgt
    rcases hk with ⟨_, e, q⟩ | ⟨q, _⟩
    · refine ⟨e, ?_⟩
      simp only [RingSys.step, j2, List.getElem?_cons_zero, q]
    · omega

/-- the size used by the crate -/
example : 0 < 1024 ∧ 1024 ∣ 2 ^ 32 ∧ 1024 < 2 ^ 32 := by decide

/-- the hypothesis on the number of enqueues can be met -/
example : ∃ pre : List (RingOp Nat), (enqueued pre).length = 2 ^ 32 - 1 := by
  refine ⟨(List.replicate (2 ^ 32 - 1) 0).map .enqueue, ?_⟩
  have henq : ∀ es : List Nat, enqueued (es.map RingOp.enqueue) = es := by
    intro es; induction es with
    | nil => rfl
    | cons e es ih => rw [List.map_cons, enqueued, ih]
  rw [henq, List.length_replicate]

end BigO
