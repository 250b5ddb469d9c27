import Verif.Proofs.Ring

/-! # Consequences of the refinement, and behaviour beyond 2^32 enqueues -/
set_option linter.unusedSimpArgs false
set_option linter.unusedVariables false
namespace BigO

variable {α : Type}

theorem runRing_append {p : Profile} {N : Nat} (ops ops' : List (RingOp α)) :
    ∀ s : RingSys α, s.run p N (ops ++ ops') =
      (((s.run p N ops).1.run p N ops').1, (s.run p N ops).2 ++ ((s.run p N ops).1.run p N ops').2) := by
  induction ops with
  | nil => intro s; simp [RingSys.run]
  | cons op ops ih => intro s; simp [RingSys.run, ih]

theorem runRing_length {p : Profile} {N : Nat} (ops : List (RingOp α)) :
    ∀ s : RingSys α, (s.run p N ops).2.length = ops.length := by
  induction ops with
  | nil => intro s; simp [RingSys.run]
  | cons op ops ih => intro s; simp [RingSys.run, ih]

/-- one call, seen from consumer `c` at cursor `cur` -/
theorem step_cursor {p : Profile} {N : Nat} (hN32 : N < 2 ^ 32) {s : RingSys α} {l : LogSys α} (h : SysInv N s l)
    (op : RingOp α) (hs : l.log.length + (enqueued [op]).length < 2 ^ 32) {c cur : Nat}
    (hc : l.cursors[c]? = some cur) :
    (l.step N op).1.cursors[c]? = some (cur + consumedCount c [op] [(s.step p N op).2]) ∧
    (¬ sawOverflow c [op] [(s.step p N op).2] →
      received c [op] [(s.step p N op).2] =
        (((l.step N op).1.log.drop cur).take (consumedCount c [op] [(s.step p N op).2]))) ∧
    cur + consumedCount c [op] [(s.step p N op).2] ≤ (l.step N op).1.log.length := by
  obtain ⟨hr, hh, hle⟩ := h
  have hcur : cur ≤ l.log.length := hle cur (List.mem_of_getElem? hc)
  cases op with
  | enqueue e => simp [LogSys.step, consumedCount, received, hc]; omega
  | consumer =>
    have hcl : c < l.cursors.length := (List.getElem?_eq_some_iff.1 hc).1
    simp [LogSys.step, consumedCount, received, hc, List.getElem?_append_left hcl]; omega
  | peekAll d =>
    have : (l.step N (.peekAll d)).1 = l := by simp only [LogSys.step]; split <;> rfl
    rw [this]
    simp [consumedCount, received, hc]; omega
  | dequeue d =>
    simp only [RingSys.step, LogSys.step, hh]
    cases hd : l.cursors[d]? with
    | none =>
      have hne : d ≠ c := by rintro rfl; rw [hc] at hd; cases hd
      simp [consumedCount, received, hc, hne]; omega
    | some cd =>
      have hcd : cd ≤ l.log.length := hle cd (List.mem_of_getElem? hd)
      simp only [dequeue_inv hr hN32 hcd]
      by_cases he : cd = l.log.length
      · simp [he, consumedCount, received, hc]; omega
      · have hlt : cd < l.log.length := by omega
        rw [List.drop_eq_getElem_cons hlt]
        simp only [he, if_false]
        by_cases hdc : d = c
        · subst hdc
          rw [hc] at hd
          obtain rfl := Option.some.inj hd
          have hcl : d < l.cursors.length := (List.getElem?_eq_some_iff.1 hc).1
          by_cases hov : l.log.length - cur > N
          · simp [hov, consumedCount, received, sawOverflow, hcl]; omega
          · simp only [hov, if_false, List.getElem?_eq_getElem hlt, consumedCount, received, sawOverflow, if_true]
            refine ⟨by simp [hcl], ?_, by simp; omega⟩
            intro _
            rw [List.drop_eq_getElem_cons hlt]; rfl
        · have hset : (l.cursors.set d (cd + 1))[c]? = some cur := by
            rw [List.getElem?_set_ne hdc, hc]
          by_cases hov : l.log.length - cd > N
          · simp [hov, consumedCount, received, sawOverflow, hdc, hset]; omega
          · simp [hov, consumedCount, received, sawOverflow, hdc, hset, List.getElem?_eq_getElem hlt]; omega

theorem consumedCount_cons (c : Nat) (op : RingOp α) (ops) (o : RingOut α) (os) :
    consumedCount c (op :: ops) (o :: os) = consumedCount c [op] [o] + consumedCount c ops os := by
  cases op <;> cases o <;> try simp [consumedCount]
  rename_i d v; cases v <;> simp [consumedCount]

theorem received_cons (c : Nat) (op : RingOp α) (ops) (o : RingOut α) (os) :
    received c (op :: ops) (o :: os) = received c [op] [o] ++ received c ops os := by
  cases op <;> cases o <;> try simp [received]
  rename_i d v
  rcases v with _ | _ | v <;> simp [received]
  split <;> simp

theorem sawOverflow_cons (c : Nat) (op : RingOp α) (ops) (o : RingOut α) (os) :
    sawOverflow c (op :: ops) (o :: os) ↔ sawOverflow c [op] [o] ∨ sawOverflow c ops os := by
  cases op <;> cases o <;> simp [sawOverflow]

theorem run_cursor {p : Profile} {N : Nat} (hN32 : N < 2 ^ 32) (ops : List (RingOp α)) :
    ∀ {s : RingSys α} {l : LogSys α}, SysInv N s l → l.log.length + (enqueued ops).length < 2 ^ 32 →
    ∀ {c cur : Nat}, l.cursors[c]? = some cur →
    (l.run N ops).1.cursors[c]? = some (cur + consumedCount c ops (s.run p N ops).2) ∧
    (¬ sawOverflow c ops (s.run p N ops).2 →
      received c ops (s.run p N ops).2 =
        (((l.run N ops).1.log.drop cur).take (consumedCount c ops (s.run p N ops).2))) ∧
    cur + consumedCount c ops (s.run p N ops).2 ≤ (l.run N ops).1.log.length := by
  induction ops with
  | nil =>
    intro s l h _ c cur hc
    have := h.le cur (List.mem_of_getElem? hc)
    simp [LogSys.run, RingSys.run, consumedCount, received, hc]; omega
  | cons op ops ih =>
    intro s l h hs c cur hc
    rw [enqueued_cons] at hs
    have hs1 : l.log.length + (enqueued [op]).length < 2 ^ 32 := by simp at hs; omega
    obtain ⟨h1, h2, h3⟩ := step_refines (p := p) hN32 h op hs1
    obtain ⟨k1, k2, k3⟩ := step_cursor (p := p) hN32 h op hs1 hc
    obtain ⟨i1, i2, i3⟩ := ih h2 (by rw [h3]; simp at hs ⊢; omega) k1
    obtain ⟨_, _, hlog⟩ := run_refines (p := p) hN32 ops h2 (by rw [h3]; simp at hs ⊢; omega)
    simp only [RingSys.run, LogSys.run]
    rw [consumedCount_cons, received_cons, sawOverflow_cons]
    refine ⟨by rw [i1, Nat.add_assoc], ?_, by omega⟩
    intro hno
    rw [not_or] at hno
    rw [k2 hno.1, i2 hno.2, hlog, List.take_add, List.drop_drop]
    congr 1
    rw [List.drop_append_of_le_length (by omega), List.take_append_of_le_length]
    simp; omega

/-! ### independence of consumers: no assumption on sizes or counts -/

theorem step_other {p : Profile} {N : Nat} {s t : RingSys α} {c : Nat} (hr : s.ring = t.ring)
    (hl : s.heads.length = t.heads.length) (hc : s.heads[c]? = t.heads[c]?) (op : RingOp α) (ho : op.byOther c = false) :
    (s.step p N op).1.ring = (t.step p N op).1.ring ∧
    (s.step p N op).1.heads.length = (t.step p N op).1.heads.length ∧
    (s.step p N op).1.heads[c]? = (t.step p N op).1.heads[c]? ∧
    (s.step p N op).2 = (t.step p N op).2 := by
  cases op with
  | enqueue e => simp [RingSys.step, hr, hl, hc]
  | consumer =>
    refine ⟨hr, by simp [RingSys.step, hl], ?_, by simp [RingSys.step, hl]⟩
    simp only [RingSys.step, hr]
    rw [List.getElem?_append, List.getElem?_append, hl, hc]
  | dequeue d =>
    have : d = c := by simpa [RingOp.byOther] using ho
    subst this
    simp only [RingSys.step, hr]
    rw [hc]
    cases hx : t.heads[d]? with
    | none => simp [hr, hl, hc, hx]
    | some head =>
      have hlt : d < t.heads.length := (List.getElem?_eq_some_iff.1 hx).1
      simp [hr, hl, hlt]
  | peekAll d =>
    have : d = c := by simpa [RingOp.byOther] using ho
    subst this
    simp only [RingSys.step, hr]
    rw [hc]
    cases hx : t.heads[d]? <;> simp [hr, hl, hc, hx]

theorem step_byOther {p : Profile} {N : Nat} {s : RingSys α} {c : Nat} (op : RingOp α) (ho : op.byOther c = true) :
    (s.step p N op).1.ring = s.ring ∧ (s.step p N op).1.heads.length = s.heads.length ∧
    (s.step p N op).1.heads[c]? = s.heads[c]? := by
  cases op with
  | enqueue e => simp [RingOp.byOther] at ho
  | consumer => simp [RingOp.byOther] at ho
  | dequeue d =>
    have hne : d ≠ c := by simpa [RingOp.byOther] using ho
    simp only [RingSys.step]
    cases hx : s.heads[d]? <;> simp [List.getElem?_set_ne hne]
  | peekAll d =>
    simp only [RingSys.step]
    cases hx : s.heads[d]? <;> simp

theorem run_other {p : Profile} {N : Nat} (c : Nat) (ops : List (RingOp α)) :
    ∀ {s t : RingSys α}, s.ring = t.ring → s.heads.length = t.heads.length → s.heads[c]? = t.heads[c]? →
      seenBy c ops (s.run p N ops).2 =
        seenBy c (ops.filter fun op => !op.byOther c) (t.run p N (ops.filter fun op => !op.byOther c)).2 := by
  induction ops with
  | nil => intros; rfl
  | cons op ops ih =>
    intro s t hr hl hc
    cases ho : op.byOther c with
    | false =>
      obtain ⟨a, b, d, e⟩ := step_other (p := p) (N := N) hr hl hc op ho
      have := ih a b d
      simp only [List.filter_cons, ho, Bool.not_false, if_true, RingSys.run]
      cases op <;> simp only [seenBy, this, e]
    | true =>
      obtain ⟨a, b, d⟩ := step_byOther (p := p) (N := N) (s := s) op ho
      have := ih (a.trans hr) (b.trans hl) (d.trans hc)
      simp only [List.filter_cons, ho, Bool.not_true, if_false, RingSys.run]
      cases op with
      | dequeue x =>
        have hne : x ≠ c := by simpa [RingOp.byOther] using ho
        simp only [seenBy, hne, if_false, this]; rfl
      | peekAll x =>
        have hne : x ≠ c := by simpa [RingOp.byOther] using ho
        simp only [seenBy, hne, if_false, this]; rfl
      | enqueue e => simp [RingOp.byOther] at ho
      | consumer => simp [RingOp.byOther] at ho

theorem step_peek {p : Profile} {N : Nat} (s : RingSys α) (c : Nat) : (s.step p N (.peekAll c)).1 = s := by
  simp only [RingSys.step]; cases s.heads[c]? <;> rfl

theorem run_nonPeek {p : Profile} {N : Nat} (ops : List (RingOp α)) :
    ∀ s : RingSys α, (s.run p N ops).1 = (s.run p N (ops.filter fun op => !op.isPeek)).1 ∧
      nonPeekOuts ops (s.run p N ops).2 = (s.run p N (ops.filter fun op => !op.isPeek)).2 := by
  induction ops with
  | nil => intro s; exact ⟨rfl, rfl⟩
  | cons op ops ih =>
    intro s
    cases op with
    | peekAll c =>
      have hp : (RingOp.peekAll c : RingOp α).isPeek = true := rfl
      have := ih s
      simp only [List.filter_cons, hp, Bool.not_true, RingSys.run, step_peek, nonPeekOuts]
      exact this
    | enqueue e =>
      have hp : (RingOp.enqueue e : RingOp α).isPeek = false := rfl
      have := ih (s.step p N (.enqueue e)).1
      simp only [List.filter_cons, hp, Bool.not_false, if_true, RingSys.run, nonPeekOuts]
      exact ⟨this.1, by rw [this.2]⟩
    | consumer =>
      have hp : (RingOp.consumer : RingOp α).isPeek = false := rfl
      have := ih (s.step p N .consumer).1
      simp only [List.filter_cons, hp, Bool.not_false, if_true, RingSys.run, nonPeekOuts]
      exact ⟨this.1, by rw [this.2]⟩
    | dequeue c =>
      have hp : (RingOp.dequeue c : RingOp α).isPeek = false := rfl
      have := ih (s.step p N (.dequeue c)).1
      simp only [List.filter_cons, hp, Bool.not_false, if_true, RingSys.run, nonPeekOuts]
      exact ⟨this.1, by rw [this.2]⟩

/-! ### wrap-around -/

/-- after the failed 2^32-th enqueue of a checked build -/
def Jammed (r : Ring α) : Prop := r.published = 2 ^ 32 - 1 ∧ r.reserved < 2 ^ 32

theorem jammed_enqueue {N : Nat} {r : Ring α} (h : Jammed r) (e : α) (hN : 0 < N) :
    ∃ q, (r.enqueue .checked N e).2 = .panic q ∧ Jammed (r.enqueue .checked N e).1 := by
  obtain ⟨h1, h2⟩ := h
  have hN' : N ≠ 0 := by omega
  have hm : (r.reserved + 1) % 2 ^ 32 < 2 ^ 32 := Nat.mod_lt _ (by decide)
  simp only [Ring.enqueue, hN', if_false, u32Add, Ring.write]
  by_cases hb : r.reserved + 1 < 2 ^ 32
  · have h3 : ¬ r.published = r.reserved := by omega
    have h4 : r.published > r.reserved := by omega
    simp only [hb, if_true, h3, if_false, h4]
    exact ⟨_, rfl, h1, hm⟩
  · simp only [hb, if_false]
    exact ⟨_, rfl, h1, hm⟩

theorem jammed_step {N : Nat} {s : RingSys α} (h : Jammed s.ring) (hN : 0 < N) (op : RingOp α) :
    Jammed (s.step .checked N op).1.ring := by
  cases op with
  | enqueue e => obtain ⟨q, _, h2⟩ := jammed_enqueue (N := N) h e hN; exact h2
  | consumer => exact h
  | dequeue c => simp only [RingSys.step]; cases s.heads[c]? <;> exact h
  | peekAll c => rw [step_peek]; exact h

/-- invariant of wrapping builds: counters are the log length modulo 2^32 -/
structure WrapInv (N : Nat) (r : Ring α) (log : List α) : Prop where
  size : 0 < N
  dvd : N ∣ 2 ^ 32
  res : r.reserved = log.length % 2 ^ 32
  pub : r.published = log.length % 2 ^ 32
  slots : ∀ i, i < log.length → log.length ≤ i + N → r.slot (i % N) = log[i]?

theorem wrapInv_new (N : Nat) (h : 0 < N) (hd : N ∣ 2 ^ 32) : WrapInv N (Ring.new α) [] :=
  ⟨h, hd, rfl, rfl, by simp⟩

theorem wrap_enqueue {N : Nat} {r : Ring α} {log : List α} (h : WrapInv N r log) (e : α) :
    (r.enqueue .wrapping N e).2 = .ok () ∧ WrapInv N (r.enqueue .wrapping N e).1 (log ++ [e]) := by
  have hN := h.size
  have hN' : N ≠ 0 := by omega
  have hmod : log.length % 2 ^ 32 % N = log.length % N := Nat.mod_mod_of_dvd _ h.dvd
  have hadd : u32Add .wrapping (log.length % 2 ^ 32) 1 = .ok ((log.length + 1) % 2 ^ 32) := by
    simp only [u32Add]
    have hlt := Nat.mod_lt log.length (show 0 < 2 ^ 32 by decide)
    split
    · congr 1; omega
    · congr 1; omega
  simp only [Ring.enqueue, hN', if_false, h.res, hadd, Ring.write, h.pub, if_true, hmod]
  refine ⟨trivial, hN, h.dvd, ?_, ?_, ?_⟩
  · simp
  · simp
  · intro i hi hi2
    simp only [List.length_append, List.length_singleton] at hi hi2
    by_cases hc : i = log.length
    · subst hc; simp
    · have hlt : i < log.length := by omega
      have hne : ¬ i % N = log.length % N := by
        intro he
        exact hc (mod_inj_window he (by omega) (by omega))
      simp only [hne, if_false]
      rw [h.slots i hlt (by omega), List.getElem?_append_left hlt]

theorem wrap_peek {N : Nat} {r : Ring α} {log : List α} (h : WrapInv N r log) (hN32 : N < 2 ^ 32)
    {cur : Nat} (hh : cur ≤ log.length) (hp : log.length < cur + 2 ^ 32) :
    (N < (log.drop cur).length ∧ ∃ e, r.peekAll .wrapping N (cur % 2 ^ 32) = .ok (.error e)) ∨
    ((log.drop cur).length ≤ N ∧ ∃ a b, r.peekAll .wrapping N (cur % 2 ^ 32) = .ok (.ok (a, b)) ∧
      a ++ b = (log.drop cur).map some) := by
  have hN := h.size
  have hN' : N ≠ 0 := by omega
  have hm1 : cur % 2 ^ 32 % N = cur % N := Nat.mod_mod_of_dvd _ h.dvd
  have hm2 : log.length % 2 ^ 32 % N = log.length % N := Nat.mod_mod_of_dvd _ h.dvd
  have hsub : u32Sub .wrapping (log.length % 2 ^ 32) (cur % 2 ^ 32) = .ok (log.length - cur) := by
    simp only [u32Sub]
    split
    · congr 1; omega
    · congr 1; omega
  have heq : (cur % 2 ^ 32 = log.length % 2 ^ 32) ↔ cur = log.length := by
    constructor
    · intro he; omega
    · rintro rfl; rfl
  simp only [Ring.peekAll, hN', if_false, h.pub, hsub, Nat.mod_eq_of_lt hN32, List.length_drop, hm1, hm2, heq]
  by_cases he : cur = log.length
  · right; subst he; simp
  · simp only [he, if_false]
    by_cases hov : log.length - cur > N
    · left; exact ⟨hov, by simp [hov]⟩
    · right
      refine ⟨by omega, ?_⟩
      simp only [hov, if_false]
      obtain ⟨d, hd⟩ : ∃ d, cur + d = log.length := ⟨log.length - cur, by omega⟩
      have hr := range_mod (N := N) (head := cur) (d := d) hN (by omega) (by omega)
      have hw : ((List.range' cur d).map (· % N)).map r.slot = (log.drop cur).map some := by
        apply List.ext_getElem
        · simp; omega
        · intro i h1 h2
          simp only [List.getElem_map, List.getElem_range', List.getElem_drop, Nat.one_mul]
          simp only [List.length_map, List.length_range'] at h1
          rw [h.slots (cur + i) (by omega) (by omega)]
          exact List.getElem?_eq_getElem _
      rw [hd] at hr
      split at hr
      · rename_i hlt
        refine ⟨_, _, by simp [hlt]; exact ⟨rfl, rfl⟩, ?_⟩
        rw [← hw, hr]; simp [Ring.slice]
      · rename_i hlt
        refine ⟨_, _, by simp [hlt]; exact ⟨rfl, rfl⟩, ?_⟩
        rw [← hw, hr]; simp [Ring.slice]

/-- many enqueues in a row, in a wrapping build -/
theorem wrap_enqueues {N : Nat} (es : List α) :
    ∀ {s : RingSys α} {log : List α}, WrapInv N s.ring log →
      WrapInv N (s.run .wrapping N (es.map .enqueue)).1.ring (log ++ es) ∧
      (s.run .wrapping N (es.map .enqueue)).1.heads = s.heads ∧
      (s.run .wrapping N (es.map .enqueue)).2 = es.map fun _ => .done := by
  induction es with
  | nil => intro s log h; simpa [RingSys.run] using h
  | cons e es ih =>
    intro s log h
    obtain ⟨h1, h2⟩ := wrap_enqueue h e
    have hst : (s.step .wrapping N (.enqueue e)).1.ring = (s.ring.enqueue .wrapping N e).1 := rfl
    obtain ⟨i1, i2, i3⟩ := ih (s := (s.step .wrapping N (.enqueue e)).1) (by rw [hst]; exact h2)
    simp only [List.map_cons, RingSys.run]
    refine ⟨by simpa using i1, by rw [i2]; rfl, ?_⟩
    rw [i3]
    simp only [RingSys.step, h1]

end BigO
