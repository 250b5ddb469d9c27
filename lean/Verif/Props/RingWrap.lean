import Verif.Proofs.RingWrap
import Verif.Props.Ring

/-! # C37: the ring buffer beyond 2^32 enqueues, in builds without overflow checks -/
namespace BigO
variable {α : Type}

/-- C37, exactly what holds in builds without overflow checks, for sizes dividing 2^32 (such as 1024) and consumers never 2^32 elements
behind, however many calls are made, on any number of consumers: all calls do what the log specification says, except that `dequeue`
hangs on a consumer whose pending elements straddle a multiple of 2^32.  (Missing: those dequeues, and every build with overflow
checks.) -/
theorem C37_release_exact_partial (N : Nat) (hN : 0 < N) (hd : N ∣ 2 ^ 32) (hN32 : N < 2 ^ 32) (ops : List (RingOp α))
    (near : StaysNear N (LogSys.init α) ops) :
    ((RingSys.init α).run .wrapping N ops).2.map RingOut.view = ((LogSys.init α).runWrap N ops).2 ∧
    ∀ i : Nat, ((LogSys.init α).runWrap N ops).2[i]? = some none →
      ∃ o : RingOut α, ((RingSys.init α).run .wrapping N ops).2[i]? = some o ∧ o = .diverges := by
  have h := wrap_run_refines hN32 ops (s := RingSys.init α) (l := LogSys.init α) ⟨wrapInv_new N hN hd, rfl, by simp [LogSys.init]⟩ near
  exact ⟨h.1, h.2.2⟩

/-- C37, false for all other sizes: a consumer created just before the 2^32-th enqueue, two elements enqueued, and
`peek_all` answers `Ok` with a wrong number of elements (builds without overflow checks). -/
theorem C37_other_sizes_corrupt (N : Nat) (hN : 0 < N) (hN32 : N < 2 ^ 32) (hd : ¬ N ∣ 2 ^ 32) (es : List α) (hlen : es.length = 2 ^ 32 - 1)
    (e e' : α) : ∃ s1 s2,
    (((RingSys.init α).run .wrapping N (es.map .enqueue ++ [.consumer, .enqueue e, .enqueue e'])).1.step .wrapping N (.peekAll 0)).2 =
      .peeked s1 s2 ∧ (s1 ++ s2).length ≠ 2 := by
  have hN1 : N ≠ 1 := by rintro rfl; exact hd (Nat.one_dvd _)
  have hN2 : N ≠ 2 := by rintro rfl; exact hd ⟨2 ^ 31, by decide⟩
  have henq : ∀ es : List α, enqueued (es.map RingOp.enqueue) = es := by
    intro es; induction es with
    | nil => rfl
    | cons a es ih => simp [enqueued, ih]
  obtain ⟨-, h2, h3⟩ := run_refines (p := .wrapping) hN32 (es.map .enqueue) (sysInv_init N hN)
    (by rw [henq, hlen]; simp [LogSys.init])
  rw [runRing_append]
  have hheads : ∀ (es : List α) (l : LogSys α), (l.run N (es.map .enqueue)).1.cursors = l.cursors := by
    intro es; induction es with
    | nil => intro l; rfl
    | cons a es ih => intro l; exact ih _
  generalize hs : ((RingSys.init α).run .wrapping N (es.map .enqueue)).1 = s at h2
  have hres := h2.ring.res
  have hpub := h2.ring.pub
  have hh := h2.heads
  rw [h3, henq] at hres hpub
  rw [hheads] at hh
  simp only [LogSys.init, List.nil_append, hlen] at hres hpub hh
  have hN' : N ≠ 0 := by omega
  have hm : ¬ (2 ^ 32 % N = 0) := fun h => hd (Nat.dvd_of_mod_eq_zero h)
  have hlt := Nat.mod_lt (2 ^ 32) hN
  have hi : (2 ^ 32 - 1) % N = 2 ^ 32 % N - 1 := by
    have a := Nat.div_add_mod (2 ^ 32) N
    have : 2 ^ 32 - 1 = (2 ^ 32 % N - 1) + N * (2 ^ 32 / N) := by omega
    rw [this, Nat.add_mul_mod_self_left]
    exact Nat.mod_eq_of_lt (by omega)
  have h1 : 1 % N = 1 := Nat.mod_eq_of_lt (by omega)
  have add1 : u32Add .wrapping (2 ^ 32 - 1) 1 = .ok 0 := rfl
  have add2 : u32Add .wrapping 0 1 = .ok 1 := rfl
  have sub1 : u32Sub .wrapping 1 (2 ^ 32 - 1) = .ok 2 := rfl
  have z : (2 ^ 32 - 1 + 1) % 2 ^ 32 = 0 := by decide
  obtain ⟨r, heads⟩ := s
  obtain ⟨res, pub, slot⟩ := r
  simp only at hres hpub hh
  subst hres hpub hh
  simp only [RingSys.run, RingSys.step, Ring.consumer, Ring.enqueue, hN', if_false, Ring.write, add1, add2, z, if_true, List.nil_append,
    List.getElem?_cons_zero, Ring.peekAll, sub1, h1, hi, Nat.mod_eq_of_lt hN32]
  rw [if_neg (show ¬ (2 ^ 32 - 1 = 1) by decide), if_neg (show ¬ (2 > N) by omega)]
  by_cases hc : 2 ^ 32 % N - 1 < 1
  · rw [if_pos hc]
    refine ⟨_, _, rfl, ?_⟩
    simp only [Ring.slice, List.append_nil, List.length_map, List.length_range']
    omega
  · rw [if_neg hc]
    refine ⟨_, _, rfl, ?_⟩
    simp only [Ring.slice, List.length_append, List.length_map, List.length_range']
    omega

/-! ## the hypothesis of `C37_release_exact_partial` is met -/

theorem few_stay_near (N : Nat) : ∀ (ops : List (RingOp α)) (l : LogSys α), (enqueued ops).length < 2 ^ 32 →
    (∀ cur ∈ l.cursors, l.log.length + (enqueued ops).length < cur + 2 ^ 32) → StaysNear N l ops := by
  intro ops
  induction ops with
  | nil =>
    intro l _ h k cur hc
    rw [List.take_nil] at hc ⊢
    exact h cur hc
  | cons op ops ih =>
    intro l h0 h k
    cases k with
    | zero =>
      intro cur hc
      have : l.log.length + (enqueued (op :: ops)).length < cur + 2 ^ 32 := h cur hc
      exact (show l.log.length < cur + 2 ^ 32 by omega)
    | succ k =>
      have hlen := congrArg List.length (enqueued_cons op ops)
      rw [List.length_append] at hlen
      refine ih _ (by omega) ?_ k
      unfold LogSys.stepWrap
      split
      · rename_i hh
        cases op with
        | dequeue c =>
          intro cur hc
          have := h cur hc
          simp only [enqueued] at this
          exact this
        | _ => exact hh.elim
      · cases op with
        | enqueue a =>
          intro cur hc
          have := h cur hc
          simp only [LogSys.step, List.length_append, List.length_singleton]
          simp only [enqueued, List.length_cons] at this
          omega
        | consumer =>
          intro cur hc
          simp only [LogSys.step, List.mem_append, List.mem_singleton] at hc ⊢
          rcases hc with hc | rfl
          · exact h cur hc
          · simp only [enqueued] at h0; omega
        | dequeue c =>
          intro cur hc
          simp only [enqueued] at h
          simp only [LogSys.step] at hc ⊢
          cases hx : l.cursors[c]? with
          | none => rw [hx] at hc; exact h cur hc
          | some x =>
            rw [hx] at hc
            simp only at hc ⊢
            cases hy : l.log.drop x with
            | nil => rw [hy] at hc; exact h cur hc
            | cons y ys =>
              rw [hy] at hc
              simp only at hc ⊢
              rcases List.mem_or_eq_of_mem_set hc with hm | rfl
              · exact h cur hm
              · have := h x (List.mem_of_getElem? hx); omega
        | peekAll c =>
          intro cur hc
          simp only [enqueued] at h
          simp only [LogSys.step] at hc ⊢
          cases hx : l.cursors[c]? with
          | none => rw [hx] at hc; exact h cur hc
          | some x => rw [hx] at hc; exact h cur hc

/-- however many elements were enqueued before the first consumer is made, if fewer than 2^32 are after -/
theorem enqueues_stay_near (N : Nat) (ops : List (RingOp α)) (h0 : (enqueued ops).length < 2 ^ 32) : ∀ (es : List α) (l : LogSys α), l.cursors = [] →
    StaysNear N l (es.map .enqueue ++ ops) := by
  intro es
  induction es with
  | nil => intro l hl; exact few_stay_near N ops l h0 (by simp [hl])
  | cons e es ih =>
    intro l hl k
    cases k with
    | zero => intro cur hc; exact absurd hc (by simp [LogSys.runWrap, hl])
    | succ k =>
      have hx : l.stepWrap N (.enqueue e) = (⟨l.log ++ [e], l.cursors⟩, some .done) := by
        unfold LogSys.stepWrap; rw [if_neg (by simp [LogSys.Hangs])]; rfl
      have := ih (l.stepWrap N (.enqueue e)).1 (by rw [hx]; exact hl) k
      exact this

/-- a history of 5 000 000 000 enqueues, a consumer, an enqueue and a dequeue -/
example : StaysNear 1024 (LogSys.init Nat) ((List.replicate 5000000000 7).map .enqueue ++ [.consumer, .enqueue 8, .dequeue 0]) :=
  enqueues_stay_near _ _ (by decide) _ _ rfl

end BigO
