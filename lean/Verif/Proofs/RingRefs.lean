import Verif.Model.RingRefs
import Verif.Spec.RingRefsSpec
import Verif.Proofs.RingMore
import Mathlib.Data.Nat.ModEq

/-! # All slots of the ring buffer, not only the pending ones -/
namespace BigO

variable {α : Type}

theorem latestLap_short {N : Nat} {since : List α} (h : since.length ≤ N) : latestLap N since = since[0]? := by
  unfold latestLap
  rcases Nat.eq_zero_or_pos since.length with h0 | h0
  · rw [List.eq_nil_of_length_eq_zero h0]; simp
  · rw [Nat.div_eq_of_lt (by omega), Nat.zero_mul]

/-- contents of all slots -/
structure FullInv (N : Nat) (r : Ring α) (log : List α) : Prop where
  used : ∀ q, q < log.length → r.slot (q % N) = latestLap N (log.drop q)
  fresh : ∀ j, j < N → log.length ≤ j → r.slot j = none

theorem fullInv_new (N : Nat) : FullInv N (Ring.new α) [] :=
  ⟨by simp, fun _ _ _ => rfl⟩

theorem full_enqueue {p : Profile} {N : Nat} {r : Ring α} {log : List α} (hr : RingInv N r log) (h : FullInv N r log) (e : α) :
    FullInv N (r.enqueue p N e).1 (log ++ [e]) := by
  have hN := hr.size
  have hslot : ∀ j, (r.enqueue p N e).1.slot j = if j = log.length % N then some e else r.slot j := by
    intro j
    have hN' : N ≠ 0 := by omega
    simp only [Ring.enqueue, hN', if_false, hr.res]
    split
    · rfl
    · split
      · rfl
      · split <;> rfl
  constructor
  · intro q hq
    simp only [List.length_append, List.length_singleton] at hq
    rw [hslot]
    unfold latestLap
    simp only [List.length_drop, List.length_append, List.length_singleton, List.getElem?_drop]
    by_cases hm : q % N = log.length % N
    · rw [if_pos hm]
      have : (log.length + 1 - q - 1) / N * N = log.length - q := by
        have e1 : log.length + 1 - q - 1 = log.length - q := by omega
        rw [e1]
        apply Nat.div_mul_cancel
        exact (Nat.modEq_iff_dvd' (by omega)).1 hm
      rw [this]
      have : q + (log.length - q) = log.length := by omega
      rw [this]; simp
    · rw [if_neg hm]
      have hlt : q < log.length := by
        rcases Nat.lt_or_ge q log.length with h' | h'
        · exact h'
        · exfalso; apply hm; congr 1; omega
      rw [h.used q hlt]
      unfold latestLap
      simp only [List.length_drop, List.getElem?_drop]
      have e1 : log.length + 1 - q - 1 = (log.length - q - 1) + 1 := by omega
      have e2 : (log.length + 1 - q - 1) / N = (log.length - q - 1) / N := by
        rw [e1, Nat.succ_div]
        rw [if_neg]
        · simp
        · intro hd
          apply hm
          have e3 : log.length - q - 1 + 1 = log.length - q := by omega
          rw [e3] at hd
          exact (Nat.modEq_iff_dvd' (by omega)).2 hd
      rw [e2, List.getElem?_append_left]
      have : (log.length - q - 1) / N * N ≤ log.length - q - 1 := Nat.div_mul_le_self _ _
      omega
  · intro j hj hl
    simp only [List.length_append, List.length_singleton] at hl
    rw [hslot, if_neg, h.fresh j hj (by omega)]
    rw [Nat.mod_eq_of_lt (by omega)]
    omega

theorem full_step {p : Profile} {N : Nat} {s : RingSys α} {l : LogSys α} (hs : SysInv N s l) (h : FullInv N s.ring l.log)
    (op : RingOp α) : FullInv N (s.step p N op).1.ring (l.log ++ enqueued [op]) := by
  cases op with
  | enqueue e =>
    have := full_enqueue (p := p) hs.ring h e
    simpa [RingSys.step, enqueued] using this
  | consumer => simpa [RingSys.step, enqueued] using h
  | dequeue c =>
    simp only [RingSys.step, enqueued, List.append_nil]
    split <;> exact h
  | peekAll c =>
    simp only [RingSys.step, enqueued, List.append_nil]
    split <;> exact h

theorem full_run {p : Profile} {N : Nat} (hN32 : N < 2 ^ 32) (ops : List (RingOp α)) :
    ∀ {s : RingSys α} {l : LogSys α}, SysInv N s l → FullInv N s.ring l.log → l.log.length + (enqueued ops).length < 2 ^ 32 →
      FullInv N (s.run p N ops).1.ring (l.log ++ enqueued ops) := by
  induction ops with
  | nil => intro s l _ hf _; simpa [enqueued, RingSys.run] using hf
  | cons op ops ih =>
    intro s l h hf hs
    rw [enqueued_cons] at hs
    simp only [List.length_append] at hs
    obtain ⟨-, h2, h3⟩ := step_refines (p := p) hN32 h op (by omega)
    have hf' := full_step (p := p) h hf op
    rw [← h3] at hf'
    have := ih h2 hf' (by rw [h3]; simp; omega)
    rw [enqueued_cons, ← List.append_assoc, ← h3]
    exact this

/-- drops of a history from a known state -/
theorem drops_run {p : Profile} {N : Nat} (hN32 : N < 2 ^ 32) (ops : List (RingOp α)) :
    ∀ {s : RingSys α} {l : LogSys α}, SysInv N s l → FullInv N s.ring l.log → l.log.length + (enqueued ops).length < 2 ^ 32 →
      s.dropsIn p N ops = (List.range' l.log.length (enqueued ops).length).map
        fun k => if k < N then none else (l.log ++ enqueued ops)[k - N]? := by
  induction ops with
  | nil => intro s l _ _ _; simp [RingSys.dropsIn, enqueued]
  | cons op ops ih =>
    intro s l h hf hs
    rw [enqueued_cons] at hs
    simp only [List.length_append] at hs
    obtain ⟨-, h2, h3⟩ := step_refines (p := p) hN32 h op (by omega)
    have hf' := full_step (p := p) h hf op
    rw [← h3] at hf'
    have hi := ih h2 hf' (by rw [h3]; simp; omega)
    have hN := h.ring.size
    rw [RingSys.dropsIn, hi, h3]
    cases op with
    | enqueue e =>
      have hN' : N ≠ 0 := by omega
      simp only [RingSys.dropsOf, hN', if_false, enqueued, List.length_append, List.length_cons, List.length_nil, Nat.zero_add, h.ring.res]
      rw [List.range'_succ, List.map_cons, List.cons_append, List.nil_append]
      congr 1
      · by_cases hk : l.log.length < N
        · rw [if_pos hk, Nat.mod_eq_of_lt hk]
          exact hf.fresh _ hk (Nat.le_refl _)
        · rw [if_neg hk]
          have e1 : l.log.length % N = (l.log.length - N) % N := Nat.mod_eq_sub_mod (by omega)
          rw [e1, hf.used _ (by omega), latestLap_short (by simp; omega)]
          rw [List.getElem?_append_left (by omega)]
          simp
      · simp
    | consumer => simp [RingSys.dropsOf, enqueued]
    | dequeue c => simp [RingSys.dropsOf, enqueued]
    | peekAll c => simp [RingSys.dropsOf, enqueued]

/-- the reference returned by `dequeue` -/
theorem refOf_dequeue {p : Profile} {N : Nat} (hN32 : N < 2 ^ 32) {s : RingSys α} {l : LogSys α} (h : SysInv N s l) {c cur : Nat}
    (hc : l.cursors[c]? = some cur) :
    s.refOf p N (.dequeue c) = if cur = l.log.length ∨ l.log.length - cur > N then none else some (dequeueRef N cur) := by
  have hcl : cur ≤ l.log.length := h.le cur (List.mem_of_getElem? hc)
  simp only [RingSys.refOf, RingSys.step, h.heads, hc, dequeue_inv h.ring hN32 hcl]
  by_cases he : cur = l.log.length
  · simp [he]
  · by_cases hov : l.log.length - cur > N
    · simp [he, hov]
    · simp [he, hov]

/-- the reference returned by `peek_all`, as positions -/
theorem refOf_peek {p : Profile} {N : Nat} (hN32 : N < 2 ^ 32) {s : RingSys α} {l : LogSys α} (h : SysInv N s l) {c cur : Nat}
    (hc : l.cursors[c]? = some cur) :
    s.refOf p N (.peekAll c) = if l.log.length - cur > N then none else some ⟨(List.range' cur (l.log.length - cur)).map (· % N)⟩ := by
  have hcl : cur ≤ l.log.length := h.le cur (List.mem_of_getElem? hc)
  have hN := h.ring.size
  simp only [RingSys.refOf, RingSys.step, h.heads, hc]
  rcases peek_inv (p := p) h.ring hN32 hcl with ⟨h1, h2⟩ | ⟨h1, a, b, h2, -⟩
  · simp only [List.length_drop] at h1
    simp only [h2]
    rw [if_pos h1]
  · simp only [List.length_drop] at h1
    simp only [h2]
    rw [if_neg (by omega), h.ring.pub]
    congr 1
    unfold peekRef
    by_cases he : cur = l.log.length
    · simp [he]
    · have := range_mod (N := N) (head := cur) (d := l.log.length - cur) hN (by omega) h1
      have e1 : cur + (l.log.length - cur) = l.log.length := by omega
      rw [e1] at this
      rw [this]
      simp only [he, if_false]
      split <;> rfl

end BigO
