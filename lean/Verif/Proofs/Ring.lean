import Verif.Spec.RingSpec

/-! # The ring buffer refines the log specification -/
set_option linter.unusedSimpArgs false
set_option linter.unusedVariables false
namespace BigO

variable {α : Type}

theorem mapM_id_map_some (l : List α) : (l.map some).mapM id = some l := by
  induction l with
  | nil => rfl
  | cons a l ih =>
    rw [List.map_cons, List.mapM_cons, ih]; rfl

theorem mod_inj_window {N i j : Nat} (h : i % N = j % N) (h1 : i ≤ j) (h2 : j < i + N) : i = j := by
  have hN : 0 < N := by omega
  have a := Nat.div_add_mod i N
  have b := Nat.div_add_mod j N
  have : N * (j / N) < N * (i / N + 1) := by rw [Nat.mul_add]; omega
  have h3 := Nat.lt_of_mul_lt_mul_left this
  have h4 : i / N ≤ j / N := Nat.div_le_div_right h1
  have : i / N = j / N := by omega
  rw [this] at a; omega

/-- abstraction relation between the ring and the log -/
structure RingInv (N : Nat) (r : Ring α) (log : List α) : Prop where
  size : 0 < N
  small : log.length < 2 ^ 32
  res : r.reserved = log.length
  pub : r.published = log.length
  slots : ∀ i, i < log.length → log.length ≤ i + N → r.slot (i % N) = log[i]?

theorem ringInv_new (N : Nat) (h : 0 < N) : RingInv N (Ring.new α) [] :=
  ⟨h, by simp, rfl, rfl, by simp⟩

theorem enqueue_inv {p : Profile} {N : Nat} {r : Ring α} {log : List α} (h : RingInv N r log) (e : α)
    (hs : log.length + 1 < 2 ^ 32) :
    (r.enqueue p N e).2 = .ok () ∧ RingInv N (r.enqueue p N e).1 (log ++ [e]) := by
  have hN := h.size
  have hN' : N ≠ 0 := by omega
  simp only [Ring.enqueue, hN', if_false, u32Add, h.res, hs, if_true, Ring.write, h.pub]
  refine ⟨trivial, hN, by simpa using hs, ?_, ?_, ?_⟩
  · simp; omega
  · simp
  · intro i hi hi2
    simp only [List.length_append, List.length_singleton] at hi hi2
    by_cases hc : i = log.length
    · subst hc; simp
    · have hlt : i < log.length := by omega
      have hne : ¬ i % N = log.length % N := by
        intro he
        exact hc (mod_inj_window he (by omega) (by omega))
      simp only [hne, if_false]
      rw [h.slots i hlt (by omega), List.getElem?_append_left hlt]

theorem range_mod {N head d : Nat} (hN : 0 < N) (hd0 : 0 < d) (hd : d ≤ N) :
    (List.range' head d).map (· % N) =
      if head % N < (head + d) % N then List.range' (head % N) ((head + d) % N - head % N)
      else List.range' (head % N) (N - head % N) ++ List.range' 0 ((head + d) % N) := by
  have hm := Nat.mod_lt head hN
  have e1 : (head + d) % N = (head % N + d) % N := by rw [Nat.mod_add_mod]
  have key : ∀ i, i < d → (head + i) % N = if head % N + i < N then head % N + i else head % N + i - N := by
    intro i hi
    have : (head + i) % N = (head % N + i) % N := by rw [Nat.mod_add_mod]
    rw [this]
    split
    · exact Nat.mod_eq_of_lt ‹_›
    · rw [Nat.mod_eq_sub_mod (by omega), Nat.mod_eq_of_lt (by omega)]
  have e2 : (head + d) % N = if head % N + d < N then head % N + d else head % N + d - N := by
    rw [e1]
    split
    · exact Nat.mod_eq_of_lt ‹_›
    · by_cases hh : head % N + d - N < N
      · rw [Nat.mod_eq_sub_mod (by omega), Nat.mod_eq_of_lt hh]
      · omega
  split
  · rename_i hlt
    have hx : (head + d) % N = head % N + d := by
      rw [e2] at hlt ⊢; split at hlt <;> simp_all <;> omega
    apply List.ext_getElem
    · simp; omega
    · intro i h1 h2
      simp only [List.getElem_map, List.getElem_range', Nat.one_mul] at *
      simp only [List.length_map, List.length_range'] at h1 h2
      rw [key i h1, if_pos]
      have := Nat.mod_lt (head + d) hN
      omega
  · rename_i hlt
    have hge : ¬ head % N + d < N := by
      intro hc; rw [e2, if_pos hc] at hlt; omega
    have hx : (head + d) % N = head % N + d - N := by rw [e2, if_neg hge]
    apply List.ext_getElem
    · simp; omega
    · intro i h1 h2
      simp only [List.length_map, List.length_range'] at h1
      rw [List.getElem_append]
      simp only [List.getElem_map, List.getElem_range', List.length_range', Nat.one_mul]
      rw [key i h1]
      split <;> split <;> omega

theorem slots_window {N : Nat} {r : Ring α} {log : List α} (h : RingInv N r log) {head d : Nat}
    (hd : head + d = log.length) (hdN : d ≤ N) :
    ((List.range' head d).map (· % N)).map r.slot = (log.drop head).map some := by
  apply List.ext_getElem
  · simp; omega
  · intro i h1 h2
    simp only [List.getElem_map, List.getElem_range', List.getElem_drop, Nat.one_mul]
    simp only [List.length_map, List.length_range'] at h1
    rw [h.slots (head + i) (by omega) (by omega)]
    exact List.getElem?_eq_getElem _

theorem peek_inv {p : Profile} {N : Nat} {r : Ring α} {log : List α} (h : RingInv N r log) (hN32 : N < 2 ^ 32)
    {head : Nat} (hh : head ≤ log.length) :
    (N < (log.drop head).length ∧ r.peekAll p N head = .ok (.error (overflowError N log.length head))) ∨
    ((log.drop head).length ≤ N ∧ ∃ a b, r.peekAll p N head = .ok (.ok (a, b)) ∧ a ++ b = (log.drop head).map some) := by
  have hN := h.size
  have hN' : N ≠ 0 := by omega
  simp only [Ring.peekAll, hN', if_false, h.pub, u32Sub, hh, if_true, Nat.mod_eq_of_lt hN32, List.length_drop]
  by_cases he : head = log.length
  · right; subst he; simp
  · simp only [he, if_false]
    by_cases hov : log.length - head > N
    · left; exact ⟨hov, by simp [hov]⟩
    · right
      refine ⟨by omega, ?_⟩
      simp only [hov, if_false]
      obtain ⟨d, hd⟩ : ∃ d, head + d = log.length := ⟨log.length - head, by omega⟩
      have hr := range_mod (N := N) (head := head) (d := d) hN (by omega) (by omega)
      have hw := slots_window h hd (by omega)
      rw [hd] at hr
      split at hr
      · rename_i hlt
        refine ⟨_, _, by simp [hlt]; exact ⟨rfl, rfl⟩, ?_⟩
        rw [← hw, hr]; simp [Ring.slice]
      · rename_i hlt
        refine ⟨_, _, by simp [hlt]; exact ⟨rfl, rfl⟩, ?_⟩
        rw [← hw, hr]; simp [Ring.slice]

theorem dequeue_inv {p : Profile} {N : Nat} {r : Ring α} {log : List α} (h : RingInv N r log) (hN32 : N < 2 ^ 32)
    {head : Nat} (hh : head ≤ log.length) :
    r.dequeue p N head =
      if head = log.length then (head, .ok (.ok none))
      else (head + 1, .ok (if log.length - head > N then .error (overflowError N log.length head)
        else .ok (some log[head]?))) := by
  have hN := h.size
  have hN' : N ≠ 0 := by omega
  have hs := h.small
  have h1 : ¬ head > log.length := by omega
  simp only [Ring.dequeue, h.pub, h1, if_false]
  by_cases he : head = log.length
  · simp [he]
  · have h2 : head + 1 < 2 ^ 32 := by omega
    simp only [he, if_false, u32Add, h2, if_true, u32Sub, h.res, hh, Nat.mod_eq_of_lt hN32]
    by_cases hov : log.length - head > N
    · simp [hov]
    · simp only [hov, if_false, hN']
      rw [h.slots head (by omega) (by omega)]

/-- abstraction relation between systems -/
structure SysInv (N : Nat) (s : RingSys α) (l : LogSys α) : Prop where
  ring : RingInv N s.ring l.log
  heads : s.heads = l.cursors
  le : ∀ c ∈ l.cursors, c ≤ l.log.length

theorem sysInv_init (N : Nat) (h : 0 < N) : SysInv N (RingSys.init α) (LogSys.init α) :=
  ⟨ringInv_new N h, rfl, by simp [LogSys.init]⟩

theorem step_refines {p : Profile} {N : Nat} (hN32 : N < 2 ^ 32) {s : RingSys α} {l : LogSys α} (h : SysInv N s l)
    (op : RingOp α) (hs : l.log.length + (enqueued [op]).length < 2 ^ 32) :
    (s.step p N op).2.view = some (l.step N op).2 ∧ SysInv N (s.step p N op).1 (l.step N op).1 ∧
      (l.step N op).1.log = l.log ++ enqueued [op] := by
  obtain ⟨hr, hh, hle⟩ := h
  cases op with
  | enqueue e =>
    have hq := enqueue_inv (p := p) hr e (by simpa [enqueued] using hs)
    simp only [RingSys.step, LogSys.step]
    cases hx : s.ring.enqueue p N e with
    | mk r o =>
      rw [hx] at hq
      simp only at hq
      obtain ⟨rfl, hq2⟩ := hq
      exact ⟨rfl, ⟨hq2, hh, fun c hc => by have := hle c hc; simp; omega⟩, by simp [enqueued]⟩
  | consumer =>
    refine ⟨by simp [RingSys.step, LogSys.step, RingOut.view, hh], ⟨hr, ?_, ?_⟩, by simp [LogSys.step, enqueued]⟩
    · simp [RingSys.step, LogSys.step, hh, Ring.consumer, hr.pub]
    · intro c hc
      simp only [LogSys.step, List.mem_append, List.mem_singleton] at hc ⊢
      rcases hc with hc | hc
      · exact hle c hc
      · omega
  | dequeue c =>
    simp only [RingSys.step, LogSys.step, hh]
    cases hc : l.cursors[c]? with
    | none => exact ⟨rfl, ⟨hr, hh, hle⟩, by simp [enqueued]⟩
    | some cur =>
      have hcl : cur ≤ l.log.length := hle cur (List.mem_of_getElem? hc)
      simp only [dequeue_inv hr hN32 hcl]
      by_cases he : cur = l.log.length
      · have hd : l.log.drop cur = [] := by simp [he]
        simp only [he, if_true, List.drop_length]
        refine ⟨rfl, ⟨hr, ?_, hle⟩, by simp [enqueued]⟩
        have hcc := hc
        rw [he] at hcc
        simpa using List.getElem?_eq_some_iff.1 hcc |>.2 ▸ List.set_getElem_self _
      · have hlt : cur < l.log.length := by omega
        rw [List.drop_eq_getElem_cons hlt]
        simp only [he, if_false]
        refine ⟨?_, ⟨hr, by simp [hh], ?_⟩, by simp [enqueued]⟩
        · simp only [List.length_drop]
          by_cases hov : l.log.length - cur > N
          · have : l.log.length - (cur + 1) + 1 > N := by omega
            simp [hov, this, RingOut.view]
          · have : ¬ l.log.length - (cur + 1) + 1 > N := by omega
            simp [hov, this, RingOut.view, List.getElem?_eq_getElem hlt]
        · intro c' hc'
          rcases List.mem_or_eq_of_mem_set hc' with hm | rfl
          · exact hle _ hm
          · exact hlt
  | peekAll c =>
    simp only [RingSys.step, LogSys.step, hh]
    cases hc : l.cursors[c]? with
    | none => exact ⟨rfl, ⟨hr, hh, hle⟩, by simp [enqueued]⟩
    | some cur =>
      have hcl : cur ≤ l.log.length := hle cur (List.mem_of_getElem? hc)
      refine ⟨?_, ⟨hr, hh, hle⟩, by simp [enqueued]⟩
      rcases peek_inv (p := p) hr hN32 hcl with ⟨h1, h2⟩ | ⟨h1, a, b, h2, h3⟩
      · simp only [h2]; rw [if_pos h1]; rfl
      · simp only [h2]
        rw [if_neg (by omega)]
        simp only [RingOut.view]
        rw [h3, mapM_id_map_some]; rfl

theorem enqueued_cons (op : RingOp α) (ops : List (RingOp α)) :
    enqueued (op :: ops) = enqueued [op] ++ enqueued ops := by
  cases op <;> simp [enqueued]

theorem run_refines {p : Profile} {N : Nat} (hN32 : N < 2 ^ 32) (ops : List (RingOp α)) :
    ∀ {s : RingSys α} {l : LogSys α}, SysInv N s l → l.log.length + (enqueued ops).length < 2 ^ 32 →
      (s.run p N ops).2.map RingOut.view = (l.run N ops).2.map some ∧
      SysInv N (s.run p N ops).1 (l.run N ops).1 ∧ (l.run N ops).1.log = l.log ++ enqueued ops := by
  induction ops with
  | nil => intro s l h _; exact ⟨rfl, h, by simp [LogSys.run, enqueued]⟩
  | cons op ops ih =>
    intro s l h hs
    rw [enqueued_cons] at hs
    obtain ⟨h1, h2, h3⟩ := step_refines (p := p) hN32 h op (by simp at hs; omega)
    obtain ⟨i1, i2, i3⟩ := ih h2 (by rw [h3]; simp at hs ⊢; omega)
    refine ⟨?_, i2, ?_⟩
    · simp only [RingSys.run, LogSys.run, List.map_cons, h1, i1]
    · rw [enqueued_cons]
      simp only [LogSys.run, i3, h3, List.append_assoc]

end BigO
