import Verif.Spec.RingWrapSpec
import Verif.Proofs.RingMore

/-! # Ring buffer in builds without overflow checks, beyond 2^32 enqueues -/
namespace BigO
variable {α : Type}

theorem straddles_iff {cur len : Nat} (hle : cur ≤ len) (hn : len < cur + 2 ^ 32) : Straddles cur len ↔ len % 2 ^ 32 < cur % 2 ^ 32 := by
  constructor
  · rintro ⟨m, h1, h2⟩
    omega
  · intro h
    exact ⟨len / 2 ^ 32, by omega, by omega⟩

theorem wrap_dequeue {N : Nat} {r : Ring α} {log : List α} (h : WrapInv N r log) (hN32 : N < 2 ^ 32)
    {cur : Nat} (hh : cur ≤ log.length) (hp : log.length < cur + 2 ^ 32) (hs : ¬ Straddles cur log.length) :
    ∃ e, r.dequeue .wrapping N (cur % 2 ^ 32) =
      if cur = log.length then (cur % 2 ^ 32, .ok (.ok none))
      else ((cur + 1) % 2 ^ 32, .ok (if log.length - cur > N then .error e else .ok (some log[cur]?))) := by
  have hN := h.size
  have hN' : N ≠ 0 := by omega
  rw [straddles_iff hh hp] at hs
  refine ⟨overflowError N (log.length % 2 ^ 32) (cur % 2 ^ 32), ?_⟩
  have hm1 : cur % 2 ^ 32 % N = cur % N := Nat.mod_mod_of_dvd _ h.dvd
  simp only [Ring.dequeue, h.pub]
  rw [if_neg (by omega)]
  by_cases he : cur = log.length
  · simp [he]
  · rw [if_neg (show ¬ cur % 2 ^ 32 = log.length % 2 ^ 32 by omega), if_neg he]
    have hadd : u32Add .wrapping (cur % 2 ^ 32) 1 = .ok ((cur + 1) % 2 ^ 32) := by
      simp only [u32Add]
      split <;> (congr 1; omega)
    have hsub : u32Sub .wrapping (log.length % 2 ^ 32) (cur % 2 ^ 32) = .ok (log.length - cur) := by
      simp only [u32Sub]
      rw [if_pos (by omega)]
      congr 1; omega
    simp only [hadd, h.res, hsub, Nat.mod_eq_of_lt hN32]
    by_cases hov : log.length - cur > N
    · simp [hov]
    · simp only [hov, if_false, hN', hm1]
      rw [h.slots cur (by omega) (by omega)]

theorem wrap_dequeue_hangs {N : Nat} {r : Ring α} {log : List α} (h : WrapInv N r log)
    {cur : Nat} (hh : cur ≤ log.length) (hp : log.length < cur + 2 ^ 32) (hs : Straddles cur log.length) :
    r.dequeue .wrapping N (cur % 2 ^ 32) = (cur % 2 ^ 32, .diverges) := by
  rw [straddles_iff hh hp] at hs
  simp only [Ring.dequeue, h.pub]
  rw [if_pos hs]

/-- abstraction relation between systems, counters modulo 2^32 -/
structure WrapSysInv (N : Nat) (s : RingSys α) (l : LogSys α) : Prop where
  ring : WrapInv N s.ring l.log
  heads : s.heads = l.cursors.map (· % 2 ^ 32)
  le : ∀ c ∈ l.cursors, c ≤ l.log.length

theorem wrap_step_refines {N : Nat} (hN32 : N < 2 ^ 32) {s : RingSys α} {l : LogSys α} (h : WrapSysInv N s l) (hn : l.Near) (op : RingOp α) :
    (s.step .wrapping N op).2.view = (l.stepWrap N op).2 ∧ WrapSysInv N (s.step .wrapping N op).1 (l.stepWrap N op).1 ∧
    ((l.stepWrap N op).2 = none → (s.step .wrapping N op).2 = .diverges) := by
  obtain ⟨hr, hh, hle⟩ := h
  cases op with
  | enqueue e =>
    have hq := wrap_enqueue hr e
    have hx : l.stepWrap N (.enqueue e) = (⟨l.log ++ [e], l.cursors⟩, some .done) := by
      unfold LogSys.stepWrap; rw [if_neg (by simp [LogSys.Hangs])]; rfl
    rw [hx]
    simp only [RingSys.step]
    cases hx : s.ring.enqueue .wrapping N e with
    | mk r o =>
      rw [hx] at hq
      simp only at hq
      obtain ⟨rfl, hq2⟩ := hq
      exact ⟨rfl, ⟨hq2, hh, fun c hc => by have := hle c hc; simp; omega⟩, by simp⟩
  | consumer =>
    have hx : l.stepWrap N .consumer = (⟨l.log, l.cursors ++ [l.log.length]⟩, some (.consumer l.cursors.length)) := by
      unfold LogSys.stepWrap; rw [if_neg (by simp [LogSys.Hangs])]; rfl
    rw [hx]
    refine ⟨by simp [RingSys.step, RingOut.view, hh], ⟨hr, ?_, ?_⟩, by simp⟩
    · simp [RingSys.step, hh, Ring.consumer, hr.pub]
    · intro c hc
      simp only [List.mem_append, List.mem_singleton] at hc ⊢
      rcases hc with hc | hc
      · exact hle c hc
      · omega
  | dequeue c =>
    cases hc : l.cursors[c]? with
    | none =>
      have hx : l.stepWrap N (.dequeue c) = (l, some .invalid) := by
        unfold LogSys.stepWrap; rw [if_neg (by simp [LogSys.Hangs, hc])]; simp [LogSys.step, hc]
      have hs : s.heads[c]? = none := by simp [hh, hc]
      rw [hx]
      simp only [RingSys.step, hs]
      exact ⟨rfl, ⟨hr, hh, hle⟩, by simp⟩
    | some cur =>
      have hm := List.mem_of_getElem? hc
      have hcl := hle cur hm
      have hcn := hn cur hm
      have hs : s.heads[c]? = some (cur % 2 ^ 32) := by simp [hh, hc]
      have hset : s.heads.set c (cur % 2 ^ 32) = s.heads := by
        obtain ⟨hlt, he⟩ := List.getElem?_eq_some_iff.1 hs
        rw [← he]; exact List.set_getElem_self hlt
      by_cases hst : Straddles cur l.log.length
      · have hx : l.stepWrap N (.dequeue c) = (l, none) := by
          unfold LogSys.stepWrap; rw [if_pos ⟨cur, hc, hst⟩]
        rw [hx]
        simp only [RingSys.step, hs, wrap_dequeue_hangs hr hcl hcn hst]
        exact ⟨rfl, ⟨hr, by rw [hset]; exact hh, hle⟩, fun _ => trivial⟩
      · have hx : l.stepWrap N (.dequeue c) = ((l.step N (.dequeue c)).1, some (l.step N (.dequeue c)).2) := by
          unfold LogSys.stepWrap
          rw [if_neg]
          rintro ⟨cur', h1, h2⟩
          rw [hc] at h1; injection h1 with h1; subst h1; exact hst h2
        rw [hx]
        obtain ⟨e, hd⟩ := wrap_dequeue hr hN32 hcl hcn hst
        simp only [RingSys.step, hs, hd, LogSys.step, hc]
        by_cases he : cur = l.log.length
        · rw [if_pos he, show l.log.drop cur = [] by simp [he]]
          refine ⟨rfl, ⟨hr, by simp only [hset]; exact hh, hle⟩, by simp⟩
        · have hlt : cur < l.log.length := by omega
          rw [List.drop_eq_getElem_cons hlt, if_neg he]
          refine ⟨?_, ⟨hr, by simp [hh, List.map_set], ?_⟩, by simp⟩
          · simp only [List.length_drop]
            by_cases hov : l.log.length - cur > N
            · have : l.log.length - (cur + 1) + 1 > N := by omega
              simp [hov, this, RingOut.view]
            · have : ¬ l.log.length - (cur + 1) + 1 > N := by omega
              simp [hov, this, RingOut.view, List.getElem?_eq_getElem hlt]
          · intro c' hc'
            rcases List.mem_or_eq_of_mem_set hc' with hm | rfl
            · exact hle _ hm
            · exact hlt
  | peekAll c =>
    have hx : l.stepWrap N (.peekAll c) = ((l.step N (.peekAll c)).1, some (l.step N (.peekAll c)).2) := by
      unfold LogSys.stepWrap; rw [if_neg (by simp [LogSys.Hangs])]
    rw [hx]
    cases hc : l.cursors[c]? with
    | none =>
      have hs : s.heads[c]? = none := by simp [hh, hc]
      simp only [RingSys.step, LogSys.step, hc, hs]
      exact ⟨rfl, ⟨hr, hh, hle⟩, by simp⟩
    | some cur =>
      have hm := List.mem_of_getElem? hc
      have hs : s.heads[c]? = some (cur % 2 ^ 32) := by simp [hh, hc]
      simp only [RingSys.step, LogSys.step, hc, hs]
      refine ⟨?_, ⟨hr, hh, hle⟩, by simp⟩
      rcases wrap_peek hr hN32 (hle cur hm) (hn cur hm) with ⟨h1, e, h2⟩ | ⟨h1, a, b, h2, h3⟩
      · simp only [h2]; rw [if_pos h1]; rfl
      · simp only [h2]
        rw [if_neg (by omega)]
        simp only [RingOut.view]
        rw [h3, mapM_id_map_some]; rfl

theorem wrap_run_refines {N : Nat} (hN32 : N < 2 ^ 32) (ops : List (RingOp α)) :
    ∀ {s : RingSys α} {l : LogSys α}, WrapSysInv N s l → StaysNear N l ops →
      (s.run .wrapping N ops).2.map RingOut.view = (l.runWrap N ops).2 ∧ WrapSysInv N (s.run .wrapping N ops).1 (l.runWrap N ops).1 ∧
      ∀ i : Nat, (l.runWrap N ops).2[i]? = some none → ∃ o : RingOut α, (s.run .wrapping N ops).2[i]? = some o ∧ o = .diverges := by
  induction ops with
  | nil => intro s l h _; exact ⟨rfl, h, by simp [LogSys.runWrap]⟩
  | cons op ops ih =>
    intro s l h hs
    obtain ⟨h1, h2, h3⟩ := wrap_step_refines hN32 h (hs 0) op
    obtain ⟨i1, i2, i3⟩ := ih h2 (fun k => hs (k + 1))
    refine ⟨?_, i2, ?_⟩
    · simp only [RingSys.run, LogSys.runWrap, List.map_cons, h1, i1]
    · intro i hi
      cases i with
      | zero => exact ⟨_, rfl, h3 (by simpa [LogSys.runWrap] using hi)⟩
      | succ i => exact i3 i (by simpa [LogSys.runWrap] using hi)

end BigO
