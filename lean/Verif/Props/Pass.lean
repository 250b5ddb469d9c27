import Verif.Proofs.Pass
import Verif.Model.PassResult
import Verif.Props.Verdict

/-!
# Properties of passes (C40-C48)
-/
namespace BigO
open F

/-- everything that is asked of the range and the thread count: they fit in an `i32`, and there is a thread -/
structure PassArgs (start stop threads : Nat) : Prop where
  start_lt : start < 2 ^ 31
  stop_lt : stop < 2 ^ 31
  threads_pos : 1 ≤ threads
  threads_lt : threads < 2 ^ 31

/-- number of elements of a pass -/
def passLen (start stop : Nat) : Nat := max start stop - min start stop

theorem passLen_asc {start stop : Nat} (h : start ≤ stop) : passLen start stop = stop - start := by
  unfold passLen; omega
theorem passLen_desc {start stop : Nat} (h : stop ≤ start) : passLen start stop = start - stop := by
  unfold passLen; omega

theorem perThread_eq (start stop threads : Nat) : perThread start stop threads = passLen start stop / threads := rfl

theorem div_mul_eq_sub_mod (a b : Nat) : a / b * b = a - a % b := by
  have := Nat.div_add_mod a b
  rw [Nat.mul_comm] at this; omega

/-! ## C42, C40: which numbers are given to the closure -/

/-- **C42** (ascending, as in create, read and update passes): exactly the lowest `length mod threads` numbers are skipped,
all others are processed exactly once. -/
theorem C42_remainder_ascending (p : Profile) (start stop threads : Nat) (ha : PassArgs start stop threads)
    (h : start ≤ stop) (f : List (Nat × Nat) → Nat → Nat) (s : PassRun) (hs : Passed p start stop threads f s) :
    (allCalls s).Perm (List.range' (start + (stop - start) % threads) (stop - start - (stop - start) % threads)) := by
  obtain ⟨chunks, sched, hc, rfl, hd⟩ := hs
  have hp := done_all (passInv_run f chunks sched) hd
  rw [passChunks_asc p h ha.stop_lt ha.threads_pos ha.threads_lt] at hc
  cases hc
  have hle := perThread_mul_le start stop threads threads le_rfl
  rw [flatten_asc _ _ _ (by omega)] at hp
  have e : perThread start stop threads * threads = stop - start - (stop - start) % threads := by
    rw [perThread_eq, passLen_asc h, div_mul_eq_sub_mod]
  rw [e] at hp
  have hm := Nat.mod_le (stop - start) threads
  rw [show stop - (stop - start - (stop - start) % threads) = start + (stop - start) % threads by omega] at hp
  exact hp.trans (List.reverse_perm _)

/-- **C42** (descending, as in delete passes): exactly the highest `length mod threads` numbers are skipped. -/
theorem C42_remainder_descending (p : Profile) (start stop threads : Nat) (ha : PassArgs start stop threads)
    (h : stop ≤ start) (f : List (Nat × Nat) → Nat → Nat) (s : PassRun) (hs : Passed p start stop threads f s) :
    (allCalls s).Perm (List.range' stop (start - stop - (start - stop) % threads)) := by
  obtain ⟨chunks, sched, hc, rfl, hd⟩ := hs
  have hp := done_all (passInv_run f chunks sched) hd
  rw [passChunks_desc p h ha.start_lt ha.threads_pos ha.threads_lt] at hc
  cases hc
  rw [flatten_desc] at hp
  have e : perThread start stop threads * threads = start - stop - (start - stop) % threads := by
    rw [perThread_eq, passLen_desc h, div_mul_eq_sub_mod]
  rwa [e] at hp

/-- **C42** (count): exactly `length mod threads` numbers are skipped. -/
theorem C42_count (p : Profile) (start stop threads : Nat) (ha : PassArgs start stop threads)
    (f : List (Nat × Nat) → Nat → Nat) (s : PassRun) (hs : Passed p start stop threads f s) :
    (allCalls s).length + passLen start stop % threads = passLen start stop := by
  have hm := Nat.mod_le (passLen start stop) threads
  rcases Nat.le_total start stop with h | h
  · rw [(C42_remainder_ascending p start stop threads ha h f s hs).length_eq, passLen_asc h]
    rw [passLen_asc h] at hm
    simp; omega
  · rw [(C42_remainder_descending p start stop threads ha h f s hs).length_eq, passLen_desc h]
    rw [passLen_desc h] at hm
    simp; omega

/-- **C40.** If the thread count divides the length, the closure is called exactly once for each number of the range,
whatever the interleaving and whatever the closure returns. -/
theorem C40_each_once (p : Profile) (start stop threads : Nat) (ha : PassArgs start stop threads)
    (hdiv : threads ∣ passLen start stop) (f : List (Nat × Nat) → Nat → Nat) (s : PassRun)
    (hs : Passed p start stop threads f s) : (allCalls s).Perm (passRange start stop) := by
  rcases Nat.le_total start stop with h | h
  · have := C42_remainder_ascending p start stop threads ha h f s hs
    rw [passLen_asc h] at hdiv
    rw [Nat.mod_eq_zero_of_dvd hdiv] at this
    unfold passRange
    rwa [Nat.min_eq_left h, Nat.max_eq_right h]
  · have := C42_remainder_descending p start stop threads ha h f s hs
    rw [passLen_desc h] at hdiv
    rw [Nat.mod_eq_zero_of_dvd hdiv] at this
    unfold passRange
    rwa [Nat.min_eq_right h, Nat.max_eq_left h]

/-- calls still to be made -/
def remaining (s : PassRun) : Nat := (s.threads.map fun th => th.todo.length).sum

theorem sum_set_lt {l : List PTh} {t e acc acc' : Nat} {es : List Nat} (h : l[t]? = some ⟨e :: es, acc⟩) :
    ((l.set t ⟨es, acc'⟩).map fun th => th.todo.length).sum + 1 = (l.map fun th => th.todo.length).sum := by
  induction l generalizing t with
  | nil => simp at h
  | cons x l ih =>
    cases t with
    | zero => simp at h; subst h; simp; omega
    | succ t => simp at h; have := ih h; simp only [List.set_cons_succ, List.map_cons, List.sum_cons]; omega

theorem complete_from (f) : ∀ (k : Nat) (s : PassRun), remaining s = k → ∃ sched, (s.run f sched).Done := by
  intro k
  induction k with
  | zero =>
    intro s hs
    refine ⟨[], ?_⟩
    intro th hth
    simp only [PassRun.run, List.foldl_nil] at hth
    have : th.todo.length ≤ remaining s := List.le_sum_of_mem (List.mem_map.2 ⟨th, hth, rfl⟩)
    exact List.length_eq_zero_iff.1 (by omega)
  | succ k ih =>
    intro s hs
    by_cases hd : s.Done
    · exact ⟨[], hd⟩
    · have : ∃ th ∈ s.threads, th.todo ≠ [] := by
        by_contra hc
        push Not at hc
        exact hd hc
      obtain ⟨th, hth, hne⟩ := this
      obtain ⟨t, ht, rfl⟩ := List.getElem_of_mem hth
      obtain ⟨e, es, he⟩ := List.exists_cons_of_ne_nil hne
      have hth' : s.threads[t]? = some ⟨e :: es, s.threads[t].acc⟩ := by
        rw [List.getElem?_eq_getElem ht, ← he]
      have hstep : s.step f t = { threads := s.threads.set t ⟨es, s.threads[t].acc ^^^ f s.calls e⟩, calls := s.calls ++ [(t, e)] } := by
        unfold PassRun.step; rw [hth']
      have hr : remaining (s.step f t) = k := by
        rw [hstep]
        have := sum_set_lt (acc' := s.threads[t].acc ^^^ f s.calls e) hth'
        unfold remaining at hs ⊢
        simp only; omega
      obtain ⟨sched, h⟩ := ih _ hr
      exact ⟨t :: sched, h⟩

/-- **C40** (the pass can always be finished): for all arguments in range and whatever the threads did so far, the pass
can run to its end; so the other theorems are not vacuous. -/
theorem C40_can_finish (p : Profile) (start stop threads : Nat) (ha : PassArgs start stop threads)
    (f : List (Nat × Nat) → Nat → Nat) (sched : List Nat) :
    ∃ chunks sched', passChunks p start stop threads = .ok chunks ∧
      Passed p start stop threads f ((PassRun.start chunks).run f (sched ++ sched')) := by
  have hok : ∃ chunks, passChunks p start stop threads = .ok chunks := by
    rcases Nat.le_total start stop with h | h
    · exact ⟨_, passChunks_asc p h ha.stop_lt ha.threads_pos ha.threads_lt⟩
    · exact ⟨_, passChunks_desc p h ha.start_lt ha.threads_pos ha.threads_lt⟩
  obtain ⟨chunks, hc⟩ := hok
  obtain ⟨sched', hd⟩ := complete_from f _ ((PassRun.start chunks).run f sched) rfl
  refine ⟨chunks, sched', hc, chunks, sched ++ sched', hc, rfl, ?_⟩
  rw [PassRun.run, List.foldl_append]
  exact hd

/-! ## C41, C44: what one thread does -/

/-- **C41, C44** (ascending pass range): thread `t` gets the `t`-th chunk from the top and processes it downwards. -/
theorem thread_ascending (p : Profile) (start stop threads : Nat) (ha : PassArgs start stop threads)
    (h : start ≤ stop) (f : List (Nat × Nat) → Nat → Nat) (s : PassRun) (hs : Passed p start stop threads f s) (t : Nat) (ht : t < threads) :
    callsBy s t = (List.range' (stop - passLen start stop / threads * (t + 1)) (passLen start stop / threads)).reverse := by
  obtain ⟨chunks, sched, hc, rfl, hd⟩ := hs
  have hc' := passChunks_asc p h ha.stop_lt ha.threads_pos ha.threads_lt
  rw [hc] at hc'
  have hc' := Except.ok.inj hc'
  have he := done_each (passInv_run f chunks sched) hd (t := t)
    (c := (stop - perThread start stop threads * t, stop - perThread start stop threads * (t + 1)))
    (by rw [hc']; simp [ht])
  rw [he, perThread_eq]
  have h1 := perThread_mul_le start stop threads (t + 1) ht
  rw [perThread_eq, Nat.mul_succ] at h1
  simp only [threadElems, Nat.mul_succ]
  generalize passLen start stop / threads = q at *
  generalize q * t = x at *
  by_cases hq : q = 0
  · subst hq; simp
  · rw [if_pos (by omega), show stop - x - (stop - (x + q)) = q by omega]

/-- **C41, C44** (descending pass range): thread `t` gets the `t`-th chunk from the bottom and processes it upwards. -/
theorem thread_descending (p : Profile) (start stop threads : Nat) (ha : PassArgs start stop threads)
    (h : stop ≤ start) (f : List (Nat × Nat) → Nat → Nat) (s : PassRun) (hs : Passed p start stop threads f s) (t : Nat) (ht : t < threads) :
    callsBy s t = List.range' (stop + passLen start stop / threads * t) (passLen start stop / threads) := by
  obtain ⟨chunks, sched, hc, rfl, hd⟩ := hs
  have hc' := passChunks_desc p h ha.start_lt ha.threads_pos ha.threads_lt
  rw [hc] at hc'
  have hc' := Except.ok.inj hc'
  have he := done_each (passInv_run f chunks sched) hd (t := t)
    (c := (stop + perThread start stop threads * t, stop + perThread start stop threads * (t + 1)))
    (by rw [hc']; simp [ht])
  rw [he, perThread_eq]
  simp only [threadElems, Nat.mul_succ]
  generalize passLen start stop / threads = q at *
  rw [if_neg (by omega), show stop + (q * t + q) - (stop + q * t) = q by omega]

/-- the half-open interval of a thread: its lowest number; its size is always `passLen / threads` -/
def chunkLow (start stop threads t : Nat) : Nat :=
  if start ≤ stop then stop - passLen start stop / threads * (t + 1) else stop + passLen start stop / threads * t

theorem callsBy_mem (p : Profile) (start stop threads : Nat) (ha : PassArgs start stop threads)
    (f : List (Nat × Nat) → Nat → Nat) (s : PassRun) (hs : Passed p start stop threads f s) (t : Nat) (ht : t < threads) (e : Nat) :
    e ∈ callsBy s t ↔ chunkLow start stop threads t ≤ e ∧
      e < chunkLow start stop threads t + passLen start stop / threads := by
  by_cases h : start ≤ stop
  · rw [thread_ascending p start stop threads ha h f s hs t ht]
    simp [chunkLow, h]
  · rw [thread_descending p start stop threads ha (by omega) f s hs t ht]
    simp [chunkLow, h]

/-- **C41.** Each thread calls the closure exactly on the numbers of an interval of `length / threads` consecutive numbers,
each once, inside the pass range; intervals of different threads do not overlap; and there are no other threads. -/
theorem C41_private_intervals (p : Profile) (start stop threads : Nat) (ha : PassArgs start stop threads)
    (f : List (Nat × Nat) → Nat → Nat) (s : PassRun) (hs : Passed p start stop threads f s) :
    ∃ low : Nat → Nat,
      (∀ t < threads, (callsBy s t).Perm (List.range' (low t) (passLen start stop / threads))) ∧
      (∀ t < threads, ∀ e ∈ callsBy s t, min start stop ≤ e ∧ e < max start stop) ∧
      (∀ t < threads, ∀ u < threads, t ≠ u → ∀ e ∈ callsBy s t, e ∉ callsBy s u) ∧
      (∀ t, threads ≤ t → callsBy s t = []) := by
  refine ⟨chunkLow start stop threads, ?_, ?_, ?_, ?_⟩
  · intro t ht
    by_cases h : start ≤ stop
    · rw [thread_ascending p start stop threads ha h f s hs t ht]
      simp only [chunkLow, h, if_true]
      exact List.reverse_perm _
    · rw [thread_descending p start stop threads ha (by omega) f s hs t ht]
      simp [chunkLow, h]
  · intro t ht e he
    rw [callsBy_mem p start stop threads ha f s hs t ht] at he
    have h1 := perThread_mul_le start stop threads (t + 1) ht
    rw [perThread_eq, Nat.mul_succ] at h1
    unfold chunkLow at he
    simp only [Nat.mul_succ] at he
    generalize passLen start stop / threads = q at *
    generalize q * t = x at *
    split at he <;> omega
  · intro t ht u hu htu e he he'
    rw [callsBy_mem p start stop threads ha f s hs t ht] at he
    rw [callsBy_mem p start stop threads ha f s hs u hu] at he'
    have h1 := perThread_mul_le start stop threads (t + 1) ht
    have h2 := perThread_mul_le start stop threads (u + 1) hu
    rw [perThread_eq, Nat.mul_succ] at h1 h2
    unfold chunkLow at he he'
    simp only [Nat.mul_succ] at he he'
    generalize hq : passLen start stop / threads = q at *
    have : q * t + q ≤ q * u ∨ q * u + q ≤ q * t := by
      rcases Nat.lt_or_gt_of_ne htu with h | h
      · left; rw [← Nat.mul_succ]; exact Nat.mul_le_mul_left _ h
      · right; rw [← Nat.mul_succ]; exact Nat.mul_le_mul_left _ h
    generalize q * t = x at *
    generalize q * u = y at *
    split at he <;> simp_all <;> omega
  · intro t ht
    obtain ⟨chunks, sched, hc, rfl, hd⟩ := hs
    have hl : chunks.length = threads := by
      rcases Nat.le_total start stop with h | h
      · rw [passChunks_asc p h ha.stop_lt ha.threads_pos ha.threads_lt] at hc; cases hc; simp
      · rw [passChunks_desc p h ha.start_lt ha.threads_pos ha.threads_lt] at hc; cases hc; simp
    have hinv := passInv_run f chunks sched
    unfold callsBy
    rw [List.map_eq_nil_iff, List.filter_eq_nil_iff]
    intro c hc
    have := hinv.tids c hc
    simp; omega

/-- **C44.** A thread of an ascending pass range processes its numbers in strictly descending order, and of a descending
(delete) range in strictly ascending order. -/
theorem C44_order (p : Profile) (start stop threads : Nat) (ha : PassArgs start stop threads)
    (f : List (Nat × Nat) → Nat → Nat) (s : PassRun) (hs : Passed p start stop threads f s) (t : Nat) (ht : t < threads) :
    (start ≤ stop → (callsBy s t).Pairwise (· > ·)) ∧ (stop ≤ start → (callsBy s t).Pairwise (· < ·)) := by
  constructor
  · intro h
    rw [thread_ascending p start stop threads ha h f s hs t ht, List.pairwise_reverse]
    exact List.pairwise_lt_range'
  · intro h
    rw [thread_descending p start stop threads ha h f s hs t ht]
    exact List.pairwise_lt_range'

/-! ## C43: delete passes against create passes -/

/-- **C43.** The two create passes run over `0..n` and `n..2n`, the two delete passes over `2n..n` and `n..0`. With `threads`
threads each, delete is called on exactly the numbers create was called on if and only if `threads` divides `n` or exceeds it
(in which case no closure is called at all). -/
theorem C43_delete_matches_create_partial (p : Profile) (n threads : Nat) (hn : 2 * n < 2 ^ 31) (h1 : 1 ≤ threads)
    (h2 : threads < 2 ^ 31) (f g : List (Nat × Nat) → Nat → Nat) (c1 c2 d2 d1 : PassRun)
    (hc1 : Passed p 0 n threads f c1) (hc2 : Passed p n (2 * n) threads f c2)
    (hd2 : Passed p (2 * n) n threads g d2) (hd1 : Passed p n 0 threads g d1) :
    (allCalls c1 ++ allCalls c2).Perm (allCalls d2 ++ allCalls d1) ↔ (threads ∣ n ∨ n < threads) := by
  have e1 := C42_remainder_ascending p 0 n threads ⟨by omega, by omega, h1, h2⟩ (by omega) f c1 hc1
  have e2 := C42_remainder_ascending p n (2 * n) threads ⟨by omega, by omega, h1, h2⟩ (by omega) f c2 hc2
  have e3 := C42_remainder_descending p (2 * n) n threads ⟨by omega, by omega, h1, h2⟩ (by omega) g d2 hd2
  have e4 := C42_remainder_descending p n 0 threads ⟨by omega, by omega, h1, h2⟩ (by omega) g d1 hd1
  have en : 2 * n - n = n := by omega
  rw [en] at e2 e3
  simp only [Nat.sub_zero, Nat.zero_add] at e1 e4
  have hm := Nat.mod_le n threads
  constructor
  · intro H
    by_contra hc
    push Not at hc
    have hr : n % threads ≠ 0 := fun h => hc.1 (Nat.dvd_of_mod_eq_zero h)
    have hlt : n % threads < threads := Nat.mod_lt _ h1
    have h0 : (0:Nat) ∈ allCalls d2 ++ allCalls d1 := by
      rw [List.mem_append, e3.mem_iff, e4.mem_iff]
      right; simp; omega
    rw [← H.mem_iff, List.mem_append, e1.mem_iff, e2.mem_iff] at h0
    simp at h0; omega
  · rintro (h | h)
    · rw [Nat.mod_eq_zero_of_dvd h] at e1 e2 e3 e4
      exact ((e1.append e2).trans List.perm_append_comm).trans (e3.append e4).symm
    · rw [Nat.mod_eq_of_lt h] at e1 e2 e3 e4
      simp only [Nat.sub_self, List.range'_zero] at e1 e2 e3 e4
      exact (e1.append e2).trans (e3.append e4).symm

/-- **C43** is false as stated: 10 elements and 3 threads; whatever the closures and interleavings, number 0 is deleted
though never created, and number 19 is created but never deleted. -/
theorem C43_counterexample (p : Profile) (f g : List (Nat × Nat) → Nat → Nat) (c1 c2 d2 d1 : PassRun)
    (hc1 : Passed p 0 10 3 f c1) (hc2 : Passed p 10 20 3 f c2) (hd2 : Passed p 20 10 3 g d2) (hd1 : Passed p 10 0 3 g d1) :
    (0 ∈ allCalls d1 ∧ 0 ∉ allCalls c1 ++ allCalls c2) ∧ (19 ∈ allCalls c2 ∧ 19 ∉ allCalls d2 ++ allCalls d1) := by
  have e1 := C42_remainder_ascending p 0 10 3 ⟨by omega, by omega, by omega, by omega⟩ (by omega) f c1 hc1
  have e2 := C42_remainder_ascending p 10 20 3 ⟨by omega, by omega, by omega, by omega⟩ (by omega) f c2 hc2
  have e3 := C42_remainder_descending p 20 10 3 ⟨by omega, by omega, by omega, by omega⟩ (by omega) g d2 hd2
  have e4 := C42_remainder_descending p 10 0 3 ⟨by omega, by omega, by omega, by omega⟩ (by omega) g d1 hd1
  simp only [List.mem_append, e1.mem_iff, e2.mem_iff, e3.mem_iff, e4.mem_iff]
  decide

/-! ## C45: the computed number -/

/-- the ends of the threads' ranges -/
def rangeEnds (start stop threads : Nat) : List Nat :=
  (List.range threads).map fun n =>
    if start ≤ stop then stop - passLen start stop / threads * (n + 1) else stop + passLen start stop / threads * (n + 1)

/-- **C45.** For a closure whose result depends only on its argument, the number returned by the pass is `start + 1` xor
the ends of the threads' ranges xor the results of all calls: the interleaving does not matter. -/
theorem C45_checksum (p : Profile) (start stop threads : Nat) (ha : PassArgs start stop threads) (g : Nat → Nat)
    (s : PassRun) (hs : Passed p start stop threads (fun _ e => g e) s) :
    s.result p start = .ok ((start + 1) ^^^ xorAll (rangeEnds start stop threads) ^^^ xorAll ((allCalls s).map g)) := by
  obtain ⟨chunks, sched, hc, rfl, hd⟩ := hs
  have hends : chunks.map Prod.snd = rangeEnds start stop threads := by
    by_cases h : start ≤ stop
    · rw [passChunks_asc p h ha.stop_lt ha.threads_pos ha.threads_lt] at hc
      cases hc; simp [rangeEnds, h, perThread_eq, Function.comp_def]
    · rw [passChunks_desc p (by omega) ha.start_lt ha.threads_pos ha.threads_lt] at hc
      cases hc; simp [rangeEnds, h, perThread_eq, Function.comp_def]
  have hr : u32Add p start 1 = .ok (start + 1) := by
    unfold u32Add; rw [if_pos (by have := ha.start_lt; omega)]
  unfold PassRun.result
  rw [hr]
  simp only [bind, Except.bind, pure, Except.pure, foldl_acc]
  rw [acc_run g chunks sched, hends, Nat.xor_assoc]

/-- **C45** (schedule independence): any two interleavings return the same number. -/
theorem C45_schedule_independent (p : Profile) (start stop threads : Nat) (ha : PassArgs start stop threads) (g : Nat → Nat)
    (s s' : PassRun) (hs : Passed p start stop threads (fun _ e => g e) s)
    (hs' : Passed p start stop threads (fun _ e => g e) s') : s.result p start = s'.result p start := by
  have hp : (allCalls s).Perm (allCalls s') := by
    rcases Nat.le_total start stop with h | h
    · exact (C42_remainder_ascending p start stop threads ha h _ s hs).trans
        (C42_remainder_ascending p start stop threads ha h _ s' hs').symm
    · exact (C42_remainder_descending p start stop threads ha h _ s hs).trans
        (C42_remainder_descending p start stop threads ha h _ s' hs').symm
  rw [C45_checksum p start stop threads ha g s hs, C45_checksum p start stop threads ha g s' hs',
    xorAll_perm (hp.map g)]

/-! ## C46: zero threads -/

/-- **C46.** A pass with zero threads panics for every range and build profile. -/
theorem C46_zero_threads_panics (p : Profile) (start stop : Nat) : ∃ e, passChunks p start stop 0 = .error e := by
  unfold passChunks
  simp only
  cases i32Sub p (i32OfU32 start) (i32OfU32 stop) with
  | error e => exact ⟨e, rfl⟩
  | ok d =>
    have : i32Div d (i32OfU32 0) = .error .divideByZero := by simp [i32Div, i32OfU32]
    exact ⟨.divideByZero, by simp only [bind, Except.bind, this]⟩

/-! ## C47: lost statistics -/

/-- the readings reported when the allocator lost the statistics of the pass -/
def lostReadings : SpacePass := { usedBefore := 0, usedAfter := 2 ^ 64 - 1, minUsed := 0, maxUsed := 2 ^ 64 - 1 }

/-- **C47** (the sentinel): lost statistics are reported as the readings 0 and `usize::MAX`. -/
theorem C47_sentinel (sp : SavePoint) (e : OverflowError) : spaceOfPass sp (.error e) = lostReadings := rfl

/-- **C47** is false: if the statistics of both passes are lost, every space analysis answers `O(1)`, for all set sizes (`hr`:
rounding `usize::MAX` to f64 does not overflow). -/
theorem C47_both_lost_is_O1 (E : FloatEnv) (L : FloatLaws E) (p : Profile) (x : ℝ)
    (hr : E.rnd ((2 ^ 64 - 1 : ℕ) : ℝ) = fin x) (sp1 sp2 : SavePoint) (e1 e2 : OverflowError)
    (i : PassesInfo) (ic : ConstantSetPassesInfo) (is : SetResizingPassesInfo) :
    let m : SpaceMeasurements := ⟨spaceOfPass sp1 (.error e1), spaceOfPass sp2 (.error e2)⟩
    analyseSpace E p i m = .ok .o1 ∧ analyseSpaceConstantSet E p ic m = .ok .o1 ∧
      analyseSpaceSetResizing E p is m = .ok .o1 := by
  have hx : 0 < x := by
    have := L.rnd_mono ((1:ℕ):ℝ) ((2 ^ 64 - 1 : ℕ) : ℝ) (by norm_num)
    rw [L.rnd_nat 1 (by norm_num), hr] at this
    rw [F.toE_fin, F.toE_fin, EReal.coe_le_coe_iff] at this
    push_cast at this
    linarith
  have hs : usizeSub p (2 ^ 64 - 1) 0 = .ok (2 ^ 64 - 1) := by
    unfold usizeSub; rw [if_pos (by omega)]; rfl
  have ho : E.ofNat (2 ^ 64 - 1) = fin x := by
    unfold FloatEnv.ofNat FloatEnv.rnd0
    rw [if_neg (by norm_num), hr]
  have h8 := fun n1 n2 => C08_equal_usage_partial E L x hx n1 n2
  simp only [spaceOfPass, analyseSpace, analyseSpaceConstantSet, analyseSpaceSetResizing, usizeMax, hs, ho, bind, Except.bind, pure,
    Except.pure]
  exact ⟨by rw [(h8 _ _).1], by rw [(h8 _ _).1], by rw [(h8 _ (fin 0)).2]⟩

/-- **C47**, true part: losing the statistics of the second pass only never gives a better verdict than the real readings
would have given. Missing: the first pass or both, see the two other theorems. -/
theorem C47_second_lost_partial (E : FloatEnv) (L : FloatLaws E) (p : Profile) (s1 s2 : SpacePass)
    (h1 : s1.usedBefore < s1.maxUsed) (hw : s2.usedBefore ≤ s2.maxUsed) (hu : s2.maxUsed < 2 ^ 64)
    (i : PassesInfo) (ic : ConstantSetPassesInfo) (is : SetResizingPassesInfo) :
    (∃ v v', analyseSpace E p i ⟨s1, s2⟩ = .ok v ∧ analyseSpace E p i ⟨s1, lostReadings⟩ = .ok v' ∧ v.asU32 ≤ v'.asU32) ∧
    (∃ v v', analyseSpaceConstantSet E p ic ⟨s1, s2⟩ = .ok v ∧ analyseSpaceConstantSet E p ic ⟨s1, lostReadings⟩ = .ok v' ∧
      v.asU32 ≤ v'.asU32) ∧
    (∃ v v', analyseSpaceSetResizing E p is ⟨s1, s2⟩ = .ok v ∧ analyseSpaceSetResizing E p is ⟨s1, lostReadings⟩ = .ok v' ∧
      v.asU32 ≤ v'.asU32) :=
  C18_space_monotone E L p s1 s2 lostReadings h1 hw (by simp [lostReadings]) (by simp only [lostReadings]; omega) i ic is

/-- **C47** (first pass lost, exact arithmetic): the verdict is the best possible one for every second pass using less than
8 EiB, whatever the algorithm did. -/
theorem C47_first_lost_is_best (t : ℝ) (ht1 : t ≤ 1 / 4) (p : Profile) (s2 : SpacePass)
    (hw : s2.usedBefore ≤ s2.maxUsed) (hu : s2.maxUsed - s2.usedBefore ≤ 2 ^ 63)
    (i : PassesInfo) (ic : ConstantSetPassesInfo) :
    analyseSpace (exactEnv t) p i ⟨lostReadings, s2⟩ = .ok .betterThanO1 ∧
      analyseSpaceConstantSet (exactEnv t) p ic ⟨lostReadings, s2⟩ = .ok .betterThanO1 := by
  have hs : usizeSub p (2 ^ 64 - 1) 0 = .ok (2 ^ 64 - 1) := by
    unfold usizeSub; rw [if_pos (by omega)]; rfl
  have hs2 : usizeSub p s2.maxUsed s2.usedBefore = .ok (s2.maxUsed - s2.usedBefore) := by
    unfold usizeSub; rw [if_pos hw]
  have hb : ∀ n1 n2, analyseComplexity (exactEnv t) (fin ((2 ^ 64 - 1 : ℕ) : ℝ)) (fin ((s2.maxUsed - s2.usedBefore : ℕ) : ℝ)) n1 n2 =
      .betterThanO1 := by
    intro n1 n2
    unfold analyseComplexity
    rw [ex_div (by positivity) (by norm_num), ex_oneMinusTol, if_pos]
    rw [F.fin_lt_fin, div_lt_iff₀ (by norm_num)]
    have : ((s2.maxUsed - s2.usedBefore : ℕ) : ℝ) ≤ 2 ^ 63 := by exact_mod_cast hu
    refine lt_of_le_of_lt this ?_
    have : (3 / 4 : ℝ) ≤ 1 - t := by linarith
    refine lt_of_lt_of_le ?_ (mul_le_mul_of_nonneg_right this (by norm_num))
    norm_num
  simp only [lostReadings, analyseSpace, analyseSpaceConstantSet, hs, hs2, ex_ofNat, bind, Except.bind, pure, Except.pure, hb]
  exact ⟨trivial, trivial⟩

/-! ## the hypotheses are met by concrete, non-trivial cases -/

example : PassArgs 0 10 5 := ⟨by norm_num, by norm_num, by norm_num, by norm_num⟩
example : 5 ∣ passLen 0 10 := by decide
-- a pass over 0..4 with 2 threads, in an interleaved schedule
example : Passed .checked 0 4 2 (fun _ e => e * e) ((PassRun.start [(4, 2), (2, 0)]).run (fun _ e => e * e) [0, 1, 0, 1]) :=
  ⟨[(4, 2), (2, 0)], [0, 1, 0, 1], by rfl, rfl, by intro th hth; revert hth; simp [PassRun.start, PassRun.run, PassRun.step, threadElems, List.range']; rintro (rfl | rfl) <;> rfl⟩
example : allCalls ((PassRun.start [(4, 2), (2, 0)]).run (fun _ e => e * e) [0, 1, 0, 1]) = [3, 1, 2, 0] := by decide
-- a delete pass over 4..0 with 2 threads
example : (passChunks .checked 4 0 2).toOption = some [(0, 2), (2, 4)] := by decide
-- remainder: 10 elements, 3 threads
example : (passChunks .checked 0 10 3).toOption = some [(10, 7), (7, 4), (4, 1)] := by decide
example : (passChunks .checked 10 0 3).toOption = some [(0, 3), (3, 6), (6, 9)] := by decide
example : ∃ x, (exactEnv (1/10)).rnd ((2 ^ 64 - 1 : ℕ) : ℝ) = fin x := ⟨_, rfl⟩

end BigO
