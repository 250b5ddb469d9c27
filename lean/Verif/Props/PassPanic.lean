import Verif.Proofs.PassPanic
import Verif.Props.Pass

/-!
# C86: a closure that panics in an iterator pass
-/
namespace BigO

theorem chunks_share (p : Profile) {start stop threads : Nat} (ha : PassArgs start stop threads) {chunks : List (Nat × Nat)}
    (hc : passChunks p start stop threads = .ok chunks) :
    chunks.length = threads ∧
      ∀ t < threads, ∃ c, chunks[t]? = some c ∧ threadElems c.1 c.2 = share start stop threads t := by
  by_cases h : start ≤ stop
  · rw [passChunks_asc p h ha.stop_lt ha.threads_pos ha.threads_lt] at hc
    cases hc
    refine ⟨by simp, fun t ht => ⟨(stop - perThread start stop threads * t, stop - perThread start stop threads * (t + 1)), ?_, ?_⟩⟩
    · rw [List.getElem?_map, List.getElem?_range ht]; rfl
    · have hq := perThread_mul_le start stop threads (t + 1) (by omega)
      have e : perThread start stop threads = (stop - start) / threads := by
        unfold perThread; rw [show max start stop - min start stop = stop - start by omega]
      rw [e] at hq ⊢
      unfold share threadElems
      rw [if_pos h]
      have hm : (stop - start) / threads * (t + 1) = (stop - start) / threads * t + (stop - start) / threads := Nat.mul_succ _ _
      generalize (stop - start) / threads = q at *
      generalize q * (t + 1) = y at *
      generalize q * t = x at *
      by_cases hq0 : q = 0
      · subst hq0
        have : y = x := by omega
        subst this
        simp
      · simp only
        rw [if_pos (by omega), show stop - x - (stop - y) = q by omega]
  · have h : stop ≤ start := by omega
    rw [passChunks_desc p h ha.start_lt ha.threads_pos ha.threads_lt] at hc
    cases hc
    refine ⟨by simp, fun t ht => ⟨(stop + perThread start stop threads * t, stop + perThread start stop threads * (t + 1)), ?_, ?_⟩⟩
    · rw [List.getElem?_map, List.getElem?_range ht]; rfl
    · have e : perThread start stop threads = (start - stop) / threads := by
        unfold perThread; rw [show max start stop - min start stop = start - stop by omega]
      rw [e]
      unfold share threadElems
      rw [if_neg (show ¬ start ≤ stop by omega)]
      have hm : (start - stop) / threads * (t + 1) = (start - stop) / threads * t + (start - stop) / threads := Nat.mul_succ _ _
      generalize (start - stop) / threads = q at *
      generalize q * (t + 1) = y at *
      generalize q * t = x at *
      simp only
      rw [if_neg (by omega), show stop + y - (stop + x) = q by omega]

theorem chunks_flatten (p : Profile) {start stop threads : Nat} (ha : PassArgs start stop threads) {chunks : List (Nat × Nat)}
    (hc : passChunks p start stop threads = .ok chunks) :
    (chunks.map fun c => threadElems c.1 c.2).flatten.Nodup ∧
      ∀ e ∈ (chunks.map fun c => threadElems c.1 c.2).flatten, e ∈ passRange start stop := by
  by_cases h : start ≤ stop
  · rw [passChunks_asc p h ha.stop_lt ha.threads_pos ha.threads_lt] at hc
    cases hc
    have hq := perThread_mul_le start stop threads threads le_rfl
    rw [flatten_asc _ _ _ (by omega)]
    refine ⟨List.nodup_reverse.2 (List.nodup_range'), ?_⟩
    intro e he
    rw [List.mem_reverse, List.mem_range'_1] at he
    unfold passRange
    rw [List.mem_range'_1]
    omega
  · have h : stop ≤ start := by omega
    rw [passChunks_desc p h ha.start_lt ha.threads_pos ha.threads_lt] at hc
    cases hc
    have hq := perThread_mul_le start stop threads threads le_rfl
    rw [flatten_desc]
    refine ⟨List.nodup_range', ?_⟩
    intro e he
    rw [List.mem_range'_1] at he
    unfold passRange
    rw [List.mem_range'_1]
    omega

section
variable (p : Profile) (ty : AlgoType) (start stop threads : Nat) (ha : PassArgs start stop threads)
  (f : List PCall → Nat → Rs Nat) (s : GPass)
include ha

/-- **C86** (at any moment): a thread works through its share in order and makes no more calls after one that panicked. -/
theorem C86_in_order (hs : Running p ty start stop threads f s) (t : Nat) (ht : t < threads) :
    argsOf s t <+: share start stop threads t ∧
      ∀ pre c post, threadCalls s t = pre ++ c :: post → c.panicked = true → post = [] := by
  obtain ⟨chunks, sched, hc, rfl⟩ := hs
  have inv := gInv_run (p := p) (ty := ty) (start := start) (stop := stop) f chunks sched
  obtain ⟨hl, hsh⟩ := chunks_share p ha hc
  obtain ⟨c, hct, hce⟩ := hsh t ht
  generalize (GPass.start p start chunks).run ty start stop f sched = s at *
  have hlt : t < s.threads.length := by rw [inv.len, hl]; exact ht
  have hth : s.threads[t]? = some s.threads[t] := List.getElem?_eq_getElem hlt
  refine ⟨⟨_, (inv.each t c _ hct hth).trans hce⟩, ?_⟩
  intro pre c post he hp
  cases hd : s.threads[t].dead with
  | false =>
    have := inv.alive t _ hth hd c (by rw [he]; simp)
    rw [this] at hp; simp at hp
  | true =>
    obtain ⟨pre', c', he', hp', hcalm⟩ := inv.dead t _ hth hd
    rcases List.eq_nil_or_concat post with h | ⟨post', x, rfl⟩
    · exact h
    · exfalso
      rw [he'] at he
      have h2 : pre' ++ [c'] = (pre ++ c :: post') ++ [x] := by rw [he]; simp
      have h3 := (List.append_inj' h2 rfl).1
      have := hcalm c (by rw [h3]; simp)
      rw [this] at hp; simp at hp

/-- **C86** (at any moment): no number is given to the closure twice, and only numbers of the range are. -/
theorem C86_no_twice (hs : Running p ty start stop threads f s) :
    (s.calls.map PCall.arg).Nodup ∧ (∀ c ∈ s.calls, c.arg ∈ passRange start stop) ∧ ∀ c ∈ s.calls, c.thread < threads := by
  obtain ⟨chunks, sched, hc, rfl⟩ := hs
  have inv := gInv_run (p := p) (ty := ty) (start := start) (stop := stop) f chunks sched
  obtain ⟨hn, hr⟩ := chunks_flatten p ha hc
  obtain ⟨hl, -⟩ := chunks_share p ha hc
  have hnd := inv.all.nodup_iff.2 hn
  refine ⟨(List.nodup_append.1 hnd).1, ?_, ?_⟩
  · intro c hcm
    exact hr _ (inv.all.subset (List.mem_append_left _ (List.mem_map_of_mem hcm)))
  · intro c hcm
    rw [← hl]; exact inv.tids c hcm

/-- **C86**: a pass in which some call panicked panics, and the message names the algorithm type and the range; a pass in which no call
panicked returns. -/
theorem C86_never_ignored (hs : Running p ty start stop threads f s) (out : Rs Nat) (he : s.Ended out) :
    (SomePanic s → out = .error (.msg ("Panic! while running provided 'algorithm' closure: algo type: " ++ algoTypeName ty ++ ", range: " ++
      toString start ++ ".." ++ toString stop ++ ": Error: Any { .. }"))) ∧
    (¬ SomePanic s → ∃ r, out = .ok r) := by
  obtain ⟨chunks, sched, hc, rfl⟩ := hs
  have inv := gInv_run (p := p) (ty := ty) (start := start) (stop := stop) f chunks sched
  have mi := mainInv_run (p := p) (ty := ty) (start := start) (stop := stop) f chunks sched
  have hadd : u32Add p start 1 = .ok (start + 1) := by
    unfold u32Add
    rw [if_pos (by have := ha.start_lt; omega)]
  generalize (GPass.start p start chunks).run ty start stop f sched = s at *
  unfold MainInv at mi
  unfold GPass.Ended at he
  rw [he] at mi
  cases out with
  | ok r =>
    obtain ⟨r0, -, hall, -⟩ := mi
    refine ⟨?_, fun _ => ⟨r, rfl⟩⟩
    rintro ⟨c, hcm, hp⟩
    exfalso
    have hlt : c.thread < s.threads.length := by rw [inv.len]; exact inv.tids c hcm
    have hth : s.threads[c.thread]? = some s.threads[c.thread] := List.getElem?_eq_getElem hlt
    have := inv.alive _ _ hth (hall _ (List.getElem_mem hlt)).2 c (by simp [threadCalls, hcm])
    rw [this] at hp; simp at hp
  | error e =>
    obtain ⟨-, hr⟩ := mi
    rcases hr with ⟨rfl, th, hth, hd⟩ | hr
    · refine ⟨fun _ => rfl, fun hn => ?_⟩
      exfalso
      obtain ⟨i, hi, rfl⟩ := List.getElem_of_mem hth
      obtain ⟨pre, c, hcall, hp, -⟩ := inv.dead i _ (List.getElem?_eq_getElem hi) hd
      refine hn ⟨c, ?_, hp⟩
      have : c ∈ threadCalls s i := by rw [hcall]; simp
      exact (List.mem_filter.1 this).1
    · rw [hadd] at hr; cases hr

/-- **C86**: the pass does not end, whether it returns or panics, before every thread in which no call panicked has worked through
its whole share. -/
theorem C86_waits (hs : Running p ty start stop threads f s) (out : Rs Nat) (he : s.Ended out) (t : Nat) (ht : t < threads)
    (hn : ∀ c ∈ threadCalls s t, c.panicked = false) : argsOf s t = share start stop threads t := by
  obtain ⟨chunks, sched, hc, rfl⟩ := hs
  have inv := gInv_run (p := p) (ty := ty) (start := start) (stop := stop) f chunks sched
  have mi := mainInv_run (p := p) (ty := ty) (start := start) (stop := stop) f chunks sched
  obtain ⟨hl, hsh⟩ := chunks_share p ha hc
  obtain ⟨c, hct, hce⟩ := hsh t ht
  generalize (GPass.start p start chunks).run ty start stop f sched = s at *
  have hlt : t < s.threads.length := by rw [inv.len, hl]; exact ht
  have hth : s.threads[t]? = some s.threads[t] := List.getElem?_eq_getElem hlt
  have hmem := List.getElem_mem hlt
  have htodo : s.threads[t].todo = [] := by
    unfold MainInv at mi
    unfold GPass.Ended at he
    rw [he] at mi
    cases out with
    | ok r =>
      obtain ⟨r0, -, hall, -⟩ := mi
      exact (hall _ hmem).1
    | error e =>
      rcases mi.1 _ hmem with h | h
      · exact h
      · exfalso
        obtain ⟨pre, c, hcall, hp, -⟩ := inv.dead t _ hth h
        have := hn c (by rw [hcall]; simp)
        rw [this] at hp; simp at hp
  have := inv.each t c _ hct hth
  rw [htodo, List.append_nil] at this
  exact this.trans hce

/-- **C86** (no panic, no change): if the closure never panics the pass is one of those C40 to C45 are about. -/
theorem C86_without_panics (g : List (Nat × Nat) → Nat → Nat) (s : GPass)
    (hs : Running p ty start stop threads (fun h e => .ok (g (h.map fun c => (c.thread, c.arg)) e)) s) (out : Rs Nat)
    (he : s.Ended out) :
    ∃ s' : PassRun, Passed p start stop threads g s' ∧ s'.result p start = out ∧
      s'.calls = s.calls.map fun c => (c.thread, c.arg) := by
  obtain ⟨chunks, sched, hc, hs⟩ := hs
  have hs' : s = (GPass.start p start chunks).run ty start stop (calm g) sched := hs
  obtain ⟨⟨l, h1⟩, h2⟩ := forget_run p ty start stop g chunks sched
  have mi := mainInv_run (p := p) (ty := ty) (start := start) (stop := stop) (calm g) chunks sched
  rw [← hs'] at h1 h2 mi
  unfold MainInv at mi
  unfold GPass.Ended at he
  rw [he] at mi
  have hadd : u32Add p start 1 = .ok (start + 1) := by
    unfold u32Add
    rw [if_pos (by have := ha.start_lt; omega)]
  cases out with
  | error e =>
    exfalso
    rcases mi.2 with ⟨-, th, hth, hd⟩ | hr
    · rw [h2 th hth] at hd; simp at hd
    · rw [hadd] at hr; cases hr
  | ok r =>
    obtain ⟨r0, hr0, hall, hr⟩ := mi
    refine ⟨s.forget, ⟨chunks, l, hc, h1, ?_⟩, ?_, rfl⟩
    · intro th hth
      simp only [GPass.forget, List.mem_map] at hth
      obtain ⟨x, hx, rfl⟩ := hth
      exact (hall x hx).1
    · unfold PassRun.result
      rw [hr0, hr]
      unfold joined
      rw [List.take_length]
      show Except.ok _ = _
      congr 1
      simp only [GPass.forget, List.foldl_map]

end

/-! ## the pass always ends -/

/-- steps left -/
def effort (s : GPass) : Nat :=
  (s.threads.map fun th => if th.dead then 0 else th.todo.length).sum +
    match s.main with
    | .joining j _ => s.threads.length + 2 - j
    | .unwinding _ => 1
    | .ended _ => 0

theorem sum_set_effort {l : List GTh} {t e acc : Nat} {es : List Nat} {x : GTh} (h : l[t]? = some ⟨e :: es, acc, false⟩)
    (hx : (if x.dead then 0 else x.todo.length) ≤ es.length) :
    ((l.set t x).map fun th => if th.dead then 0 else th.todo.length).sum <
      (l.map fun th => if th.dead then 0 else th.todo.length).sum := by
  induction l generalizing t with
  | nil => simp at h
  | cons y l ih =>
    cases t with
    | zero =>
      simp at h; subst h
      simp only [List.set_cons_zero, List.map_cons, List.sum_cons, List.length_cons]
      rw [if_neg (show ¬ (false = true) by simp)]
      have : es.length < (e :: es).length := by simp
      generalize (if x.dead = true then 0 else x.todo.length) = a at *
      generalize (e :: es).length = b at *
      omega
    | succ t =>
      simp at h
      have := ih h
      simp only [List.set_cons_succ, List.map_cons, List.sum_cons]; omega

theorem progress (p : Profile) (ty : AlgoType) (start stop : Nat) (f) (s : GPass) (mi : MainInv p ty start stop s)
    (hne : ¬ ∃ out, s.Ended out) : ∃ a, effort (s.step ty start stop f a) < effort s := by
  by_cases hfin : ∀ th ∈ s.threads, th.Finished
  · refine ⟨.main, ?_⟩
    show effort (s.stepMain ty start stop) < _
    unfold GPass.stepMain
    unfold MainInv at mi
    cases hm : s.main with
    | joining j r =>
      rw [hm] at mi
      obtain ⟨r0, -, hj, -, -⟩ := mi
      simp only
      cases hth : s.threads[j]? with
      | none => simp only; unfold effort; rw [hm]; simp only; omega
      | some th =>
        have hjlt : j < s.threads.length := by
          rcases Nat.lt_or_ge j s.threads.length with h1 | h1
          · exact h1
          · rw [List.getElem?_eq_none h1] at hth; simp at hth
        simp only
        cases hd : th.dead with
        | true => rw [if_pos rfl]; unfold effort; rw [hm]; simp only; omega
        | false =>
          have : th.todo = [] := by
            rcases hfin th (List.mem_of_getElem? hth) with h | h
            · exact h
            · rw [hd] at h; simp at h
          rw [if_neg (by simp), if_pos this]
          unfold effort; rw [hm]; simp only; omega
    | unwinding e =>
      simp only
      rw [if_pos hfin]
      unfold effort; rw [hm]; simp only; omega
    | ended out => exact absurd ⟨out, hm⟩ hne
  · push Not at hfin
    obtain ⟨th, hth, hnf⟩ := hfin
    obtain ⟨t, ht, rfl⟩ := List.getElem_of_mem hth
    unfold GTh.Finished at hnf
    push Not at hnf
    obtain ⟨h1, h2⟩ := hnf
    obtain ⟨e, es, he⟩ := List.exists_cons_of_ne_nil h1
    have hth' : s.threads[t]? = some ⟨e :: es, s.threads[t].acc, false⟩ := by
      rw [List.getElem?_eq_getElem ht, ← he]
      congr 1
      have : s.threads[t].dead = false := by simpa using h2
      rw [← this]
    refine ⟨.thread t, ?_⟩
    show effort (s.stepThread f t) < _
    unfold GPass.stepThread
    rw [hth']
    simp only
    split
    · have := sum_set_effort (x := ⟨es, s.threads[t].acc ^^^ ‹_›, false⟩) hth' (by simp)
      unfold effort
      simp only [List.length_set]
      omega
    · have := sum_set_effort (x := ⟨es, s.threads[t].acc, true⟩) hth' (by simp)
      unfold effort
      simp only [List.length_set]
      omega

theorem finish (p : Profile) (ty : AlgoType) (start stop : Nat) (f) : ∀ (k : Nat) (s : GPass), MainInv p ty start stop s → effort s ≤ k →
    ∃ sched out, (s.run ty start stop f sched).Ended out := by
  intro k
  induction k with
  | zero =>
    intro s mi hk
    by_cases hne : ∃ out, s.Ended out
    · obtain ⟨out, h⟩ := hne; exact ⟨[], out, h⟩
    · obtain ⟨a, h⟩ := progress p ty start stop f s mi hne
      omega
  | succ k ih =>
    intro s mi hk
    by_cases hne : ∃ out, s.Ended out
    · obtain ⟨out, h⟩ := hne; exact ⟨[], out, h⟩
    · obtain ⟨a, h⟩ := progress p ty start stop f s mi hne
      obtain ⟨sched, out, h'⟩ := ih _ (mainInv_step f mi a) (by omega)
      exact ⟨a :: sched, out, h'⟩

/-- **C86** (no deadlock): whatever happened so far, the pass can go on to its end, also when closures panic. -/
theorem C86_can_end (p : Profile) (ty : AlgoType) (start stop threads : Nat) (f : List PCall → Nat → Rs Nat) (s : GPass)
    (hs : Running p ty start stop threads f s) :
    ∃ sched out, Running p ty start stop threads f (s.run ty start stop f sched) ∧ (s.run ty start stop f sched).Ended out := by
  obtain ⟨chunks, sched, hc, rfl⟩ := hs
  have mi := mainInv_run (p := p) (ty := ty) (start := start) (stop := stop) f chunks sched
  obtain ⟨sched', out, h⟩ := finish p ty start stop f _ _ mi le_rfl
  refine ⟨sched', out, ⟨chunks, sched ++ sched', hc, ?_⟩, h⟩
  simp [GPass.run, List.foldl_append]

/-! ## Concrete cases -/

/-- a closure that panics at 3 -/
def panicsAt3 : List PCall → Nat → Rs Nat := fun _ e => if e = 3 then .error (.msg "boom") else .ok e

/-- two threads over 0..4: thread 0 panics at once, thread 1 works to its end before the pass panics -/
example : Running .checked .constantSet 0 4 2 panicsAt3
    ((GPass.start .checked 0 [(4, 2), (2, 0)]).run .constantSet 0 4 panicsAt3 [.thread 1, .thread 0, .main, .thread 1, .main]) :=
  ⟨[(4, 2), (2, 0)], _, rfl, rfl⟩

example : ((GPass.start .checked 0 [(4, 2), (2, 0)]).run .constantSet 0 4 panicsAt3 [.thread 1, .thread 0, .main, .thread 1, .main]).Ended
    (.error (closurePanic .constantSet 0 4)) := rfl

-- the pass has noticed the panic but still waits for thread 1
example : ((GPass.start .checked 0 [(4, 2), (2, 0)]).run .constantSet 0 4 panicsAt3 [.thread 1, .thread 0, .main, .main]).main =
    .unwinding (closurePanic .constantSet 0 4) := rfl

example : ((GPass.start .checked 0 [(4, 2), (2, 0)]).run .constantSet 0 4 panicsAt3 [.thread 1, .thread 0, .main, .thread 1, .main]).calls =
    [⟨1, 1, false⟩, ⟨0, 3, true⟩, ⟨1, 0, false⟩] := rfl

example : share 0 4 2 0 = [3, 2] ∧ share 0 4 2 1 = [1, 0] ∧ share 4 0 2 0 = [0, 1] := by decide

example : PassArgs 0 4 2 := ⟨by norm_num, by norm_num, by norm_num, by norm_num⟩

-- no panic: the two threads are joined and the pass returns
example : ((GPass.start .checked 0 [(4, 2), (2, 0)]).run .setResizing 0 4 (calm fun _ e => e)
    [.thread 1, .thread 0, .main, .thread 1, .thread 0, .main, .main, .main]).Ended (.ok 3) := rfl

end BigO
