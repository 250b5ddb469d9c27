import Verif.Proofs.Alloc

/-!
# Properties of the metrics allocator, one thread at a time (C20-C25, C28)

`N` is `RING_BUFFER_SIZE`; both build profiles are covered.  `Respects` is the contract of `GlobalAlloc`, `liveBlocks` and
`liveTrace` say which blocks are live, `total k` adds up the calls; all are in `Verif.Spec.Heap` and know nothing of the
statistics.  `deltaAfter p N pre post` is: run `pre`, take a save point, run `post`, ask for the delta.
-/
namespace BigO

/-! ## C20 -/

/-- C20. used memory equals the live bytes (modulo the width of `usize`), save points or not -/
theorem C20_used_is_live_mod (p : Profile) (N : Nat) (es : List AllocEv) (hr : Respects [] es)
    (hs : ∀ c ∈ callsOf es, succeeds c = true) :
    (AllocSys.new.run p N es).st .currentUsedMemory = (liveBlocks [] es).sum % 2 ^ 64 := by
  have h := used_run p N es AllocSys.new [] 0 hr (by unfold UsedIs; simp [AllocSys.new])
  rw [refusedBytes_zero hs] at h
  unfold UsedIs at h
  omega

/-- C20. ... exactly, as the live blocks fit in the address space; whatever happened in between -/
theorem C20_used_is_live (p : Profile) (N : Nat) (es : List AllocEv) (hr : Respects [] es)
    (hs : ∀ c ∈ callsOf es, succeeds c = true) (hfit : (liveBlocks [] es).sum < 2 ^ 64) :
    (AllocSys.new.run p N es).st .currentUsedMemory = (liveBlocks [] es).sum := by
  rw [C20_used_is_live_mod p N es hr hs, Nat.mod_eq_of_lt hfit]

/-- C20. everything freed: nothing is used -/
theorem C20_all_freed (p : Profile) (N : Nat) (es : List AllocEv) (hr : Respects [] es)
    (hs : ∀ c ∈ callsOf es, succeeds c = true) (hfree : liveBlocks [] es = []) :
    (AllocSys.new.run p N es).st .currentUsedMemory = 0 := by
  rw [C20_used_is_live_mod p N es hr hs, hfree]; rfl

/-- a history with all four calls and a save point -/
def exampleHistory : List AllocEv :=
  [.call (.alloc 100 true), .call (.allocZeroed 40 true), .savePoint, .call (.realloc 100 250 true),
   .call (.dealloc 40), .call (.realloc 250 30 true)]

example : Respects [] exampleHistory ∧ (∀ c ∈ callsOf exampleHistory, succeeds c = true) ∧
    liveBlocks [] exampleHistory = [30] := by
  refine ⟨?_, ?_, ?_⟩ <;> decide

/-! ## C21 -/

theorem deltaAfter_ok {p : Profile} {N : Nat} (hN : 0 < N) (hN32 : N < 2 ^ 32) (pre post : List AllocEv)
    (hfew : savePoints pre + 1 + savePoints post < 2 ^ 32) (hfit : TotalsFit p pre post) :
    ∃ s1 sp, (AllocSys.new.run p N pre).savePoint p N = (s1, .ok sp) ∧
      sp.metrics .currentUsedMemory = (AllocSys.new.run p N pre).st .currentUsedMemory ∧
      (N < savePoints post → ∃ e, deltaAfter p N pre post = .ok (.error e)) ∧
      (savePoints post ≤ N → ∃ st, deltaAfter p N pre post = .ok (.ok st) ∧
        (∀ k ∈ deltaCtrs, st k = total k post) ∧
        st .currentUsedMemory = (s1.run p N post).st .currentUsedMemory ∧
        IsMinOf (st .minUsedMemory) (usedTrace p N s1 post) ∧ IsMaxOf (st .maxUsedMemory) (usedTrace p N s1 post)) := by
  obtain ⟨s1, sp, h1, h2, h3, h4⟩ := delta_master hN hN32 pre post hfew hfit
  refine ⟨s1, sp, h1, h2, ?_, ?_⟩
  · intro h; simpa [deltaAfter, h1] using h3 h
  · intro h; simpa [deltaAfter, h1] using h4 h

/-- C21. the nine counters reported are exactly what happened since the save point: for each of them, the number of calls
of that kind (or the bytes they asked for) made after it, whatever happened before and whichever other save points
were taken -/
theorem C21_delta_counters_exact {p : Profile} {N : Nat} (hN : 0 < N) (hN32 : N < 2 ^ 32) (pre post : List AllocEv)
    (hfew : savePoints pre + 1 + savePoints post < 2 ^ 32) (hfit : TotalsFit p pre post) {st : Stats}
    (hst : deltaAfter p N pre post = .ok (.ok st)) :
    st .allocationsCount = total .allocationsCount post ∧
    st .deallocationsCount = total .deallocationsCount post ∧
    st .zeroedAllocationsCount = total .zeroedAllocationsCount post ∧
    st .reallocationsCount = total .reallocationsCount post ∧
    st .allocatedBytes = total .allocatedBytes post ∧
    st .deallocatedBytes = total .deallocatedBytes post ∧
    st .zeroedAllocatedBytes = total .zeroedAllocatedBytes post ∧
    st .reallocatedOriginalsBytes = total .reallocatedOriginalsBytes post ∧
    st .reallocatedNewsBytes = total .reallocatedNewsBytes post := by
  obtain ⟨s1, sp, _, _, h3, h4⟩ := deltaAfter_ok hN hN32 pre post hfew hfit
  rcases Nat.lt_or_ge N (savePoints post) with h | h
  · obtain ⟨e, he⟩ := h3 h; rw [hst] at he; simp at he
  · obtain ⟨st', hst', hk, _⟩ := h4 h
    rw [hst] at hst'
    simp only [Outcome.ok.injEq, Except.ok.injEq] at hst'
    subst hst'
    refine ⟨?_, ?_, ?_, ?_, ?_, ?_, ?_, ?_, ?_⟩ <;> exact hk _ (by simp [deltaCtrs])

/-- C21. current used memory is reported as it is now, not as a difference -/
theorem C21_delta_current_is_absolute {p : Profile} {N : Nat} (hN : 0 < N) (hN32 : N < 2 ^ 32) (pre post : List AllocEv)
    (hfew : savePoints pre + 1 + savePoints post < 2 ^ 32) (hfit : TotalsFit p pre post) {st : Stats}
    (hst : deltaAfter p N pre post = .ok (.ok st)) (hr : Respects [] (pre ++ post))
    (hs : ∀ c ∈ callsOf (pre ++ post), succeeds c = true) (hf : (liveBlocks [] (pre ++ post)).sum < 2 ^ 64) :
    st .currentUsedMemory = (liveBlocks [] (pre ++ post)).sum := by
  obtain ⟨s1, sp, h1, _, h3, h4⟩ := deltaAfter_ok hN hN32 pre post hfew hfit
  rcases Nat.lt_or_ge N (savePoints post) with h | h
  · obtain ⟨e, he⟩ := h3 h; rw [hst] at he; simp at he
  · obtain ⟨st', hst', _, hc, _⟩ := h4 h
    rw [hst] at hst'
    simp only [Outcome.ok.injEq, Except.ok.injEq] at hst'
    subst hst'
    rw [hc, used_calls]
    have hs1 : s1.st .currentUsedMemory = (AllocSys.new.run p N pre).st .currentUsedMemory := by
      have := savePoint_other p N (AllocSys.new.run p N pre) (k := .currentUsedMemory) (by simp) (by simp)
      rw [h1] at this; exact this
    rw [hs1, ← used_calls, ← run_append_alloc]
    exact C20_used_is_live p N _ hr hs hf

example : total .allocationsCount exampleHistory = 1 ∧ total .zeroedAllocatedBytes exampleHistory = 40 ∧
    total .reallocationsCount exampleHistory = 2 ∧ total .reallocatedNewsBytes exampleHistory = 280 := by decide

theorem totalsFit_example : TotalsFit .checked exampleHistory exampleHistory := by
  intro k hk
  refine ⟨?_, Or.inr ?_⟩ <;> (revert k; decide)

/-! ## C22 -/

/-- C22. the extremes reported are those of the live bytes over all instants from the save point until now -/
theorem C22_delta_extremes {p : Profile} {N : Nat} (hN : 0 < N) (hN32 : N < 2 ^ 32) (pre post : List AllocEv)
    (hfew : savePoints pre + 1 + savePoints post < 2 ^ 32) (hfit : TotalsFit p pre post) {st : Stats}
    (hst : deltaAfter p N pre post = .ok (.ok st)) (hr : Respects [] (pre ++ post))
    (hs : ∀ c ∈ callsOf (pre ++ post), succeeds c = true) (hf : ∀ x ∈ liveTrace (liveBlocks [] pre) post, x < 2 ^ 64) :
    IsMinOf (st .minUsedMemory) (liveTrace (liveBlocks [] pre) post) ∧
    IsMaxOf (st .maxUsedMemory) (liveTrace (liveBlocks [] pre) post) := by
  obtain ⟨s1, sp, h1, _, h3, h4⟩ := deltaAfter_ok hN hN32 pre post hfew hfit
  rcases Nat.lt_or_ge N (savePoints post) with h | h
  · obtain ⟨e, he⟩ := h3 h; rw [hst] at he; simp at he
  · obtain ⟨st', hst', _, _, hmm⟩ := h4 h
    rw [hst] at hst'
    simp only [Outcome.ok.injEq, Except.ok.injEq] at hst'
    subst hst'
    rw [respects_append] at hr
    rw [callsOf_append] at hs
    have hs1 : s1.st .currentUsedMemory = (AllocSys.new.run p N pre).st .currentUsedMemory := by
      have := savePoint_other p N (AllocSys.new.run p N pre) (k := .currentUsedMemory) (by simp) (by simp)
      rw [h1] at this; exact this
    have hsum : (liveBlocks [] pre).sum < 2 ^ 64 := by
      apply hf; cases post with
      | nil => simp [liveTrace]
      | cons e es => cases e <;> simp [liveTrace]
    rw [usedTrace_live p N post s1 (liveBlocks [] pre) hr.2 (fun c hc => hs c (List.mem_append_right _ hc)) hf
      (by rw [hs1]; exact C20_used_is_live p N pre hr.1 (fun c hc => hs c (List.mem_append_left _ hc)) hsum)] at hmm
    exact hmm

/-- a peak between two save points is not lost: 100 live, save point, up to 250, another save point, down to 30 -/
example : (deltaAfter .checked 1024 [.call (.alloc 100 true)]
      [.call (.realloc 100 250 true), .savePoint, .call (.realloc 250 30 true), .savePoint, .call (.realloc 30 60 true)]
    |> fun o => match o with | .ok (.ok st) => some (st .minUsedMemory, st .maxUsedMemory, st .currentUsedMemory)
                             | _ => none) = some (30, 250, 60) := by decide

/-! ## C23 -/

/-- C23. the delta is refused exactly when more than `N` save points were taken after the given one; it never panics and
always terminates -/
theorem C23_delta_fails_iff {p : Profile} {N : Nat} (hN : 0 < N) (hN32 : N < 2 ^ 32) (pre post : List AllocEv)
    (hfew : savePoints pre + 1 + savePoints post < 2 ^ 32) (hfit : TotalsFit p pre post) :
    ((∃ e, deltaAfter p N pre post = .ok (.error e)) ↔ N < savePoints post) ∧
    ((∃ st, deltaAfter p N pre post = .ok (.ok st)) ↔ savePoints post ≤ N) := by
  obtain ⟨s1, sp, _, _, h3, h4⟩ := deltaAfter_ok hN hN32 pre post hfew hfit
  rcases Nat.lt_or_ge N (savePoints post) with h | h
  · obtain ⟨e, he⟩ := h3 h
    rw [he]
    refine ⟨⟨fun _ => h, fun _ => ⟨e, rfl⟩⟩, ⟨?_, fun h' => absurd h (by omega)⟩⟩
    rintro ⟨st, hst⟩; simp at hst
  · obtain ⟨st, hst, _⟩ := h4 h
    rw [hst]
    refine ⟨⟨?_, fun h' => absurd h (by omega)⟩, ⟨fun _ => h, fun _ => ⟨st, rfl⟩⟩⟩
    rintro ⟨e, he⟩; simp at he

example : savePoints exampleHistory = 1 ∧ savePoints (exampleHistory ++ exampleHistory) = 2 := by decide

/-- C23. why the totals have to fit: with overflow checks on, once the bytes ever allocated have wrapped around between
the save point and the delta, the subtraction of `delta_statistics` panics -/
theorem C23_wrapped_total_panics :
    deltaAfter .checked 1024
      [.call (.alloc (2 ^ 63 - 1) true), .call (.dealloc (2 ^ 63 - 1)),
       .call (.alloc (2 ^ 63 - 1) true), .call (.dealloc (2 ^ 63 - 1))]
      [.call (.alloc (2 ^ 63 - 1) true)] = .panic .subtractOverflow := by rfl

/-! ## C24 -/

/-- C24. taking or not taking other save points changes nothing in what is reported: the same calls give the same
statistics, wherever save points are interposed (before or after), as long as at most `N` follow the one asked about -/
theorem C24_save_points_independent {p : Profile} {N : Nat} (hN : 0 < N) (hN32 : N < 2 ^ 32)
    (pre post pre' post' : List AllocEv)
    (hfew : savePoints pre + 1 + savePoints post < 2 ^ 32) (hfew' : savePoints pre' + 1 + savePoints post' < 2 ^ 32)
    (hpre : callsOf pre = callsOf pre') (hpost : callsOf post = callsOf post')
    (hN1 : savePoints post ≤ N) (hN2 : savePoints post' ≤ N) (hfit : TotalsFit p pre post) :
    deltaAfter p N pre post = deltaAfter p N pre' post' := by
  have ht : ∀ k, total k post' = total k post := by intro k; simp only [total, hpost]
  have ht2 : ∀ k, total k (pre' ++ post') = total k (pre ++ post) := by
    intro k; simp only [total, callsOf_append, hpre, hpost]
  have hfit' : TotalsFit p pre' post' := by
    intro k hk; rw [ht, ht2]; exact hfit k hk
  obtain ⟨s1, sp, h1, _, _, h4⟩ := deltaAfter_ok hN hN32 pre post hfew hfit
  obtain ⟨s1', sp', h1', _, _, h4'⟩ := deltaAfter_ok hN hN32 pre' post' hfew' hfit'
  obtain ⟨st, hst, hk, hc, hmin, hmax⟩ := h4 hN1
  obtain ⟨st', hst', hk', hc', hmin', hmax'⟩ := h4' hN2
  rw [hst, hst']
  have hs1 : s1.st .currentUsedMemory = s1'.st .currentUsedMemory := by
    have a := savePoint_other p N (AllocSys.new.run p N pre) (k := .currentUsedMemory) (by simp) (by simp)
    have b := savePoint_other p N (AllocSys.new.run p N pre') (k := .currentUsedMemory) (by simp) (by simp)
    rw [h1] at a; rw [h1'] at b
    simp only at a b
    rw [a, b, used_calls, used_calls, hpre]
  have hset : ∀ x, x ∈ usedTrace p N s1 post ↔ x ∈ usedTrace p N s1' post' := by
    intro x
    rw [usedTrace_calls, usedTrace_calls p N post', hpost, usedTrace_start p N (callsOf post') s1 s1' hs1]
  congr 2
  have hall : ∀ k, k ∈ deltaCtrs ∨ k = .currentUsedMemory ∨ k = .minUsedMemory ∨ k = .maxUsedMemory := by
    intro k; cases k <;> simp [deltaCtrs]
  funext k
  rcases hall k with hk1 | rfl | rfl | rfl
  · rw [hk k hk1, hk' k hk1, ht]
  · rw [hc, hc', used_calls, used_calls, hs1, hpost]
  · exact Nat.le_antisymm (hmin.2 _ ((hset _).2 hmin'.1)) (hmin'.2 _ ((hset _).1 hmin.1))
  · exact Nat.le_antisymm (hmax'.2 _ ((hset _).1 hmax.1)) (hmax.2 _ ((hset _).2 hmax'.1))

example : callsOf [.call (.alloc 100 true), .savePoint, .call (.dealloc 100)] =
    callsOf [.savePoint, .call (.alloc 100 true), .call (.dealloc 100), .savePoint] := by decide

/-! ## C25 -/

/-- C25. the readings are ordered: the minimum is at most what was used at the save point and what is used now, and the
maximum is at least both; so none of the subtractions made with them by the analysis and the report can underflow,
also with overflow checks on.  No assumption on the calls: contract violations and failures included. -/
theorem C25_readings_ordered {p : Profile} {N : Nat} (hN : 0 < N) (hN32 : N < 2 ^ 32) (pre post : List AllocEv)
    (hfew : savePoints pre + 1 + savePoints post < 2 ^ 32) (hfit : TotalsFit p pre post)
    {s1 : AllocSys} {sp : SavePoint} (hsp : (AllocSys.new.run p N pre).savePoint p N = (s1, .ok sp)) {st : Stats}
    (hst : deltaAfter p N pre post = .ok (.ok st)) :
    st .minUsedMemory ≤ sp.metrics .currentUsedMemory ∧ sp.metrics .currentUsedMemory ≤ st .maxUsedMemory ∧
    st .minUsedMemory ≤ st .currentUsedMemory ∧ st .currentUsedMemory ≤ st .maxUsedMemory ∧
    usizeSub p (st .maxUsedMemory) (sp.metrics .currentUsedMemory) =
      .ok (st .maxUsedMemory - sp.metrics .currentUsedMemory) ∧
    usizeSub p (sp.metrics .currentUsedMemory) (st .minUsedMemory) =
      .ok (sp.metrics .currentUsedMemory - st .minUsedMemory) ∧
    usizeSub p (st .maxUsedMemory) (st .minUsedMemory) = .ok (st .maxUsedMemory - st .minUsedMemory) := by
  obtain ⟨s1', sp', h1, hspc, h3, h4⟩ := deltaAfter_ok hN hN32 pre post hfew hfit
  rw [hsp] at h1
  simp only [Prod.mk.injEq, Outcome.ok.injEq] at h1
  obtain ⟨rfl, rfl⟩ := h1
  rcases Nat.lt_or_ge N (savePoints post) with h | h
  · obtain ⟨e, he⟩ := h3 h; rw [hst] at he; simp at he
  · obtain ⟨st', hst', _, hc, hmin, hmax⟩ := h4 h
    rw [hst] at hst'
    simp only [Outcome.ok.injEq, Except.ok.injEq] at hst'
    subst hst'
    have hs1 : s1.st .currentUsedMemory = sp.metrics .currentUsedMemory := by
      have := savePoint_other p N (AllocSys.new.run p N pre) (k := .currentUsedMemory) (by simp) (by simp)
      rw [hsp] at this; rw [hspc]; exact this
    have hfirst : sp.metrics .currentUsedMemory ∈ usedTrace p N s1 post := by
      rw [← hs1]; cases post <;> simp [usedTrace]
    have hlast : st .currentUsedMemory ∈ usedTrace p N s1 post := by
      rw [hc]; exact usedTrace_last p N post s1
    have o1 := hmin.2 _ hfirst
    have o2 := hmax.2 _ hfirst
    have o3 := hmin.2 _ hlast
    have o4 := hmax.2 _ hlast
    have hsub : ∀ a b, b ≤ a → usizeSub p a b = .ok (a - b) := by
      intro a b h; unfold usizeSub; rw [if_pos h]
    exact ⟨o1, o2, o3, o4, hsub _ _ o2, hsub _ _ o1, hsub _ _ (by omega)⟩

/-! ## C28: false of the code -/

/-- C28. (the property fails) a refused allocation does count as used memory: one failed request of 64 bytes, no live block,
64 bytes "used" ever after -/
theorem C28_refused_allocation_is_counted (p : Profile) (N : Nat) :
    ∃ es : List AllocEv, Respects [] es ∧ liveBlocks [] es = [] ∧
      (AllocSys.new.run p N es).st .currentUsedMemory = 64 :=
  ⟨[.call (.alloc 64 false)], by decide, rfl, rfl⟩

/-- C28. (what does hold) the error is exactly the refused bytes: used memory is the live bytes plus the bytes refused so
far, and nothing else is ever miscounted -/
theorem C28_used_is_live_plus_refused_partial (p : Profile) (N : Nat) (es : List AllocEv) (hr : Respects [] es)
    (h0 : 0 ≤ (liveBlocks [] es).sum + refusedBytes es) (hfit : (liveBlocks [] es).sum + refusedBytes es < 2 ^ 64) :
    ((AllocSys.new.run p N es).st .currentUsedMemory : Int) = (liveBlocks [] es).sum + refusedBytes es := by
  have h := used_run p N es AllocSys.new [] 0 hr (by unfold UsedIs; simp [AllocSys.new])
  unfold UsedIs at h
  rw [h, Int.zero_add]
  exact Int.emod_eq_of_lt h0 hfit

/-- C28. a refused shrink makes used memory too small, down to wrapping below zero: with two blocks of 10 bytes and 1000
bytes, a failed shrink of the big one followed by freeing it leaves 2^64 - 980 "used" -/
theorem C28_refused_shrink_underflows (p : Profile) (N : Nat) :
    (AllocSys.new.run p N [.call (.alloc 10 true), .call (.alloc 1000 true), .call (.realloc 1000 10 false),
      .call (.dealloc 1000)]).st .currentUsedMemory = 2 ^ 64 - 980 := by
  rw [used_calls]; decide

example : Respects [] [.call (.alloc 10 true), .call (.alloc 1000 true), .call (.realloc 1000 10 false),
      .call (.dealloc 1000)] := by decide

end BigO
