import Verif.Props.AllocConc
import Verif.Proofs.AllocViews

/-!
# Statistics since a save point, with several threads (C88)

Any number of threads, any interleaving of their atomic accesses, stale reads included (`Verif.Model.AllocConc`).
-/
namespace BigO

theorem callEff_sum {k : Ctr} (hk : k ∈ deltaCtrs) (cs : List HeapCall) :
    (cs.map (callEff k)).sum = ((cs.map (contribution k)).sum : Int) := by
  induction cs with
  | nil => rfl
  | cons c cs ih => simp only [List.map_cons, List.sum_cons, ih, callEff_contribution hk]; push_cast; rfl

/-! ## no subtraction overflows -/

/-- C88. whatever the threads do and whatever the schedule (save points and requests at any time, by any thread, the allocator busy or
not, reads stale or not): if the counters have room for all the calls made, no request for statistics panics, in any build profile -/
theorem C88_no_underflow (pr : Profile) (N : Nat) (s0 : Stats) {acts : List AAct} {s : AConc}
    (h : (AConc.init pr N s0).sched acts = some s)
    (hroom : ∀ k ∈ deltaCtrs, s0 k + ((callsIn acts).map (contribution k)).sum < 2 ^ 64) (k : Nat) :
    (k, DRes.panicked) ∉ s.results := by
  obtain ⟨n, hn⟩ := exists_bound acts
  have hst := started_sched acts _ s h
  have hr : Room s0 s.started := by
    intro k hk
    rw [hst, show (AConc.init pr N s0).started = [] from rfl, List.nil_append, callEff_sum hk]
    have := hroom k hk
    omega
  exact (sub_sched acts _ s hn (fun k _ => countInv_init pr N n s0 k) (subInv_init pr N s0) h hr).1.results k

/-! ## a pass -/

theorem callsIn_append : ∀ as bs : List AAct, callsIn (as ++ bs) = callsIn as ++ callsIn bs
  | [], _ => rfl
  | .call _ c :: as, bs => by simp only [List.cons_append, callsIn, callsIn_append as bs]
  | .save _ :: as, bs => by simp only [List.cons_append, callsIn, callsIn_append as bs]
  | .delta _ _ :: as, bs => by simp only [List.cons_append, callsIn, callsIn_append as bs]
  | .sync _ _ :: as, bs => by simp only [List.cons_append, callsIn, callsIn_append as bs]
  | .step _ _ _ :: as, bs => by simp only [List.cons_append, callsIn, callsIn_append as bs]

theorem callsIn_alone {t : Nat} : ∀ as : List AAct, Alone t as → callsIn as = []
  | [], _ => rfl
  | a :: as, h => by
    obtain ⟨i, ok, rfl⟩ := h a (by simp)
    simp only [callsIn]
    exact callsIn_alone as fun b hb => h b (by simp [hb])

/-- the counters when all threads are done, from one such moment to another -/
theorem counters_between {pr : Profile} {N : Nat} {s0 : Stats} {k : Ctr} (hk : k ∈ deltaCtrs) (h0 : s0 k < 2 ^ 64) {pre mid : List AAct}
    {s1 s3 : AConc} (h1 : (AConc.init pr N s0).sched pre = some s1) (q1 : s1.Quiescent) (h3 : s1.sched mid = some s3) (q3 : s3.Quiescent)
    (hroom : (s1.loc k).last + ((callsIn mid).map (contribution k)).sum < 2 ^ 64) :
    (s3.loc k).last = (s1.loc k).last + ((callsIn mid).map (contribution k)).sum := by
  have e1 := C26_counters_exact pr N s0 hk h0 h1 q1
  have e3 := C26_counters_exact pr N s0 hk h0 (sched_append.2 ⟨s1, h1, h3⟩) q3
  rw [callsIn_append, List.map_append, List.sum_append] at e3
  omega

theorem used_between {pr : Profile} {N : Nat} {s0 : Stats} (h0 : s0 .currentUsedMemory < 2 ^ 64) {pre mid : List AAct}
    {s1 s3 : AConc} (h1 : (AConc.init pr N s0).sched pre = some s1) (q1 : s1.Quiescent) (h3 : s1.sched mid = some s3) (q3 : s3.Quiescent) :
    ((s3.loc .currentUsedMemory).last : Int) =
      ((s1.loc .currentUsedMemory).last + ((callsIn mid).map netBytes).sum) % (2 ^ 64 : Int) := by
  have e1 := C26_used_exact pr N s0 h0 h1 q1
  have e3 := C26_used_exact pr N s0 h0 (sched_append.2 ⟨s1, h1, h3⟩) q3
  rw [callsIn_append, List.map_append, List.sum_append] at e3
  omega

theorem curSmall_sched {pr : Profile} {N : Nat} {s0 : Stats} (h0 : s0 .currentUsedMemory < 2 ^ 64) {as : List AAct} {s : AConc}
    (h : (AConc.init pr N s0).sched as = some s) : CurSmall s :=
  sched_induct (fun _ _ _ h ha => h.act ha) as _ s (fun _ _ => Nat.le_pred_of_lt h0) h

/-- the state after a save point taken alone, what is older forgotten, is an initial state -/
theorem rebase_init {s : AConc} (hi : ∀ u, (s.th u).pc = .idle) (hv : ∀ u c, (s.th u).view c ≤ (s.loc c).top) :
    rebase (fun c => (s.loc c).top) [] s = AConc.init s.profile s.size (fun c => (s.loc c).last) := by
  refine aconc_eq rfl rfl ?_ ?_ rfl rfl rfl rfl
  · funext c
    show reLoc _ _ = _
    unfold reLoc AConc.init
    simp only [Nat.sub_self, Loc.mk.injEq, true_and]
    funext i
    split
    · rename_i h; have : i = 0 := by omega
      subst this; rw [Nat.zero_add]; rfl
    · rfl
  · funext u
    refine th_eq (hi u) ?_
    funext c
    show (s.th u).view c - (s.loc c).top = 0
    have := hv u c
    omega

/-- `C88_pass_statistics`; the extremes are those the allocator holds when the work is done -/
theorem pass_statistics (pr : Profile) (N : Nat) (s0 : Stats) (h0 : ∀ c, s0 c < 2 ^ 64) {t : Nat}
    {pre save mid req : List AAct} {s1 s2 s3 s4 : AConc}
    (h1 : (AConc.init pr N s0).sched pre = some s1) (q1 : s1.Quiescent) (f1 : s1.UpToDate t)
    (h2 : s1.sched (.save t :: save) = some s2) (a2 : Alone t save) (i2 : (s2.th t).pc = .idle)
    (h3 : s2.sched mid = some s3) (a3 : StartedBy [t] mid) (q3 : s3.Quiescent) (f3 : s3.UpToDate t)
    (h4 : s3.sched (.delta t s1.saved.length :: req) = some s4) (a4 : Alone t req) (i4 : (s4.th t).pc = .idle)
    (hroom : ∀ k ∈ deltaCtrs, (s1.loc k).last + ((callsIn mid).map (contribution k)).sum < 2 ^ 64) :
    ∃ used mn mx : Nat, s4.results = s1.results ++ [(s1.saved.length,
        .stats ((deltaCtrs.map fun k => ((callsIn mid).map (contribution k)).sum) ++ [used, mn, mx]))] ∧
      (used : Int) = ((s1.loc .currentUsedMemory).last + ((callsIn mid).map netBytes).sum) % (2 ^ 64 : Int) ∧
      (mn ≤ (s1.loc .currentUsedMemory).last ∧ mn ≤ used) ∧ ((s1.loc .currentUsedMemory).last ≤ mx ∧ used ≤ mx) ∧
      (s4.loc .currentUsedMemory).HadSince (s1.loc .currentUsedMemory).top mn ∧
      (s4.loc .currentUsedMemory).HadSince (s1.loc .currentUsedMemory).top mx ∧
      (∃ sp, s4.saved[s1.saved.length]? = some sp ∧ sp.got[9]? = some (s1.loc .currentUsedMemory).last) ∧
      s4.Quiescent ∧ s4.UpToDate t ∧
      mn = (s3.loc .minUsedMemory).last ∧ mx = (s3.loc .maxUsedMemory).last := by
  obtain ⟨F2, hsv, hmin2, hmax2⟩ := save_alone f1 a2 h2 i2
  have h12 : (AConc.init pr N s0).sched (pre ++ .save t :: save) = some s2 := sched_append.2 ⟨s1, h1, h2⟩
  have hcall2 : callsIn (AAct.save t :: save) = [] := callsIn_alone save a2
  have V2 := view_sched h12
  have q2 : s2.Quiescent := by
    intro u
    by_cases hu : u = t
    · subst hu; exact i2
    · rw [F2.others u hu]; exact q1 u
  have h23 : s1.sched ((.save t :: save) ++ mid) = some s3 := sched_append.2 ⟨s2, h2, h3⟩
  have hcall : callsIn ((.save t :: save) ++ mid) = callsIn mid := by rw [callsIn_append, hcall2, List.nil_append]
  have hcur : s2.loc .currentUsedMemory = s1.loc .currentUsedMemory := F2.other_locs _ (by simp) (by simp)
  -- the middle
  have hM0 : MidInv (fun c => (s2.loc c).top) s2 [t] s2 := by
    refine ⟨fun u => by rw [q2 u]; trivial, V2.views, fun c => Nat.le_refl _, ?_, fun c => ⟨t, by simp, F2.fresh c⟩, LocLater.refl rfl, rfl, rfl,
      rfl, rfl, rfl⟩
    intro u hu c
    simp only [List.mem_singleton] at hu
    subst hu
    exact (F2.fresh c).ge
  obtain ⟨⟨B, hM, _⟩, hsim⟩ := mid_sched mid [t] s2 s3 a3 hM0 h3
  obtain ⟨as', st', hns, hre⟩ := hsim []
  rw [rebase_init q2 V2.views] at hre
  have hq3 : (rebase (fun c => (s2.loc c).top) st' s3).Quiescent := fun u => q3 u
  have hl : ∀ c, ((rebase (fun c => (s2.loc c).top) st' s3).loc c).last = (s3.loc c).last := fun c => reLoc_last (hM.tops c)
  have hS : ((fun c => (s2.loc c).last) Ctr.minUsedMemory ≤ (fun c => (s2.loc c).last) .currentUsedMemory) ∧
      ((fun c => (s2.loc c).last) Ctr.currentUsedMemory ≤ (fun c => (s2.loc c).last) .maxUsedMemory) := by
    simp only [hmin2, hmax2, hcur]; exact ⟨Nat.le_refl _, Nat.le_refl _⟩
  have E1 := C26_extremes_enclose _ _ _ hS.1 hS.2 hns hre hq3
  have E2 := C26_extremes_widen _ _ _ hS.1 hS.2 hns hre
  have cs2 := curSmall_sched (h0 _) h12
  have hus : (s2.loc .currentUsedMemory).last < 2 ^ 64 := by
    have := cs2 _ (Nat.le_refl _)
    have hM : usizeMax = 2 ^ 64 - 1 := rfl
    unfold Loc.last; omega
  have E3 := C26_extremes_real _ _ (fun c => (s2.loc c).last) (by simp only [hmin2]; rw [hcur] at hus; exact hus) hus hre
  simp only [hl] at E1 E2 E3
  -- a value of the rebased used memory is one since the save point
  have had : ∀ v, ((rebase (fun c => (s2.loc c).top) st' s3).loc .currentUsedMemory).Had v →
      (s3.loc .currentUsedMemory).HadSince (s1.loc .currentUsedMemory).top v := by
    rintro v ⟨i, hi, e⟩
    have hi' : i ≤ (s3.loc .currentUsedMemory).top - (s2.loc .currentUsedMemory).top := hi
    have ht := hM.tops .currentUsedMemory
    have e' : (if i ≤ (s3.loc .currentUsedMemory).top - (s2.loc .currentUsedMemory).top
      then (s3.loc .currentUsedMemory).val (i + (s2.loc .currentUsedMemory).top) else _) = v := e
    rw [if_pos hi'] at e'
    refine ⟨i + (s2.loc .currentUsedMemory).top, ?_, ?_, e'⟩
    · rw [hcur]; omega
    · omega
  have hadBase : (s3.loc .currentUsedMemory).HadSince (s1.loc .currentUsedMemory).top (s1.loc .currentUsedMemory).last := by
    refine ⟨(s2.loc .currentUsedMemory).top, by rw [hcur], hM.tops _, ?_⟩
    rw [← hcur]
    exact (hM.later _).2 _ (Nat.le_refl _)
  -- the save point
  have hsp : s3.saved[s1.saved.length]? = some ⟨allCtrs.map fun c => (s2.loc c).last, s2.slots.length, (s2.th t).view⟩ := by
    rw [hM.saved, hsv]; simp
  have hcnt : ∀ k ∈ deltaCtrs, (s3.loc k).last = (s2.loc k).last + ((callsIn mid).map (contribution k)).sum := by
    intro k hk
    have := counters_between hk (h0 k) h1 q1 h23 q3 (by rw [hcall]; exact hroom k hk)
    rw [hcall] at this
    rw [this, F2.other_locs k (deltaCtr_ne hk).1 (deltaCtr_ne hk).2.1]
  have hzip : deltaCtrs.zip (allCtrs.map fun c => (s2.loc c).last) = deltaCtrs.map fun c => (c, (s2.loc c).last) := by
    simp [deltaCtrs, allCtrs]
  have hle : ∀ p ∈ deltaCtrs.zip (allCtrs.map fun c => (s2.loc c).last), p.2 ≤ (s3.loc p.1).last := by
    rw [hzip]
    intro p hp
    obtain ⟨k, hk, rfl⟩ := List.mem_map.1 hp
    show (s2.loc k).last ≤ (s3.loc k).last
    rw [hcnt k hk]; omega
  have hvw : ∀ c, (s2.th t).view c ≤ (s3.loc c).top := fun c => by rw [F2.fresh c]; exact hM.tops c
  obtain ⟨F4, hres⟩ := delta_alone f3 a4 hsp (by rw [hM.slots]) hle hvw h4 i4
  have cs3 := curSmall_sched (h0 _) (sched_append.2 ⟨s1, h1, h23⟩)
  have hmn3 : (s3.loc .minUsedMemory).last ≤ usizeMax := E1.1.trans (cs3 _ (Nat.le_refl _))
  have hmnHad : (s3.loc .currentUsedMemory).HadSince (s1.loc .currentUsedMemory).top (s3.loc .minUsedMemory).last := by
    rcases E3.1 with h | h
    · rw [h, hmin2]; exact hadBase
    · exact had _ h
  have hmxHad : (s3.loc .currentUsedMemory).HadSince (s1.loc .currentUsedMemory).top (s3.loc .maxUsedMemory).last := by
    rcases E3.2 with h | h
    · rw [h, hmax2]; exact hadBase
    · exact had _ h
  have val0 : ∀ c, ((rebase (fun c => (s2.loc c).top) st' s3).loc c).val 0 = (s2.loc c).last := by
    intro c
    have := reLoc_val (o := (s2.loc c).top) (l := s3.loc c) (Nat.le_refl _) (hM.tops c)
    rw [Nat.sub_self] at this
    exact this.trans ((hM.later c).2 _ (Nat.le_refl _))
  have W1 := E2.1 0 (Nat.zero_le _)
  have W2 := E2.2 0 (Nat.zero_le _)
  rw [val0, hmin2] at W1
  rw [val0, hmax2] at W2
  refine ⟨(s3.loc .currentUsedMemory).last, (s3.loc .minUsedMemory).last, (s3.loc .maxUsedMemory).last, ?_, ?_, ⟨W1, E1.1⟩, ⟨W2, E1.2⟩, ?_, ?_,
    ⟨_, by rw [F4.saved]; exact hsp, ?_⟩, ?_, F4.fresh, rfl, rfl⟩
  · rw [hres, hM.results, F2.results]
    congr 4
    unfold sinceSave
    rw [hzip, List.map_map]
    congr 1
    · apply List.map_congr_left
      intro k hk
      show (s3.loc k).last - (s2.loc k).last = _
      rw [hcnt k hk]; omega
    · rw [show Nat.min usizeMax (s3.loc .minUsedMemory).last = (s3.loc .minUsedMemory).last from Nat.min_eq_right hmn3]
  · have := used_between (h0 _) h1 q1 h23 q3
    rw [hcall] at this
    exact this
  · rw [F4.loc]; exact hmnHad
  · rw [F4.loc]; exact hmxHad
  · simp only [allCtrs, deltaCtrs, List.cons_append, List.nil_append, List.map_cons, List.map_nil]
    rw [← hcur]; rfl
  · intro u
    by_cases hu : u = t
    · subst hu; exact i4
    · rw [F4.others u hu]; exact q3 u

/-- C88. a measured pass with several threads.  Nothing is going on and thread `t` has seen all that happened (`s1`); `t` takes a save
point (`s2`); `t`, the threads it starts, those they start and so on allocate and free, interleaved in any way, and are done and joined
(`s3`); `t` asks for the statistics since the save point (`s4`).  If the counters have room for the calls of the pass, the answer is:
for each counter exactly what all the threads did between; the memory used now; a minimum and a maximum that enclose the memory used at
both ends, and that were really used at some time since the save point. -/
theorem C88_pass_statistics (pr : Profile) (N : Nat) (s0 : Stats) (h0 : ∀ c, s0 c < 2 ^ 64) {t : Nat}
    {pre save mid req : List AAct} {s1 s2 s3 s4 : AConc}
    (h1 : (AConc.init pr N s0).sched pre = some s1) (q1 : s1.Quiescent) (f1 : s1.UpToDate t)
    (h2 : s1.sched (.save t :: save) = some s2) (a2 : Alone t save) (i2 : (s2.th t).pc = .idle)
    (h3 : s2.sched mid = some s3) (a3 : StartedBy [t] mid) (q3 : s3.Quiescent) (f3 : s3.UpToDate t)
    (h4 : s3.sched (.delta t s1.saved.length :: req) = some s4) (a4 : Alone t req) (i4 : (s4.th t).pc = .idle)
    (hroom : ∀ k ∈ deltaCtrs, (s1.loc k).last + ((callsIn mid).map (contribution k)).sum < 2 ^ 64) :
    ∃ used mn mx : Nat, s4.results = s1.results ++ [(s1.saved.length,
        .stats ((deltaCtrs.map fun k => ((callsIn mid).map (contribution k)).sum) ++ [used, mn, mx]))] ∧
      (used : Int) = ((s1.loc .currentUsedMemory).last + ((callsIn mid).map netBytes).sum) % (2 ^ 64 : Int) ∧
      (mn ≤ (s1.loc .currentUsedMemory).last ∧ mn ≤ used) ∧ ((s1.loc .currentUsedMemory).last ≤ mx ∧ used ≤ mx) ∧
      (s4.loc .currentUsedMemory).HadSince (s1.loc .currentUsedMemory).top mn ∧
      (s4.loc .currentUsedMemory).HadSince (s1.loc .currentUsedMemory).top mx ∧
      (∃ sp, s4.saved[s1.saved.length]? = some sp ∧ sp.got[9]? = some (s1.loc .currentUsedMemory).last) ∧
      s4.Quiescent ∧ s4.UpToDate t := by
  obtain ⟨used, mn, mx, e1, e2, e3, e4, e5, e6, e7, e8, e9, _, _⟩ := pass_statistics pr N s0 h0 h1 q1 f1 h2 a2 i2 h3 a3 q3 f3 h4 a4 i4 hroom
  exact ⟨used, mn, mx, e1, e2, e3, e4, e5, e6, e7, e8, e9⟩

/-- C88. joining all the threads that did anything is enough for `t` to have seen all that happened -/
theorem C88_joined (pr : Profile) (N : Nat) (s0 : Stats) {t : Nat} {pre work : List AAct} {us : List Nat} {s2 s3 : AConc}
    (h2 : (AConc.init pr N s0).sched pre = some s2) (q2 : s2.Quiescent) (f2 : s2.UpToDate t)
    (a3 : StartedBy [t] work) (hus : ∀ a ∈ work, a.tid = t ∨ a.tid ∈ us) (h3 : s2.sched (work ++ us.map (.sync t)) = some s3) :
    s3.UpToDate t := by
  obtain ⟨s, hw, hj⟩ := sched_append.1 h3
  have V2 := view_sched h2
  have hM0 : MidInv (fun c => (s2.loc c).top) s2 [t] s2 := by
    refine ⟨fun u => by rw [q2 u]; trivial, V2.views, fun c => Nat.le_refl _, ?_, fun c => ⟨t, by simp, f2 c⟩, LocLater.refl rfl, rfl, rfl,
      rfl, rfl, rfl⟩
    intro u hu c
    simp only [List.mem_singleton] at hu
    subst hu
    exact (f2 c).ge
  obtain ⟨⟨B, hM, hB⟩, _⟩ := mid_sched work [t] s2 s a3 hM0 hw
  obtain ⟨j1, j2, j3⟩ := joins us s s3 hj
  have V3 := view_sched (sched_append.2 ⟨s2, h2, h3⟩)
  intro c
  obtain ⟨u, hu, e⟩ := hM.holder c
  have hge : (s.th u).view c ≤ (s3.th t).view c := by
    rcases hB u hu with h | ⟨a, ha, rfl⟩
    · simp only [List.mem_singleton] at h; subst h; exact j2 c
    · rcases hus a ha with h | h
      · rw [h]; exact j2 c
      · exact j3 _ h c
  have := V3.views t c
  rw [j1] at this ⊢
  omega

/-! ## a concrete pass -/

/-- a thread that does nothing stays as it is -/
theorem untouched_step {s s' : AConc} {t i ok u} (h : s.step t i ok = some s') (hu : u ≠ t) : s'.th u = s.th u := by
  by_cases hd : isDelta (s.th t).pc
  · obtain ⟨s1, pc, rfl, D⟩ := delta_step hd h
    rw [goto_other hu, D.others u hu]
  have hL : ∀ {c i} {k : Nat → APc}, s.load t c i k = some s' → s'.th u = s.th u := by
    intro c i k h; obtain ⟨rfl, _⟩ := load_some h; exact th_load hu
  unfold AConc.step at h
  split at h
  · simp at h
  · simp at h; subst h; exact goto_other hu
  · simp at h; subst h; exact th_write hu
  · exact hL h
  · exact hL h
  · split at h
    · split at h
      · simp at h; subst h; exact th_write hu
      · simp at h
    · exact hL h
  · exact hL h
  · split at h
    · split at h
      · simp at h; subst h; exact th_write hu
      · simp at h
    · exact hL h
  · exact hL h
  · exact hL h
  · simp at h; subst h; exact goto_other hu
  · simp at h; subst h; exact goto_other hu
  · exact hL h
  · simp at h; subst h; exact th_write hu
  · exact hL h
  · simp at h; subst h; exact th_write hu
  · simp at h; subst h; exact goto_other hu
  · exact hL h
  all_goals exact absurd (by rename_i hpc; rw [hpc]; trivial) hd

theorem untouched {u : Nat} : ∀ (as : List AAct) (s s' : AConc), (∀ a ∈ as, a.tid ≠ u) → s.sched as = some s' → s'.th u = s.th u := by
  intro as
  induction as with
  | nil => intro s s' _ h; simp [AConc.sched] at h; subst h; rfl
  | cons a as ih =>
    intro s s' hn h
    obtain ⟨s1, h1, h2⟩ := sched_cons_some h
    rw [ih s1 s' (fun b hb => hn b (by simp [hb])) h2]
    have hu : u ≠ a.tid := fun e => hn a (by simp) e.symm
    cases a with
    | call t c =>
      simp only [AConc.act] at h1
      split at h1
      · simp at h1; subst h1; exact goto_other hu
      · simp at h1
    | save t =>
      simp only [AConc.act] at h1
      split at h1
      · simp at h1; subst h1; exact goto_other hu
      · simp at h1
    | delta t k =>
      simp only [AConc.act] at h1
      split at h1
      · split at h1
        · simp at h1
        · simp at h1; subst h1; exact (goto_other hu).trans (learn_other hu)
      · simp at h1
    | sync t v =>
      simp only [AConc.act] at h1
      split at h1
      · simp at h1; subst h1; exact learn_other hu
      · simp at h1
    | step t i ok => exact untouched_step h1 hu

/-- thread 1 alone takes a save point -/
def exSave : List AAct :=
  ([0, 0, 0, 0, 0, 0, 0, 0] ++ [0, 0, 0, 0, 0, 0, 0, 0, 0, 0, 1, 1] ++ [0]).map fun i => .step 1 i true

/-- thread 1 starts thread 2; they allocate 50 and 100 bytes at the same time, thread 2 sees stale values and loses a
compare-exchange; thread 2 frees its block; thread 1 joins it -/
def exWork : List AAct :=
  [.sync 2 1, .call 2 (.alloc 100 true), .call 1 (.alloc 50 true)] ++ rmwSteps 2 3 ++ rmwSteps 1 3 ++
  [.step 1 2 true, .step 1 1 true] ++ [.step 2 1 true, .step 2 1 true, .step 2 1 true] ++ [.step 1 1 true, .step 1 0 true, .step 2 2 false] ++
  [.call 2 (.dealloc 100)] ++ rmwSteps 2 3 ++ [.step 2 3 true, .step 2 1 true, .step 2 2 true]

/-- thread 1 alone asks for the statistics -/
def exReq : List AAct :=
  ([0, 1, 2] ++ [2, 1, 0, 0, 2, 1, 0, 0, 0] ++ [0, 3]).map fun i => .step 1 i true

theorem example_upToDate {s : AConc} {t : Nat} (h : ∀ c ∈ allCtrs, (s.th t).view c = (s.loc c).top) : s.UpToDate t :=
  fun c => h c (by cases c <;> decide)

theorem sched_rest {s s' s'' : AConc} {as bs} (h : s.sched as = some s') (h' : s.sched (as ++ bs) = some s'') : s'.sched bs = some s'' := by
  obtain ⟨x, h1, h2⟩ := sched_append.1 h'
  rw [h] at h1; injection h1 with h1; subst h1; exact h2

/-- the hypotheses of `C88_pass_statistics` and `C88_joined` are met by this pass, and this is what it gives -/
theorem example_pass : ∃ s2 s3 s4, (AConc.init .checked 1024 (fun _ => 0)).sched (.save 1 :: exSave) = some s2 ∧
    s2.sched (exWork ++ [2].map (.sync 1)) = some s3 ∧ s3.sched (.delta 1 0 :: exReq) = some s4 ∧
    Alone 1 exSave ∧ StartedBy [1] exWork ∧ StartedBy [1] (exWork ++ [2].map (.sync 1)) ∧ Alone 1 exReq ∧
    s2.Quiescent ∧ s2.UpToDate 1 ∧ s3.Quiescent ∧ s3.UpToDate 1 ∧ (s4.th 1).pc = .idle ∧ (∀ a ∈ exWork, a.tid = 1 ∨ a.tid ∈ [2]) ∧
    s4.results = [(0, .stats [2, 1, 0, 0, 150, 100, 0, 0, 0, 50, 0, 150])] := by
  have e4 : ((AConc.init .checked 1024 (fun _ => 0)).sched (((.save 1 :: exSave) ++ (exWork ++ [2].map (.sync 1))) ++
      (.delta 1 0 :: exReq))).map (fun s => ((s.th 1).pc, s.results)) =
      some (.idle, [(0, .stats [2, 1, 0, 0, 150, 100, 0, 0, 0, 50, 0, 150])]) := by decide +kernel
  have e3 : ((AConc.init .checked 1024 (fun _ => 0)).sched ((.save 1 :: exSave) ++ (exWork ++ [2].map (.sync 1)))).map
      (fun s => ((s.th 1).pc, (s.th 2).pc, allCtrs.map fun c => decide ((s.th 1).view c = (s.loc c).top))) =
      some (.idle, .idle, allCtrs.map fun _ => true) := by decide +kernel
  have e2 : ((AConc.init .checked 1024 (fun _ => 0)).sched (.save 1 :: exSave)).map
      (fun s => ((s.th 1).pc, allCtrs.map fun c => decide ((s.th 1).view c = (s.loc c).top))) =
      some (.idle, allCtrs.map fun _ => true) := by decide +kernel
  obtain ⟨s4, h4, f4⟩ := Option.map_eq_some_iff.1 e4
  obtain ⟨s3, h3, f3⟩ := Option.map_eq_some_iff.1 e3
  obtain ⟨s2, h2, f2⟩ := Option.map_eq_some_iff.1 e2
  simp only [Prod.mk.injEq] at f4 f3 f2
  have a1 : ∀ as : List Nat, Alone 1 (as.map fun i => .step 1 i true) := by
    intro as a ha; obtain ⟨i, _, rfl⟩ := List.mem_map.1 ha; exact ⟨i, true, rfl⟩
  have up : ∀ s : AConc, allCtrs.map (fun c => decide ((s.th 1).view c = (s.loc c).top)) = allCtrs.map (fun _ => true) → s.UpToDate 1 := by
    intro s h c
    have := List.map_inj_left.1 h c (by cases c <;> decide)
    simpa using this
  refine ⟨s2, s3, s4, h2, sched_rest h2 h3, sched_rest h3 h4, a1 _, by decide, by decide, a1 _, ?_, up _ f2.2, ?_, up _ f3.2.2, f4.1,
    by decide, f4.2⟩
  · intro u
    by_cases h1 : u = 1
    · subst h1; exact f2.1
    · rw [untouched (u := u) _ _ _ (fun a ha e =>
        h1 (e.symm.trans ((show ∀ a ∈ (.save 1 :: exSave), AAct.tid a = 1 by decide) a ha))) h2]
      rfl
  · intro u
    by_cases h1 : u = 1
    · subst h1; exact f3.1
    · by_cases h2 : u = 2
      · subst h2; exact f3.2.1
      · rw [untouched (u := u) _ _ _ (fun a ha e => ((show ∀ a ∈ (.save 1 :: exSave) ++ (exWork ++ [2].map (.sync 1)),
          AAct.tid a = 1 ∨ AAct.tid a = 2 by decide) a ha).elim (fun h => h1 (e.symm.trans h)) (fun h => h2 (e.symm.trans h))) h3]
        rfl

end BigO
