import Verif.Proofs.AllocConc

/-!
# Properties of the metrics allocator under concurrency (C26, C27)

Any number of threads, any interleaving of their atomic accesses, stale reads and spurious compare-exchange failures
included (`Verif.Model.AllocConc`).  `(AConc.init pr N s0).sched acts = some s`: starting with the statistics `s0` and no
thread inside the allocator, the schedule `acts` is possible and leads to `s`.
-/
namespace BigO

theorem callEff_contribution {k : Ctr} (hk : k ∈ deltaCtrs) (c : HeapCall) : callEff k c = (contribution k c : Int) := by
  cases c with
  | alloc n ok => simp [deltaCtrs] at hk; rcases hk with rfl | rfl | rfl | rfl | rfl | rfl | rfl | rfl | rfl <;>
      simp [callEff, rmws, Rmw.eff, contribution]
  | dealloc n => simp [deltaCtrs] at hk; rcases hk with rfl | rfl | rfl | rfl | rfl | rfl | rfl | rfl | rfl <;>
      simp [callEff, rmws, Rmw.eff, contribution]
  | allocZeroed n ok => simp [deltaCtrs] at hk; rcases hk with rfl | rfl | rfl | rfl | rfl | rfl | rfl | rfl | rfl <;>
      simp [callEff, rmws, Rmw.eff, contribution]
  | realloc a b ok =>
    simp [deltaCtrs] at hk
    simp only [callEff, rmws]
    rcases hk with rfl | rfl | rfl | rfl | rfl | rfl | rfl | rfl | rfl <;> split <;> (try split) <;>
      simp [Rmw.eff, contribution]

theorem callEff_net (c : HeapCall) : callEff .currentUsedMemory c = netBytes c := by
  cases c with
  | alloc n ok => simp [callEff, rmws, Rmw.eff, netBytes]
  | dealloc n => simp [callEff, rmws, Rmw.eff, netBytes]
  | allocZeroed n ok => simp [callEff, rmws, Rmw.eff, netBytes]
  | realloc a b ok =>
    simp only [callEff, rmws, netBytes]
    split
    · simp [Rmw.eff]; omega
    · split
      · simp [Rmw.eff]; omega
      · simp [Rmw.eff]; omega

/-! ## C26 -/

/-- C26. when all threads are done, each of the nine counters has grown by exactly the calls made by all threads (modulo
the width of `usize`), whatever the interleaving; save points may run meanwhile -/
theorem C26_counters_exact (pr : Profile) (N : Nat) (s0 : Stats) {k : Ctr} (hk : k ∈ deltaCtrs) (h0 : s0 k < 2 ^ 64) {acts : List AAct} {s : AConc}
    (h : (AConc.init pr N s0).sched acts = some s) (hq : s.Quiescent) :
    (s.loc k).last = (s0 k + ((callsIn acts).map (contribution k)).sum) % 2 ^ 64 := by
  have h1 : k ≠ .minUsedMemory := by rintro rfl; simp [deltaCtrs] at hk
  have h2 : k ≠ .maxUsedMemory := by rintro rfl; simp [deltaCtrs] at hk
  have hs := sums_sched h1 h2 h0 h hq
  have hsum : ((callsIn acts).map (callEff k)).sum = (((callsIn acts).map (contribution k)).sum : Int) := by
    generalize callsIn acts = cs
    induction cs with
    | nil => rfl
    | cons c cs ih => simp only [List.map_cons, List.sum_cons, ih, callEff_contribution hk]; push_cast; rfl
  rw [hsum] at hs
  omega

/-- C26. ... and the used memory by exactly the bytes allocated less the bytes freed -/
theorem C26_used_exact (pr : Profile) (N : Nat) (s0 : Stats) (h0 : s0 .currentUsedMemory < 2 ^ 64) {acts : List AAct} {s : AConc}
    (h : (AConc.init pr N s0).sched acts = some s) (hq : s.Quiescent) :
    ((s.loc .currentUsedMemory).last : Int) =
      ((s0 .currentUsedMemory : Int) + ((callsIn acts).map netBytes).sum) % (2 ^ 64 : Int) := by
  have hs := sums_sched (k := .currentUsedMemory) (by simp) (by simp) h0 h hq
  rw [hs]
  congr 3
  apply List.map_congr_left
  intro c _
  exact callEff_net c

/-- C26. when all threads are done and no save point was taken meanwhile, the extremes enclose the used memory: reads may
be stale and compare-exchanges may fail spuriously any number of times -/
theorem C26_extremes_enclose (pr : Profile) (N : Nat) (s0 : Stats) (hmin : s0 .minUsedMemory ≤ s0 .currentUsedMemory)
    (hmax : s0 .currentUsedMemory ≤ s0 .maxUsedMemory) {acts : List AAct} (hns : NoSave acts) {s : AConc}
    (h : (AConc.init pr N s0).sched acts = some s) (hq : s.Quiescent) :
    (s.loc .minUsedMemory).last ≤ (s.loc .currentUsedMemory).last ∧
    (s.loc .currentUsedMemory).last ≤ (s.loc .maxUsedMemory).last :=
  quiescent_ordered (ord_sched acts _ s hns (allWf_init pr N s0) (ordInv_init hmin hmax) h) hq

/-- C26. at every moment, finished or not, save points or not: the minimum and the maximum are values the used memory
really had (or the extremes it started with), and so is every slot and every save point's reading -/
theorem C26_extremes_real (pr : Profile) (N : Nat) (s0 : Stats) (h0 : s0 .minUsedMemory < 2 ^ 64)
    (h1 : s0 .currentUsedMemory < 2 ^ 64) {acts : List AAct} {s : AConc} (h : (AConc.init pr N s0).sched acts = some s) :
    ((s.loc .minUsedMemory).last = s0 .minUsedMemory ∨ (s.loc .currentUsedMemory).Had (s.loc .minUsedMemory).last) ∧
    ((s.loc .maxUsedMemory).last = s0 .maxUsedMemory ∨ (s.loc .currentUsedMemory).Had (s.loc .maxUsedMemory).last) :=
  ⟨(real_sched h0 h1 h).mn _ (Nat.le_refl _), (real_sched h0 h1 h).mx _ (Nat.le_refl _)⟩

/-- C26. the extremes only ever widen while no save point is taken -/
theorem C26_extremes_widen (pr : Profile) (N : Nat) (s0 : Stats) (hmin : s0 .minUsedMemory ≤ s0 .currentUsedMemory)
    (hmax : s0 .currentUsedMemory ≤ s0 .maxUsedMemory) {acts : List AAct} (hns : NoSave acts) {s : AConc}
    (h : (AConc.init pr N s0).sched acts = some s) :
    (∀ i, i ≤ (s.loc .minUsedMemory).top → (s.loc .minUsedMemory).last ≤ (s.loc .minUsedMemory).val i) ∧
    (∀ i, i ≤ (s.loc .maxUsedMemory).top → (s.loc .maxUsedMemory).val i ≤ (s.loc .maxUsedMemory).last) :=
  have hi := ord_sched acts _ s hns (allWf_init pr N s0) (ordInv_init hmin hmax) h
  ⟨hi.mnLow, hi.mxHigh⟩

/-- thread `t` makes a whole call alone, always reading the newest values: `n` read-modify-writes, then the load of the used
memory (position `c`) -/
def rmwSteps (t n : Nat) : List AAct := List.replicate n (.step t 0 true)

/-- the state after a possible schedule has these used memory, minimum and maximum -/
def ends (o : Option AConc) (u mn mx : Nat) : Prop :=
  match o with
  | none => False
  | some s => (s.loc .currentUsedMemory).last = u ∧ (s.loc .minUsedMemory).last = mn ∧ (s.loc .maxUsedMemory).last = mx

instance (o u mn mx) : Decidable (ends o u mn mx) := by unfold ends; cases o <;> infer_instance

/-- threads `1` and `2` allocate 100 and 50 at the same time; thread 1 loads the used memory in between -/
def exampleSched : List AAct :=
  [.call 1 (.alloc 100 true), .call 2 (.alloc 50 true)] ++ rmwSteps 1 3 ++ [.step 1 1 true] ++ rmwSteps 2 3 ++
  [.step 2 2 true, .step 2 0 true, .step 1 0 true, .step 2 0 true, .step 1 0 true, .step 2 0 false, .step 2 0 true,
   .step 1 0 false, .step 1 1 false]

example : NoSave exampleSched ∧ ends ((AConc.init .checked 1024 (fun _ => 0)).sched exampleSched) 150 0 150 := by
  refine ⟨?_, by decide⟩
  intro t ht
  simp [exampleSched, rmwSteps] at ht

/-! ## C27: false of the code -/

/-- every thread with one of these numbers is idle -/
def idleUpTo (o : Option AConc) (n : Nat) : Prop :=
  match o with
  | none => False
  | some s => ∀ t, t < n → (s.th t).pc = .idle

instance (o n) : Decidable (idleUpTo o n) := by unfold idleUpTo; cases o <;> infer_instance

/-- thread 1 holds a block of 100; thread 2 allocates 50, so that 150 bytes are used; thread 1 frees its block before
thread 2 looks at the used memory -/
def missedPeak : List AAct :=
  [.call 1 (.alloc 100 true)] ++ rmwSteps 1 3 ++ [.step 1 1 true, .step 1 0 true, .step 1 0 true, .step 1 0 true] ++
  [.call 2 (.alloc 50 true)] ++ rmwSteps 2 3 ++
  [.call 1 (.dealloc 100)] ++ rmwSteps 1 3 ++ [.step 1 3 true, .step 1 0 true, .step 1 1 true] ++
  [.step 2 3 true, .step 2 0 true, .step 2 1 true]

/-- C27. (the property fails) a peak can be missed: 150 bytes were used at once, all threads are done, the recorded maximum
is 100.  Every read in this schedule returns the newest value. -/
theorem C27_peak_missed : ∃ s, (AConc.init .checked 1024 (fun _ => 0)).sched missedPeak = some s ∧
    (s.loc .currentUsedMemory).Had 150 ∧ (s.loc .maxUsedMemory).last = 100 ∧ (∀ t, t < 3 → (s.th t).pc = .idle) := by
  refine ⟨_, rfl, ⟨2, ?_⟩, ?_, ?_⟩ <;> decide

/-- thread 1 takes a save point (0 bytes used); between its load of the used memory and its store of the maximum, thread 2
allocates 50 bytes and records them; then thread 1 asks for the statistics since the save point -/
def overwrittenMax : List AAct :=
  [.save 1, .step 1 0 true, .step 1 0 true, .step 1 0 true, .step 1 0 true, .step 1 0 true, .step 1 0 true, .step 1 0 true] ++
  [.call 2 (.alloc 50 true)] ++ rmwSteps 2 3 ++ [.step 2 1 true, .step 2 1 true, .step 2 0 true, .step 2 0 true] ++
  [.step 1 0 true] ++
  [.step 1 1 true, .step 1 0 true, .step 1 0 true, .step 1 0 true, .step 1 1 true, .step 1 0 true, .step 1 0 true, .step 1 0 true,
   .step 1 0 true, .step 1 1 true, .step 1 1 true, .step 1 2 true, .step 1 0 true] ++
  [.delta 1 0, .step 1 0 true, .step 1 1 true, .step 1 2 true] ++
  [.step 1 1 true, .step 1 0 true, .step 1 0 true, .step 1 0 true, .step 1 1 true, .step 1 0 true, .step 1 0 true, .step 1 0 true,
   .step 1 0 true, .step 1 0 true, .step 1 1 true]

/-- what is seen of a state: the used memory and the maximum, the used memory in each save point, the results of `delta_statistics` and
the threads 0, 1 and 2 -/
def seenOf (o : Option AConc) : Option (Nat × Nat × List (Option Nat) × List (Nat × DRes) × List APc) :=
  o.map fun s => ((s.loc .currentUsedMemory).last, (s.loc .maxUsedMemory).last, s.saved.map fun sp => sp.got[9]?, s.results,
    [(s.th 0).pc, (s.th 1).pc, (s.th 2).pc])

/-- C27. (the property fails) a save point taken while another thread allocates can lose the maximum for good: all threads
are done, 50 bytes are used, the maximum says 0, and the save point itself recorded 50 bytes used; the statistics since the save point
then say that 50 bytes are used and never more than 0 were.  Every read returns the newest value. -/
theorem C27_max_below_used : seenOf ((AConc.init .checked 1024 (fun _ => 0)).sched overwrittenMax) =
    some (50, 0, [some 50], [(0, .stats [0, 0, 0, 0, 0, 0, 0, 0, 0, 50, 0, 0])], [.idle, .idle, .idle]) := rfl

/-- C27. (consequence) with overflow checks on, subtracting the used memory of that save point from that maximum, as the
analysis and the report do, panics -/
theorem C27_subtraction_panics : usizeSub .checked 0 50 = .error .subtractOverflow := rfl

/-- C27. (what does hold) whatever the interleaving of save points, calls and requests for statistics, nothing is invented: every slot a
save point put in the ring, the used memory of every save point, and the used memory and the extremes of every result are values the
used memory really had (or the extremes at the start) -/
theorem C27_nothing_invented_partial (pr : Profile) (N : Nat) (s0 : Stats) (h0 : s0 .minUsedMemory < 2 ^ 64)
    (h1 : s0 .currentUsedMemory < 2 ^ 64) {acts : List AAct} {s : AConc} (h : (AConc.init pr N s0).sched acts = some s) :
    (∀ x ∈ s.slots,
      (x.min = s0 .minUsedMemory ∨ (s.loc .currentUsedMemory).Had x.min) ∧
      (x.max = s0 .maxUsedMemory ∨ (s.loc .currentUsedMemory).Had x.max)) ∧
    (∀ sp ∈ s.saved, ∃ u, sp.got[9]? = some u ∧ (s.loc .currentUsedMemory).Had u) ∧
    (∀ k l, (k, DRes.stats l) ∈ s.results → ∃ counters u mn mx, l = counters ++ [u, mn, mx] ∧ (s.loc .currentUsedMemory).Had u ∧
      (mn = s0 .minUsedMemory ∨ (s.loc .currentUsedMemory).Had mn) ∧ (mx = s0 .maxUsedMemory ∨ (s.loc .currentUsedMemory).Had mx)) := by
  have hr := real_sched h0 h1 h
  refine ⟨hr.slots, ?_, hr.results⟩
  intro sp hsp
  have hf := hr.saved sp hsp
  have hl := hf.length_eq
  have h9 : 9 < sp.got.length := by rw [← hl]; decide
  refine ⟨sp.got[9], by rw [List.getElem?_eq_getElem h9], ?_⟩
  have := List.Forall₂.get hf (i := 9) (by decide) h9
  exact this

/-- C27. (what does hold) save points disturb no counter: when all threads are done the nine counters are exact, save points
or not -/
theorem C27_counters_undisturbed_partial (pr : Profile) (N : Nat) (s0 : Stats) {k : Ctr} (hk : k ∈ deltaCtrs) (h0 : s0 k < 2 ^ 64)
    {acts : List AAct} {s : AConc} (h : (AConc.init pr N s0).sched acts = some s) (hq : s.Quiescent) :
    (s.loc k).last = (s0 k + ((callsIn acts).map (contribution k)).sum) % 2 ^ 64 := C26_counters_exact pr N s0 hk h0 h hq

end BigO
