import Verif.Model.PassConc
import Verif.Spec.PassThreadsSpec
import Verif.Props.AllocPass
import Verif.Props.Shipped

/-!
# C91: space verdicts of passes with several threads

`reach`: the first pass begins after any execution whatsoever of any number of threads, ended.
-/
namespace BigO

/-- C91. what a pass of several threads reports: the memory in use when it began, when it ended, and two amounts really in use at some
time of the pass that enclose these -/
theorem C91_pass_reports (pr : Profile) (N : Nat) (s0 : Stats) (h0 : ∀ c, s0 c < 2 ^ 64) {t : Nat} {pre : List AAct} {s1 s4 : AConc}
    {calls : List HeapCall} (reach : (AConc.init pr N s0).sched pre = some s1) (pass : MeasuredPass t s1 s4 calls) :
    ∃ m, s4.passSpace s1.saved.length = some m ∧ m.usedBefore = s1.used ∧ m.usedAfter = s4.used ∧
      (m.usedAfter : Int) = (s1.used + (calls.map netBytes).sum) % (2 ^ 64 : Int) ∧
      m.minUsed ≤ m.usedBefore ∧ m.minUsed ≤ m.usedAfter ∧ m.usedBefore ≤ m.maxUsed ∧ m.usedAfter ≤ m.maxUsed ∧
      UsedBetween s1 s4 m.minUsed ∧ UsedBetween s1 s4 m.maxUsed ∧ s4.Quiescent ∧ s4.UpToDate t ∧
      ∃ post, (AConc.init pr N s0).sched (pre ++ post) = some s4 := by
  obtain ⟨q1, f1, ⟨save, mid, req, s2, s3, h2, a2, i2, h3, a3, hc, q3, f3, h4, a4, i4⟩, room⟩ := pass
  subst hc
  obtain ⟨used, mn, mx, hres, hu, hmn, hmx, had1, had2, ⟨sp, hsp, hg⟩, q4, f4⟩ :=
    C88_pass_statistics pr N s0 h0 reach q1 f1 h2 a2 i2 h3 a3 q3 f3 h4 a4 i4 room
  have hg9 : sp.got.getD 9 0 = (s1.loc .currentUsedMemory).last := by rw [List.getD, hg]; rfl
  have h14 : s1.sched ((.save t :: save) ++ (mid ++ (.delta t s1.saved.length :: req))) = some s4 :=
    sched_append.2 ⟨s2, h2, sched_append.2 ⟨s3, h3, h4⟩⟩
  have hcalls : callsIn ((.save t :: save) ++ (mid ++ (.delta t s1.saved.length :: req))) = callsIn mid := by
    rw [callsIn_append, callsIn_append, show callsIn (.save t :: save) = [] from callsIn_alone save a2,
      show callsIn (.delta t s1.saved.length :: req) = [] from callsIn_alone req a4, List.nil_append, List.append_nil]
  have hu4 := used_between (h0 _) reach q1 h14 q4
  rw [hcalls] at hu4
  have hused : used = s4.used := by
    have : (used : Int) = (s4.used : Int) := by rw [hu]; exact hu4.symm
    exact_mod_cast this
  refine ⟨⟨(s1.loc .currentUsedMemory).last, used, mx, mn⟩, ?_, rfl, hused, hu, hmn.1, hmn.2, hmx.1, hmx.2, had1, had2, q4, f4, _,
    sched_append.2 ⟨s1, reach, h14⟩⟩
  unfold AConc.passSpace
  rw [hres, List.getLast?_append, hsp]
  simp only [List.getLast?_singleton, Option.some_or, spaceOfLists, hg9]
  simp [deltaCtrs]

/-- C91. from heap calls of several threads to the space verdict (exact arithmetic): two passes in one process, each of any number of
threads, with anything in between.  No analysis panics, and they accept exactly if `peak1` and `peak2` above the memory in use when
each pass began meet the limit, where `peak1` and `peak2` were really in use at some time of the passes, and are at least what was
in use at their ends.  (If the first pass used memory at all.) -/
theorem C91_space_verdict (pr : Profile) (N : Nat) (s0 : Stats) (h0 : ∀ c, s0 c < 2 ^ 64) (tol : ℝ) (ht : 0 < tol) (ht1 : tol < 1)
    {t : Nat} {pre mid : List AAct} {s1 s2 s3 s4 : AConc} {calls1 calls2 : List HeapCall}
    (reach : (AConc.init pr N s0).sched pre = some s1) (pass1 : MeasuredPass t s1 s2 calls1)
    (between : s2.sched mid = some s3) (pass2 : MeasuredPass t s3 s4 calls2) (limit : Complexity) :
    ∃ m1 m2 peak1 peak2, s2.passSpace s1.saved.length = some m1 ∧ s4.passSpace s3.saved.length = some m2 ∧
      UsedBetween s1 s2 peak1 ∧ s1.used ≤ peak1 ∧ s2.used ≤ peak1 ∧ UsedBetween s3 s4 peak2 ∧ s3.used ≤ peak2 ∧ s4.used ≤ peak2 ∧
      (s1.used < peak1 →
        (∀ n1 n2 : ℕ, 3 ≤ n1 → n1 ≤ n2 → ∃ v, analyseSpace (exactEnv tol) pr ⟨n1, n2⟩ ⟨m1, m2⟩ = .ok v ∧
          (v.asU32 ≤ limit.asU32 ↔ MeetsLimit tol n1 n2 (peak1 - s1.used) (peak2 - s3.used) limit)) ∧
        (∀ a b rep : ℕ, 3 ≤ a → 3 ≤ b → ∃ v, analyseSpaceConstantSet (exactEnv tol) pr ⟨a, b, rep⟩ ⟨m1, m2⟩ = .ok v ∧
          (v.asU32 ≤ limit.asU32 ↔ MeetsLimit tol (min a b : ℕ) (max a b : ℕ) (peak1 - s1.used) (peak2 - s3.used) limit)) ∧
        (∀ n : ℕ, 2 ≤ n → ∃ v, analyseSpaceSetResizing (exactEnv tol) pr ⟨n⟩ ⟨m1, m2⟩ = .ok v ∧
          (v.asU32 ≤ limit.asU32 ↔ MeetsResizingLimit tol n (peak1 - s1.used) (peak2 - s3.used) limit))) := by
  obtain ⟨m1, e1, b1, c1, -, -, -, x1, y1, -, z1, q2, f2, post, r2⟩ := C91_pass_reports pr N s0 h0 reach pass1
  obtain ⟨m2, e2, b2, c2, -, -, -, x2, y2, -, z2, -⟩ := C91_pass_reports pr N s0 h0 (sched_append.2 ⟨s2, r2, between⟩) pass2
  refine ⟨m1, m2, m1.maxUsed, m2.maxUsed, e1, e2, z1, by omega, by omega, z2, by omega, by omega, ?_⟩
  intro hpos
  have key := C82_space tol ht ht1 pr m1 m2 (by omega) (by omega) limit
  have u1 : ((bytesUsed m1 : ℕ) : ℝ) = (m1.maxUsed : ℝ) - s1.used := by
    unfold bytesUsed; rw [b1, Nat.cast_sub hpos.le]
  have u2 : ((bytesUsed m2 : ℕ) : ℝ) = (m2.maxUsed : ℝ) - s3.used := by
    unfold bytesUsed; rw [b2, Nat.cast_sub (by omega)]
  rw [u1, u2] at key
  exact key

/-- C91 (no panic): no space analysis of two such passes panics, in any arithmetic, for any sizes, whether or not the first pass used
memory. -/
theorem C91_no_panic (pr : Profile) (N : Nat) (s0 : Stats) (h0 : ∀ c, s0 c < 2 ^ 64) (E : FloatEnv)
    {t : Nat} {pre mid : List AAct} {s1 s2 s3 s4 : AConc} {calls1 calls2 : List HeapCall}
    (reach : (AConc.init pr N s0).sched pre = some s1) (pass1 : MeasuredPass t s1 s2 calls1)
    (between : s2.sched mid = some s3) (pass2 : MeasuredPass t s3 s4 calls2) :
    ∃ m1 m2, s2.passSpace s1.saved.length = some m1 ∧ s4.passSpace s3.saved.length = some m2 ∧
      (∀ i, ∃ v, analyseSpace E pr i ⟨m1, m2⟩ = .ok v) ∧ (∀ i, ∃ v, analyseSpaceConstantSet E pr i ⟨m1, m2⟩ = .ok v) ∧
      (∀ i, ∃ v, analyseSpaceSetResizing E pr i ⟨m1, m2⟩ = .ok v) := by
  obtain ⟨m1, e1, -, -, -, -, -, x1, -, -, -, -, -, post, r2⟩ := C91_pass_reports pr N s0 h0 reach pass1
  obtain ⟨m2, e2, -, -, -, -, -, x2, -⟩ := C91_pass_reports pr N s0 h0 (sched_append.2 ⟨s2, r2, between⟩) pass2
  refine ⟨m1, m2, e1, e2, fun i => ?_, fun i => ?_, fun i => ?_⟩ <;>
  · simp only [analyseSpace, analyseSpaceConstantSet, analyseSpaceSetResizing, space_sub pr x1, space_sub pr x2, bind, Except.bind,
      pure, Except.pure]
    exact ⟨_, rfl⟩

/-- C91 (shipped arithmetic): as `C91_space_verdict` with the shipped tolerances and binary64 arithmetic, up to one part in 2^40 of the
second peak. -/
theorem C91_space_verdict_shipped (pr : Profile) (N : Nat) (s0 : Stats) (h0 : ∀ c, s0 c < 2 ^ 64) (log2 : F → F) (powi : F → ℕ → F)
    (powf : F → F → F) (H : AccurateLibrary log2 powi) (tol : ℝ) (ht : tol = 1 / 10 ∨ tol = 1 / 4)
    {t : Nat} {pre mid : List AAct} {s1 s2 s3 s4 : AConc} {calls1 calls2 : List HeapCall}
    (reach : (AConc.init pr N s0).sched pre = some s1) (pass1 : MeasuredPass t s1 s2 calls1)
    (between : s2.sched mid = some s3) (pass2 : MeasuredPass t s3 s4 calls2) (limit : Complexity) :
    let E := shippedEnv log2 powi powf tol
    ∃ m1 m2 peak1 peak2, s2.passSpace s1.saved.length = some m1 ∧ s4.passSpace s3.saved.length = some m2 ∧
      UsedBetween s1 s2 peak1 ∧ s1.used ≤ peak1 ∧ s2.used ≤ peak1 ∧ UsedBetween s3 s4 peak2 ∧ s3.used ≤ peak2 ∧ s4.used ≤ peak2 ∧
      (s1.used < peak1 →
        (∀ n1 n2 : ℕ, 3 ≤ n1 → n1 ≤ n2 → n2 ≤ 2 ^ 32 → Covered powf n1 n2 limit →
          ∃ v, analyseSpace E pr ⟨n1, n2⟩ ⟨m1, m2⟩ = .ok v ∧
            AcceptsUpTo (MeetsLimit tol n1 n2 (peak1 - s1.used)) (peak2 - s3.used) v limit) ∧
        (∀ a b rep : ℕ, 3 ≤ a → 3 ≤ b → a ≤ 2 ^ 32 → b ≤ 2 ^ 32 → Covered powf (min a b) (max a b) limit →
          ∃ v, analyseSpaceConstantSet E pr ⟨a, b, rep⟩ ⟨m1, m2⟩ = .ok v ∧
            AcceptsUpTo (MeetsLimit tol (min a b : ℕ) (max a b : ℕ) (peak1 - s1.used)) (peak2 - s3.used) v limit) ∧
        (∀ n : ℕ, 2 ≤ n → n ≤ 2 ^ 32 → ∃ v, analyseSpaceSetResizing E pr ⟨n⟩ ⟨m1, m2⟩ = .ok v ∧
          AcceptsUpTo (MeetsResizingLimit tol n (peak1 - s1.used)) (peak2 - s3.used) v limit)) := by
  intro E
  obtain ⟨m1, e1, b1, c1, -, -, -, x1, y1, -, z1, q2, f2, post, r2⟩ := C91_pass_reports pr N s0 h0 reach pass1
  obtain ⟨m2, e2, b2, c2, -, -, -, x2, y2, -, z2, -, -, post4, r4⟩ := C91_pass_reports pr N s0 h0 (sched_append.2 ⟨s2, r2, between⟩) pass2
  refine ⟨m1, m2, m1.maxUsed, m2.maxUsed, e1, e2, z1, by omega, by omega, z2, by omega, by omega, ?_⟩
  intro hpos
  have k1 : m1.maxUsed ≤ usizeMax := by
    obtain ⟨i, -, hi, hv⟩ := z1
    rw [← hv]; exact curSmall_sched (h0 _) r2 i hi
  have k2 : m2.maxUsed ≤ usizeMax := by
    obtain ⟨i, -, hi, hv⟩ := z2
    rw [← hv]; exact curSmall_sched (h0 _) r4 i hi
  have key := C83_space log2 powi powf H tol ht pr m1 m2 (by omega) (by omega) k1 k2 limit
  have u1 : ((bytesUsed m1 : ℕ) : ℝ) = (m1.maxUsed : ℝ) - s1.used := by
    unfold bytesUsed; rw [b1, Nat.cast_sub hpos.le]
  have u2 : ((bytesUsed m2 : ℕ) : ℝ) = (m2.maxUsed : ℝ) - s3.used := by
    unfold bytesUsed; rw [b2, Nat.cast_sub (by omega)]
  rw [u1, u2] at key
  exact key

/-- a second pass after that of `example_pass`: thread 1 allocates 20 bytes -/
def exSave2 : List AAct :=
  ([1, 2, 0, 0, 3, 0, 3, 0] ++ [2, 1, 0, 0, 2, 1, 0, 0, 0, 3, 2, 3] ++ [0]).map fun i => .step 1 i true
def exWork2 : List AAct := .call 1 (.alloc 20 true) :: rmwSteps 1 3 ++ [.step 1 4 true, .step 1 2 true, .step 1 3 true, .step 1 0 true]
def exReq2 : List AAct := ([0, 2, 4] ++ [3, 1, 0, 0, 3, 1, 0, 0, 0] ++ [0, 4]).map fun i => .step 1 i true

/-- the hypotheses of `C91_pass_reports` and `C91_space_verdict` are met by two passes, the first of two threads: 100 and 50 bytes allocated
at the same time, the 100 freed; 20 bytes allocated in the second; this is what they report -/
theorem example_measured_passes : ∃ s2 s4, MeasuredPass 1 (AConc.init .checked 1024 (fun _ => 0)) s2 [.alloc 100 true, .alloc 50 true, .dealloc 100] ∧
    MeasuredPass 1 s2 s4 [.alloc 20 true] ∧ s2.saved.length = 1 ∧
    s2.passSpace 0 = some { usedBefore := 0, usedAfter := 50, minUsed := 0, maxUsed := 150 } ∧
    s4.passSpace 1 = some { usedBefore := 50, usedAfter := 70, minUsed := 50, maxUsed := 70 } := by
  obtain ⟨s2, s3, s4, h2, h3, h4, a2, -, a3, a4, q2, -, q3, f3, i4, -, -⟩ := example_pass
  have p1 : MeasuredPass 1 (AConc.init .checked 1024 (fun _ => 0)) s4 [.alloc 100 true, .alloc 50 true, .dealloc 100] :=
    ⟨fun _ => rfl, fun _ => rfl, ⟨exSave, exWork ++ [2].map (.sync 1), exReq, s2, s3, h2, a2, q2 1, h3, a3, by decide, q3, f3, h4, a4, i4⟩,
      by decide⟩
  obtain ⟨-, -, -, -, -, -, -, -, -, -, -, q4, f4, -⟩ := C91_pass_reports .checked 1024 (fun _ => 0) (fun _ => by decide) (pre := []) rfl p1
  have all : (AConc.init .checked 1024 (fun _ => 0)).sched ((.save 1 :: exSave) ++ ((exWork ++ [2].map (.sync 1)) ++ (.delta 1 0 :: exReq))) = some s4 :=
    sched_append.2 ⟨s2, h2, sched_append.2 ⟨s3, h3, h4⟩⟩
  have up : ∀ s : AConc, allCtrs.map (fun c => decide ((s.th 1).view c = (s.loc c).top)) = allCtrs.map (fun _ => true) → s.UpToDate 1 := by
    intro s h c
    have := List.map_inj_left.1 h c (by cases c <;> decide)
    simpa using this
  have a1 : ∀ as : List Nat, Alone 1 (as.map fun i => .step 1 i true) := by
    intro as a ha; obtain ⟨i, _, rfl⟩ := List.mem_map.1 ha; exact ⟨i, true, rfl⟩
  have e4 : ((AConc.init .checked 1024 (fun _ => 0)).sched ((.save 1 :: exSave) ++ ((exWork ++ [2].map (.sync 1)) ++ (.delta 1 0 :: exReq)))).map
      (fun s => (s.saved.length, s.passSpace 0, deltaCtrs.map fun k => (s.loc k).last)) =
      some (1, some { usedBefore := 0, usedAfter := 50, minUsed := 0, maxUsed := 150 }, [2, 1, 0, 0, 150, 100, 0, 0, 0]) := by decide +kernel
  have e5 : ((AConc.init .checked 1024 (fun _ => 0)).sched (((.save 1 :: exSave) ++ ((exWork ++ [2].map (.sync 1)) ++ (.delta 1 0 :: exReq))) ++
      (.save 1 :: exSave2))).map (fun s => (s.th 1).pc) = some .idle := by decide +kernel
  have e6 : ((AConc.init .checked 1024 (fun _ => 0)).sched ((((.save 1 :: exSave) ++ ((exWork ++ [2].map (.sync 1)) ++ (.delta 1 0 :: exReq))) ++
      (.save 1 :: exSave2)) ++ exWork2)).map (fun s => ((s.th 1).pc, allCtrs.map fun c => decide ((s.th 1).view c = (s.loc c).top))) =
      some (.idle, allCtrs.map fun _ => true) := by decide +kernel
  have e7 : ((AConc.init .checked 1024 (fun _ => 0)).sched (((((.save 1 :: exSave) ++ ((exWork ++ [2].map (.sync 1)) ++ (.delta 1 0 :: exReq))) ++
      (.save 1 :: exSave2)) ++ exWork2) ++ (.delta 1 1 :: exReq2))).map (fun s => ((s.th 1).pc, s.passSpace 1)) =
      some (.idle, some { usedBefore := 50, usedAfter := 70, minUsed := 50, maxUsed := 70 }) := by decide +kernel
  rw [all] at e4
  simp only [Option.map_some, Option.some.injEq, Prod.mk.injEq] at e4
  obtain ⟨s5, h5, f5⟩ := Option.map_eq_some_iff.1 e5
  obtain ⟨s6, h6, f6⟩ := Option.map_eq_some_iff.1 e6
  obtain ⟨s7, h7, f7⟩ := Option.map_eq_some_iff.1 e7
  simp only [Prod.mk.injEq] at f6 f7
  have t6 : ∀ a ∈ (.save 1 :: exSave2) ++ exWork2, AAct.tid a = 1 := by decide
  have q6 : s6.Quiescent := by
    intro u
    by_cases h1 : u = 1
    · subst h1; exact f6.1
    · have r6 : s4.sched ((.save 1 :: exSave2) ++ exWork2) = some s6 :=
        sched_rest all (by rw [← List.append_assoc]; exact h6)
      rw [untouched (u := u) _ _ _ (fun a ha e => h1 (e.symm.trans (t6 a ha))) r6]
      exact q4 u
  have l4 : s4.saved.length = 1 := e4.1
  refine ⟨s4, s7, p1, ⟨q4, f4, ⟨exSave2, exWork2, exReq2, s5, s6, sched_rest all h5, a1 _, f5, sched_rest h5 h6, by decide, by decide, q6,
    up _ f6.2, by rw [l4]; exact sched_rest h6 h7, a1 _, f7.1⟩, ?_⟩, l4, e4.2.1, f7.2⟩
  have e := e4.2.2
  simp only [deltaCtrs, List.map_cons, List.map_nil, List.cons.injEq, and_true] at e
  intro k hk
  simp only [deltaCtrs, List.mem_cons, List.not_mem_nil, or_false] at hk
  rcases hk with rfl | rfl | rfl | rfl | rfl | rfl | rfl | rfl | rfl <;> simp only [e] <;> decide

end BigO
