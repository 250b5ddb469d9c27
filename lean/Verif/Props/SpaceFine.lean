import Verif.Spec.FinePassSpec
import Verif.Props.AllocRing
import Verif.Props.SpaceThreads

/-!
# C106: space verdicts when threads meet inside the ring buffer

What C91 says of passes measured with every ring operation in one step, for threads that may switch between any two atomic accesses,
those of the ring buffer included.
-/
namespace BigO

/-- a fine pass is a pass of the execution with atomic ring operations that goes with it -/
theorem fine_pass {N t : Nat} {f1 f4 : AFine} {calls : List HeapCall} {L1 P1} (m1 : FSim f1 L1 P1) (bl1 : Below f1.core.size f1)
    (z1 : f1.core.size = N) (pass : FinePass N t f1 f4 calls) (hsaves : f4.begun < 2 ^ 32) :
    ∃ L4 P4, FSim f4 L4 P4 ∧ Below f4.core.size f4 ∧ f4.core.size = N ∧ f1.begun ≤ f4.begun ∧
      MeasuredPass t (f1.core.over L1 P1) (f4.core.over L4 P4) calls := by
  obtain ⟨q1, u1, tN, ⟨save, mid, req, f2, f3, h2, a2, i2, h3, a3, hmid, hc, q3, u3, h4, a4, i4⟩, hroom⟩ := pass
  have l3 := begun_sched _ f3 f4 h4
  have l2 := begun_sched _ f2 f3 h3
  have l1 := begun_sched _ f1 f2 h2
  have b3 : f3.begun < 2 ^ 32 := Nat.lt_of_le_of_lt l3 hsaves
  have b2 : f2.begun < 2 ^ 32 := Nat.lt_of_le_of_lt l2 b3
  have al : ∀ {as : List AAct}, Alone t as → ∀ a ∈ as, a.tid = t := by
    intro as ha a hm; obtain ⟨i, ok, rfl⟩ := ha a hm; rfl
  have S1 := sameStatistics m1
  have d1 : ∀ u, inDelta (f1.core.th u).pc = false := fun u => by rw [q1 u]; rfl
  have nd2 : ∀ v k, AAct.delta v k ∉ AAct.save t :: save := by
    intro v k hm
    rcases List.mem_cons.1 hm with e | hm
    · cases e
    · obtain ⟨i, ok, e⟩ := a2 _ hm; cases e
  have o2 : NeverOverrun f1 (.save t :: save) := neverOverrun_noDelta m1.inv d1 nd2 h2 b2
  obtain ⟨L2, P2, save', m2, k2, r2, bl2⟩ := fsim_sched (.save t :: save) m1 bl1 (by
    intro a hm
    rw [z1]
    rcases List.mem_cons.1 hm with rfl | hm
    · exact tN
    · rw [al a2 a hm]; exact tN) o2 h2 b2
  obtain ⟨save2, rfl, k2'⟩ := skips_cons k2 (by simp)
  have S2 := sameStatistics m2
  have z2 : f2.core.size = N := (size_fsched _ h2).trans z1
  have d2 := (noDelta_sched (.save t :: save) m1.inv d1 nd2 h2 b2).2
  have o3 : NeverOverrun f2 mid := neverOverrun_noDelta m2.inv d2 (startedBy_no_delta mid [t] a3) h3 b3
  obtain ⟨L3, P3, mid', m3, k3, r3, bl3⟩ := fsim_sched mid m2 bl2 (by intro a hm; rw [z2]; exact hmid a hm) o3 h3 b3
  have S3 := sameStatistics m3
  have st3 : Still f3 := by
    refine ⟨m3.inv, fun u => by rw [q3 u]; rfl, ?_⟩
    intro u k mn mx rest sp hr
    have := (m3.inv.reading u k mn mx rest hr).1
    rw [q3 u] at this; cases this
  have ns4 : ∀ v, AAct.save v ∉ AAct.delta t f1.core.saved.length :: req := by
    intro v hm
    rcases List.mem_cons.1 hm with e | hm
    · cases e
    · obtain ⟨i, ok, e⟩ := a4 _ hm; cases e
  have o4 : NeverOverrun f3 (.delta t f1.core.saved.length :: req) := neverOverrun_still st3 ns4 h4 hsaves
  have z3 : f3.core.size = N := (size_fsched _ h3).trans z2
  obtain ⟨L4, P4, req', m4, k4, r4, bl4⟩ := fsim_sched (.delta t f1.core.saved.length :: req) m3 bl3 (by
    intro a hm
    rw [z3]
    rcases List.mem_cons.1 hm with rfl | hm
    · exact tN
    · rw [al a4 a hm]; exact tN) o4 h4 hsaves
  obtain ⟨req2, rfl, k4'⟩ := skips_cons k4 (by simp)
  have S4 := sameStatistics m4
  refine ⟨L4, P4, m4, bl4, (size_fsched _ h4).trans z3, l1.trans (l2.trans l3), fun u => (S1.idle u).2 (q1 u), u1,
    ⟨save2, mid', req2, f2.core.over L2 P2, f3.core.over L3 P3, r2, k2'.alone a2, (S2.idle t).2 i2, r3, k3.startedBy a3, ?_,
      fun u => (S3.idle u).2 (q3 u), u3, r4, k4'.alone a4, (S4.idle t).2 i4⟩, hroom⟩
  rw [k3.calls, hc]

/-- two fine passes with anything in between are passes of an execution with atomic ring operations, with the same statistics, save points
and answers -/
theorem fine_passes {pr : Profile} {N : Nat} (hN : 0 < N) (hN32 : N < 2 ^ 32) {s0 : Stats} {t : Nat} {pre mid : List AAct}
    {f1 f2 f3 f4 : AFine} {calls1 calls2 : List HeapCall} (reach : (AFine.init pr N s0).sched pre = some f1)
    (pass1 : FinePass N t f1 f2 calls1) (between : f2.sched mid = some f3) (pass2 : FinePass N t f3 f4 calls2)
    (hthreads : (∀ a ∈ pre, a.tid < N) ∧ ∀ a ∈ mid, a.tid < N)
    (hover : NeverOverrun (AFine.init pr N s0) pre ∧ NeverOverrun f2 mid) (hsaves : f4.begun < 2 ^ 32) :
    ∃ L1 P1 L2 P2 L3 P3 L4 P4 pre' mid', (AConc.init pr N s0).sched pre' = some (f1.core.over L1 P1) ∧
      MeasuredPass t (f1.core.over L1 P1) (f2.core.over L2 P2) calls1 ∧
      (f2.core.over L2 P2).sched mid' = some (f3.core.over L3 P3) ∧
      MeasuredPass t (f3.core.over L3 P3) (f4.core.over L4 P4) calls2 := by
  have b3 : f3.begun < 2 ^ 32 := by
    obtain ⟨_, _, _, ⟨_, _, _, _, _, h2, _, _, h3, _, _, _, _, _, h4, _⟩, _⟩ := pass2
    exact Nat.lt_of_le_of_lt ((begun_sched _ _ _ h2).trans ((begun_sched _ _ _ h3).trans (begun_sched _ _ _ h4))) hsaves
  have b2 : f2.begun < 2 ^ 32 := Nat.lt_of_le_of_lt (begun_sched _ _ _ between) b3
  have b1 : f1.begun < 2 ^ 32 := by
    obtain ⟨_, _, _, ⟨_, _, _, _, _, h2, _, _, h3, _, _, _, _, _, h4, _⟩, _⟩ := pass1
    exact Nat.lt_of_le_of_lt ((begun_sched _ _ _ h2).trans ((begun_sched _ _ _ h3).trans (begun_sched _ _ _ h4))) b2
  obtain ⟨L1, P1, pre', m1, k1, r1, bl1⟩ := fsim_sched pre (fsim_init hN hN32 s0) (fun _ _ => rfl) hthreads.1 hover.1 reach b1
  rw [over_init] at r1
  have z1 : f1.core.size = N := size_fsched pre reach
  obtain ⟨L2, P2, m2, bl2, z2, -, p1⟩ := fine_pass m1 bl1 z1 pass1 b2
  obtain ⟨L3, P3, mid', m3, k3, r3, bl3⟩ := fsim_sched mid m2 bl2 (by intro a hm; rw [z2]; exact hthreads.2 a hm) hover.2 between b3
  obtain ⟨L4, P4, m4, bl4, z4, -, p2⟩ := fine_pass m3 bl3 ((size_fsched _ between).trans z2) pass2 hsaves
  exact ⟨L1, P1, L2, P2, L3, P3, L4, P4, pre', mid', r1, p1, r3, p2⟩

/-- C106. the space verdict of two passes, each of several threads, in one process, anything in between, threads switching between any two
atomic accesses, those of the ring buffer included: no analysis panics, and they accept exactly if amounts really in use at some time of each
pass, above what was in use at its start, meet the limit (exact arithmetic; if the first pass used memory at all). -/
theorem C106_space_verdict (pr : Profile) (N : Nat) (hN : 0 < N) (hN32 : N < 2 ^ 32) (s0 : Stats) (h0 : ∀ c, s0 c < 2 ^ 64) (tol : ℝ)
    (ht : 0 < tol) (ht1 : tol < 1) {t : Nat} {pre mid : List AAct} {f1 f2 f3 f4 : AFine} {calls1 calls2 : List HeapCall}
    (reach : (AFine.init pr N s0).sched pre = some f1) (pass1 : FinePass N t f1 f2 calls1) (between : f2.sched mid = some f3)
    (pass2 : FinePass N t f3 f4 calls2) (hthreads : (∀ a ∈ pre, a.tid < N) ∧ ∀ a ∈ mid, a.tid < N)
    (hover : NeverOverrun (AFine.init pr N s0) pre ∧ NeverOverrun f2 mid) (hsaves : f4.begun < 2 ^ 32) (limit : Complexity) :
    ∃ m1 m2 peak1 peak2, f2.core.passSpace f1.core.saved.length = some m1 ∧ f4.core.passSpace f3.core.saved.length = some m2 ∧
      UsedBetween f1.core f2.core peak1 ∧ f1.core.used ≤ peak1 ∧ f2.core.used ≤ peak1 ∧
      UsedBetween f3.core f4.core peak2 ∧ f3.core.used ≤ peak2 ∧ f4.core.used ≤ peak2 ∧
      (f1.core.used < peak1 →
        (∀ n1 n2 : ℕ, 3 ≤ n1 → n1 ≤ n2 → ∃ v, analyseSpace (exactEnv tol) pr ⟨n1, n2⟩ ⟨m1, m2⟩ = .ok v ∧
          (v.asU32 ≤ limit.asU32 ↔ MeetsLimit tol n1 n2 (peak1 - f1.core.used) (peak2 - f3.core.used) limit)) ∧
        (∀ a b rep : ℕ, 3 ≤ a → 3 ≤ b → ∃ v, analyseSpaceConstantSet (exactEnv tol) pr ⟨a, b, rep⟩ ⟨m1, m2⟩ = .ok v ∧
          (v.asU32 ≤ limit.asU32 ↔ MeetsLimit tol (min a b : ℕ) (max a b : ℕ) (peak1 - f1.core.used) (peak2 - f3.core.used) limit)) ∧
        (∀ n : ℕ, 2 ≤ n → ∃ v, analyseSpaceSetResizing (exactEnv tol) pr ⟨n⟩ ⟨m1, m2⟩ = .ok v ∧
          (v.asU32 ≤ limit.asU32 ↔ MeetsResizingLimit tol n (peak1 - f1.core.used) (peak2 - f3.core.used) limit))) := by
  obtain ⟨L1, P1, L2, P2, L3, P3, L4, P4, pre', mid', r1, p1, r3, p2⟩ :=
    fine_passes hN hN32 reach pass1 between pass2 hthreads hover hsaves
  exact C91_space_verdict pr N s0 h0 tol ht ht1 r1 p1 r3 p2 limit

/-- C106. no space analysis of two such passes panics, in any arithmetic, for any sizes, whether or not the first pass used memory. -/
theorem C106_space_no_panic (pr : Profile) (N : Nat) (hN : 0 < N) (hN32 : N < 2 ^ 32) (s0 : Stats) (h0 : ∀ c, s0 c < 2 ^ 64) (E : FloatEnv)
    {t : Nat} {pre mid : List AAct} {f1 f2 f3 f4 : AFine} {calls1 calls2 : List HeapCall}
    (reach : (AFine.init pr N s0).sched pre = some f1) (pass1 : FinePass N t f1 f2 calls1) (between : f2.sched mid = some f3)
    (pass2 : FinePass N t f3 f4 calls2) (hthreads : (∀ a ∈ pre, a.tid < N) ∧ ∀ a ∈ mid, a.tid < N)
    (hover : NeverOverrun (AFine.init pr N s0) pre ∧ NeverOverrun f2 mid) (hsaves : f4.begun < 2 ^ 32) :
    ∃ m1 m2, f2.core.passSpace f1.core.saved.length = some m1 ∧ f4.core.passSpace f3.core.saved.length = some m2 ∧
      (∀ i, ∃ v, analyseSpace E pr i ⟨m1, m2⟩ = .ok v) ∧ (∀ i, ∃ v, analyseSpaceConstantSet E pr i ⟨m1, m2⟩ = .ok v) ∧
      (∀ i, ∃ v, analyseSpaceSetResizing E pr i ⟨m1, m2⟩ = .ok v) := by
  obtain ⟨L1, P1, L2, P2, L3, P3, L4, P4, pre', mid', r1, p1, r3, p2⟩ :=
    fine_passes hN hN32 reach pass1 between pass2 hthreads hover hsaves
  have := C91_no_panic pr N s0 h0 E r1 p1 r3 p2
  exact this

/-- C106. the same with the shipped tolerances and binary64 arithmetic, up to one part in 2^40 of the second peak. -/
theorem C106_space_verdict_shipped (pr : Profile) (N : Nat) (hN : 0 < N) (hN32 : N < 2 ^ 32) (s0 : Stats) (h0 : ∀ c, s0 c < 2 ^ 64)
    (log2 : F → F) (powi : F → ℕ → F) (powf : F → F → F) (H : AccurateLibrary log2 powi) (tol : ℝ) (ht : tol = 1 / 10 ∨ tol = 1 / 4)
    {t : Nat} {pre mid : List AAct} {f1 f2 f3 f4 : AFine} {calls1 calls2 : List HeapCall}
    (reach : (AFine.init pr N s0).sched pre = some f1) (pass1 : FinePass N t f1 f2 calls1) (between : f2.sched mid = some f3)
    (pass2 : FinePass N t f3 f4 calls2) (hthreads : (∀ a ∈ pre, a.tid < N) ∧ ∀ a ∈ mid, a.tid < N)
    (hover : NeverOverrun (AFine.init pr N s0) pre ∧ NeverOverrun f2 mid) (hsaves : f4.begun < 2 ^ 32) (limit : Complexity) :
    let E := shippedEnv log2 powi powf tol
    ∃ m1 m2 peak1 peak2, f2.core.passSpace f1.core.saved.length = some m1 ∧ f4.core.passSpace f3.core.saved.length = some m2 ∧
      UsedBetween f1.core f2.core peak1 ∧ f1.core.used ≤ peak1 ∧ f2.core.used ≤ peak1 ∧
      UsedBetween f3.core f4.core peak2 ∧ f3.core.used ≤ peak2 ∧ f4.core.used ≤ peak2 ∧
      (f1.core.used < peak1 →
        (∀ n1 n2 : ℕ, 3 ≤ n1 → n1 ≤ n2 → n2 ≤ 2 ^ 32 → Covered powf n1 n2 limit →
          ∃ v, analyseSpace E pr ⟨n1, n2⟩ ⟨m1, m2⟩ = .ok v ∧
            AcceptsUpTo (MeetsLimit tol n1 n2 (peak1 - f1.core.used)) (peak2 - f3.core.used) v limit) ∧
        (∀ a b rep : ℕ, 3 ≤ a → 3 ≤ b → a ≤ 2 ^ 32 → b ≤ 2 ^ 32 → Covered powf (min a b) (max a b) limit →
          ∃ v, analyseSpaceConstantSet E pr ⟨a, b, rep⟩ ⟨m1, m2⟩ = .ok v ∧
            AcceptsUpTo (MeetsLimit tol (min a b : ℕ) (max a b : ℕ) (peak1 - f1.core.used)) (peak2 - f3.core.used) v limit) ∧
        (∀ n : ℕ, 2 ≤ n → n ≤ 2 ^ 32 → ∃ v, analyseSpaceSetResizing E pr ⟨n⟩ ⟨m1, m2⟩ = .ok v ∧
          AcceptsUpTo (MeetsResizingLimit tol n (peak1 - f1.core.used)) (peak2 - f3.core.used) v limit)) := by
  obtain ⟨L1, P1, L2, P2, L3, P3, L4, P4, pre', mid', r1, p1, r3, p2⟩ :=
    fine_passes hN hN32 reach pass1 between pass2 hthreads hover hsaves
  exact C91_space_verdict_shipped pr N s0 h0 log2 powi powf H tol ht r1 p1 r3 p2 limit

/-! ## a concrete execution -/

/-- a second pass after that of `example_fine_pass`: thread 1 allocates 20 bytes -/
def exFineSave2 : List AAct := readSteps 1 ([1, 2] ++ [0, 0, 0] ++ [0, 3, 0, 3, 0] ++ [2, 1, 0, 0, 2, 1, 0, 0, 0, 3, 2, 3] ++ [0])
def exFineReq2 : List AAct := readSteps 1 ([0, 0, 0] ++ [2, 4] ++ [3, 1, 0, 0, 3, 1, 0, 0, 0] ++ [0, 4])

/-- the hypotheses of the theorems above are met by two passes, the first of two threads, with nothing before and in between; this is what
they report -/
theorem example_fine_passes : ∃ f2 f4, FinePass 1024 1 (AFine.init .checked 1024 (fun _ => 0)) f2 [.alloc 100 true, .alloc 50 true, .dealloc 100] ∧
    f2.sched [] = some f2 ∧ FinePass 1024 1 f2 f4 [.alloc 20 true] ∧ NeverOverrun (AFine.init .checked 1024 (fun _ => 0)) [] ∧
    NeverOverrun f2 [] ∧ f4.begun = 2 ∧
    f2.core.passSpace 0 = some { usedBefore := 0, usedAfter := 50, minUsed := 0, maxUsed := 150 } ∧
    f4.core.passSpace f2.core.saved.length = some { usedBefore := 50, usedAfter := 70, minUsed := 50, maxUsed := 70 } := by
  obtain ⟨f2, f3, f4, h2, h3, h4, q1, u1, o1, a2, a3, a4, i2, q3, u3, i4, ht, hb, -⟩ := example_fine_pass
  have p1 : FinePass 1024 1 (AFine.init .checked 1024 (fun _ => 0)) f4 [.alloc 100 true, .alloc 50 true, .dealloc 100] :=
    ⟨q1, u1, by decide, ⟨exFineSave, exWork ++ [2].map (.sync 1), exFineReq, f2, f3, h2, a2, i2, h3, a3, ht, by decide, q3, u3, h4, a4, i4⟩,
      by decide⟩
  have all : (AFine.init .checked 1024 (fun _ => 0)).sched ((.save 1 :: exFineSave) ++ ((exWork ++ [2].map (.sync 1)) ++ (.delta 1 0 :: exFineReq))) =
      some f4 := fsched_append.2 ⟨f2, h2, fsched_append.2 ⟨f3, h3, h4⟩⟩
  have up : ∀ f : AFine, allCtrs.map (fun c => decide ((f.core.th 1).view c = (f.core.loc c).top)) = allCtrs.map (fun _ => true) →
      f.core.UpToDate 1 := by
    intro s h c
    have := List.map_inj_left.1 h c (by cases c <;> decide)
    simpa using this
  have a1 : ∀ as : List Nat, Alone 1 (readSteps 1 as) := by
    intro as a ha; obtain ⟨i, _, rfl⟩ := List.mem_map.1 ha; exact ⟨i, true, rfl⟩
  have e4 : ((AFine.init .checked 1024 (fun _ => 0)).sched ((.save 1 :: exFineSave) ++ ((exWork ++ [2].map (.sync 1)) ++
      (.delta 1 0 :: exFineReq)))).map (fun f => ((f.core.th 2).pc, f.core.saved.length, f.core.passSpace 0,
        (deltaCtrs.map fun k => (f.core.loc k).last), allCtrs.map fun c => decide ((f.core.th 1).view c = (f.core.loc c).top))) =
      some (.idle, 1, some { usedBefore := 0, usedAfter := 50, minUsed := 0, maxUsed := 150 }, [2, 1, 0, 0, 150, 100, 0, 0, 0],
        allCtrs.map fun _ => true) := by decide +kernel
  have e5 : ((AFine.init .checked 1024 (fun _ => 0)).sched (((.save 1 :: exFineSave) ++ ((exWork ++ [2].map (.sync 1)) ++
      (.delta 1 0 :: exFineReq))) ++ (.save 1 :: exFineSave2))).map (fun f => (f.core.th 1).pc) = some .idle := by decide +kernel
  have e6 : ((AFine.init .checked 1024 (fun _ => 0)).sched ((((.save 1 :: exFineSave) ++ ((exWork ++ [2].map (.sync 1)) ++
      (.delta 1 0 :: exFineReq))) ++ (.save 1 :: exFineSave2)) ++ exWork2)).map
      (fun f => ((f.core.th 1).pc, allCtrs.map fun c => decide ((f.core.th 1).view c = (f.core.loc c).top))) =
      some (.idle, allCtrs.map fun _ => true) := by decide +kernel
  have e7 : ((AFine.init .checked 1024 (fun _ => 0)).sched (((((.save 1 :: exFineSave) ++ ((exWork ++ [2].map (.sync 1)) ++
      (.delta 1 0 :: exFineReq))) ++ (.save 1 :: exFineSave2)) ++ exWork2) ++ (.delta 1 1 :: exFineReq2))).map
      (fun f => ((f.core.th 1).pc, f.core.passSpace 1, f.begun)) =
      some (.idle, some { usedBefore := 50, usedAfter := 70, minUsed := 50, maxUsed := 70 }, 2) := by decide +kernel
  rw [all] at e4
  simp only [Option.map_some, Option.some.injEq, Prod.mk.injEq] at e4
  obtain ⟨f5, h5, g5⟩ := Option.map_eq_some_iff.1 e5
  obtain ⟨f6, h6, g6⟩ := Option.map_eq_some_iff.1 e6
  obtain ⟨f7, h7, g7⟩ := Option.map_eq_some_iff.1 e7
  simp only [Prod.mk.injEq] at g6 g7
  have t4 : ∀ a ∈ (.save 1 :: exFineSave) ++ ((exWork ++ [2].map (.sync 1)) ++ (.delta 1 0 :: exFineReq)), AAct.tid a = 1 ∨ AAct.tid a = 2 := by
    decide
  have q4 : f4.core.Quiescent := by
    intro u
    by_cases h1 : u = 1
    · subst h1; exact i4
    · by_cases h2 : u = 2
      · subst h2; exact e4.1
      · rw [untouched_fine (u := u) _ (fun a ha e => (t4 a ha).elim (fun h => h1 (e.symm.trans h)) (fun h => h2 (e.symm.trans h))) all]
        rfl
  have t6 : ∀ a ∈ (.save 1 :: exFineSave2) ++ exWork2, AAct.tid a = 1 := by decide
  have r6 : f4.sched ((.save 1 :: exFineSave2) ++ exWork2) = some f6 := fsched_rest all (by rw [← List.append_assoc]; exact h6)
  have q6 : f6.core.Quiescent := by
    intro u
    by_cases h1 : u = 1
    · subst h1; exact g6.1
    · rw [untouched_fine (u := u) _ (fun a ha e => h1 (e.symm.trans (t6 a ha))) r6]
      exact q4 u
  have l4 : f4.core.saved.length = 1 := e4.2.1
  refine ⟨f4, f7, p1, rfl, ⟨q4, up _ e4.2.2.2.2, by decide, ⟨exFineSave2, exWork2, exFineReq2, f5, f6, fsched_rest all h5, a1 _, g5,
    fsched_rest h5 h6, by decide, by decide, by decide, q6, up _ g6.2, by rw [l4]; exact fsched_rest h6 h7, a1 _, g7.1⟩, ?_⟩, o1,
    neverOverrun_of_few (f' := f4) rfl ?_, g7.2.2, e4.2.2.1, by rw [l4]; exact g7.2.1⟩
  · have e := e4.2.2.2.1
    simp only [deltaCtrs, List.map_cons, List.map_nil, List.cons.injEq, and_true] at e
    intro k hk
    simp only [deltaCtrs, List.mem_cons, List.not_mem_nil, or_false] at hk
    rcases hk with rfl | rfl | rfl | rfl | rfl | rfl | rfl | rfl | rfl <;> simp only [e] <;> decide
  · rw [hb, size_fsched _ all]; decide

end BigO
