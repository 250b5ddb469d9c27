import Verif.Props.AllocWeak
import Verif.Props.SpaceThreads
import Verif.Props.SpaceFine

/-!
# C116: space verdicts with the memory orderings written in the code

What C91 and C106 say of two measured passes, when the ring buffer's accesses may be stale too; save points and requests one after another.
-/
namespace BigO

/-- a pass is a pass of the execution with atomic ring operations that goes with it -/
theorem weak_pass {t : Nat} {ready : Nat → Prop} {w1 w4 : AWeak} {acts rest : List AAct} {calls : List HeapCall} {L1 P1} (m1 : WkSim ready w1 L1 P1)
    (pass : WeakPass t w1 acts w4 calls) (hone : OneAfterAnother ready w1 (acts ++ rest)) (hsaves : w4.begun < 2 ^ 32) :
    ∃ ready' L4 P4, WkSim ready' w4 L4 P4 ∧ OneAfterAnother ready' w4 rest ∧
      MeasuredPass t (w1.core.over L1 P1) (w4.core.over L4 P4) calls := by
  obtain ⟨q1, u1, ⟨save, mid, req, w2, w3, rfl, h2, a2, i2, h3, a3, hc, q3, u3, h4, a4, i4⟩, hroom⟩ := pass
  have b3 : w3.begun < 2 ^ 32 := Nat.lt_of_le_of_lt (wbegun_sched _ w3 w4 h4) hsaves
  have b2 : w2.begun < 2 ^ 32 := Nat.lt_of_le_of_lt (wbegun_sched _ w2 w3 h3) b3
  rw [List.append_assoc, List.append_assoc] at hone
  obtain ⟨d2, L2, P2, save', m2, o2, k2, r2, _⟩ := wksim_sched (.save t :: save) _ m1 hone h2 b2
  obtain ⟨d3, L3, P3, mid', m3, o3, k3, r3, _⟩ := wksim_sched mid _ m2 o2 h3 b3
  obtain ⟨d4, L4, P4, req', m4, o4, k4, r4, _⟩ := wksim_sched (.delta t w1.core.saved.length :: req) rest m3 o3 h4 hsaves
  obtain ⟨save2, rfl, k2'⟩ := skips_cons k2 (by simp)
  obtain ⟨req2, rfl, k4'⟩ := skips_cons k4 (by simp)
  have S1 : SameStatistics _ w1.core := sameStatistics m1.sim
  have S2 : SameStatistics _ w2.core := sameStatistics m2.sim
  have S3 : SameStatistics _ w3.core := sameStatistics m3.sim
  have S4 : SameStatistics _ w4.core := sameStatistics m4.sim
  refine ⟨d4, L4, P4, m4, o4, fun u => (S1.idle u).2 (q1 u), u1,
    ⟨save2, mid', req2, w2.core.over L2 P2, w3.core.over L3 P3, r2, k2'.alone a2, (S2.idle t).2 i2, r3, k3.startedBy a3, ?_,
      fun u => (S3.idle u).2 (q3 u), u3, r4, k4'.alone a4, (S4.idle t).2 i4⟩, hroom⟩
  rw [k3.calls, hc]

theorem weakPass_begun {t : Nat} {w1 w4 : AWeak} {acts : List AAct} {calls} (p : WeakPass t w1 acts w4 calls) : w1.begun ≤ w4.begun := by
  obtain ⟨_, _, ⟨_, _, _, _, _, _, h2, _, _, h3, _, _, _, _, h4, _⟩, _⟩ := p
  exact (wbegun_sched _ _ _ h2).trans ((wbegun_sched _ _ _ h3).trans (wbegun_sched _ _ _ h4))

/-- two passes with anything in between are passes of an execution with atomic ring operations, with the same statistics, save points and
answers -/
theorem weak_passes {pr : Profile} {N : Nat} (hN : 0 < N) (hN32 : N < 2 ^ 32) {s0 : Stats} {t : Nat} {pre acts1 mid acts2 : List AAct}
    {w1 w2 w3 w4 : AWeak} {calls1 calls2 : List HeapCall} (reach : (AWeak.init pr N s0).sched pre = some w1)
    (pass1 : WeakPass t w1 acts1 w2 calls1) (between : w2.sched mid = some w3) (pass2 : WeakPass t w3 acts2 w4 calls2)
    (hone : OneAfterAnother anyone (AWeak.init pr N s0) (pre ++ (acts1 ++ (mid ++ acts2)))) (hsaves : w4.begun < 2 ^ 32) :
    ∃ L1 P1 L2 P2 L3 P3 L4 P4 pre' mid', (AConc.init pr N s0).sched pre' = some (w1.core.over L1 P1) ∧
      MeasuredPass t (w1.core.over L1 P1) (w2.core.over L2 P2) calls1 ∧
      (w2.core.over L2 P2).sched mid' = some (w3.core.over L3 P3) ∧
      MeasuredPass t (w3.core.over L3 P3) (w4.core.over L4 P4) calls2 := by
  have b3 : w3.begun < 2 ^ 32 := Nat.lt_of_le_of_lt (weakPass_begun pass2) hsaves
  have b2 : w2.begun < 2 ^ 32 := Nat.lt_of_le_of_lt (wbegun_sched _ _ _ between) b3
  have b1 : w1.begun < 2 ^ 32 := Nat.lt_of_le_of_lt (weakPass_begun pass1) b2
  obtain ⟨d1, L1, P1, pre', m1, o1, _, r1, _⟩ := wksim_sched pre _ (wkSim_init hN hN32 s0) hone reach b1
  obtain ⟨d2, L2, P2, m2, o2, p1⟩ := weak_pass m1 pass1 o1 b2
  obtain ⟨d3, L3, P3, mid', m3, o3, _, r3, _⟩ := wksim_sched mid _ m2 o2 between b3
  obtain ⟨d4, L4, P4, m4, _, p2⟩ := weak_pass (rest := []) m3 pass2 (by rw [List.append_nil]; exact o3) hsaves
  exact ⟨L1, P1, L2, P2, L3, P3, L4, P4, pre', mid', r1, p1, r3, p2⟩

/-- C116. the space verdict of two passes, each of several threads, in one process, save points and requests one after another, threads
switching between any two atomic accesses and reading stale values, those of the ring buffer included: no analysis panics, and they accept exactly if amounts really in use at some time of each
pass, above what was in use at its start, meet the limit (exact arithmetic; if the first pass used memory at all). -/
theorem C116_space_verdict (pr : Profile) (N : Nat) (hN : 0 < N) (hN32 : N < 2 ^ 32) (s0 : Stats) (h0 : ∀ c, s0 c < 2 ^ 64) (tol : ℝ)
    (ht : 0 < tol) (ht1 : tol < 1) {t : Nat} {pre acts1 mid acts2 : List AAct} {w1 w2 w3 w4 : AWeak} {calls1 calls2 : List HeapCall}
    (reach : (AWeak.init pr N s0).sched pre = some w1) (pass1 : WeakPass t w1 acts1 w2 calls1) (between : w2.sched mid = some w3)
    (pass2 : WeakPass t w3 acts2 w4 calls2)
    (hone : OneAfterAnother anyone (AWeak.init pr N s0) (pre ++ (acts1 ++ (mid ++ acts2)))) (hsaves : w4.begun < 2 ^ 32) (limit : Complexity) :
    ∃ m1 m2 peak1 peak2, w2.core.passSpace w1.core.saved.length = some m1 ∧ w4.core.passSpace w3.core.saved.length = some m2 ∧
      UsedBetween w1.core w2.core peak1 ∧ w1.core.used ≤ peak1 ∧ w2.core.used ≤ peak1 ∧
      UsedBetween w3.core w4.core peak2 ∧ w3.core.used ≤ peak2 ∧ w4.core.used ≤ peak2 ∧
      (w1.core.used < peak1 →
        (∀ n1 n2 : ℕ, 3 ≤ n1 → n1 ≤ n2 → ∃ v, analyseSpace (exactEnv tol) pr ⟨n1, n2⟩ ⟨m1, m2⟩ = .ok v ∧
          (v.asU32 ≤ limit.asU32 ↔ MeetsLimit tol n1 n2 (peak1 - w1.core.used) (peak2 - w3.core.used) limit)) ∧
        (∀ a b rep : ℕ, 3 ≤ a → 3 ≤ b → ∃ v, analyseSpaceConstantSet (exactEnv tol) pr ⟨a, b, rep⟩ ⟨m1, m2⟩ = .ok v ∧
          (v.asU32 ≤ limit.asU32 ↔ MeetsLimit tol (min a b : ℕ) (max a b : ℕ) (peak1 - w1.core.used) (peak2 - w3.core.used) limit)) ∧
        (∀ n : ℕ, 2 ≤ n → ∃ v, analyseSpaceSetResizing (exactEnv tol) pr ⟨n⟩ ⟨m1, m2⟩ = .ok v ∧
          (v.asU32 ≤ limit.asU32 ↔ MeetsResizingLimit tol n (peak1 - w1.core.used) (peak2 - w3.core.used) limit))) := by
  obtain ⟨L1, P1, L2, P2, L3, P3, L4, P4, pre', mid', r1, p1, r3, p2⟩ :=
    weak_passes hN hN32 reach pass1 between pass2 hone hsaves
  exact C91_space_verdict pr N s0 h0 tol ht ht1 r1 p1 r3 p2 limit

/-- C116. no space analysis of two such passes panics, in any arithmetic, for any sizes, whether or not the first pass used memory. -/
theorem C116_space_no_panic (pr : Profile) (N : Nat) (hN : 0 < N) (hN32 : N < 2 ^ 32) (s0 : Stats) (h0 : ∀ c, s0 c < 2 ^ 64) (E : FloatEnv)
    {t : Nat} {pre acts1 mid acts2 : List AAct} {w1 w2 w3 w4 : AWeak} {calls1 calls2 : List HeapCall}
    (reach : (AWeak.init pr N s0).sched pre = some w1) (pass1 : WeakPass t w1 acts1 w2 calls1) (between : w2.sched mid = some w3)
    (pass2 : WeakPass t w3 acts2 w4 calls2)
    (hone : OneAfterAnother anyone (AWeak.init pr N s0) (pre ++ (acts1 ++ (mid ++ acts2)))) (hsaves : w4.begun < 2 ^ 32) :
    ∃ m1 m2, w2.core.passSpace w1.core.saved.length = some m1 ∧ w4.core.passSpace w3.core.saved.length = some m2 ∧
      (∀ i, ∃ v, analyseSpace E pr i ⟨m1, m2⟩ = .ok v) ∧ (∀ i, ∃ v, analyseSpaceConstantSet E pr i ⟨m1, m2⟩ = .ok v) ∧
      (∀ i, ∃ v, analyseSpaceSetResizing E pr i ⟨m1, m2⟩ = .ok v) := by
  obtain ⟨L1, P1, L2, P2, L3, P3, L4, P4, pre', mid', r1, p1, r3, p2⟩ :=
    weak_passes hN hN32 reach pass1 between pass2 hone hsaves
  have := C91_no_panic pr N s0 h0 E r1 p1 r3 p2
  exact this

/-- C116. the same with the shipped tolerances and binary64 arithmetic, up to one part in 2^40 of the second peak. -/
theorem C116_space_verdict_shipped (pr : Profile) (N : Nat) (hN : 0 < N) (hN32 : N < 2 ^ 32) (s0 : Stats) (h0 : ∀ c, s0 c < 2 ^ 64)
    (log2 : F → F) (powi : F → ℕ → F) (powf : F → F → F) (H : AccurateLibrary log2 powi) (tol : ℝ) (ht : tol = 1 / 10 ∨ tol = 1 / 4)
    {t : Nat} {pre acts1 mid acts2 : List AAct} {w1 w2 w3 w4 : AWeak} {calls1 calls2 : List HeapCall}
    (reach : (AWeak.init pr N s0).sched pre = some w1) (pass1 : WeakPass t w1 acts1 w2 calls1) (between : w2.sched mid = some w3)
    (pass2 : WeakPass t w3 acts2 w4 calls2)
    (hone : OneAfterAnother anyone (AWeak.init pr N s0) (pre ++ (acts1 ++ (mid ++ acts2)))) (hsaves : w4.begun < 2 ^ 32) (limit : Complexity) :
    let E := shippedEnv log2 powi powf tol
    ∃ m1 m2 peak1 peak2, w2.core.passSpace w1.core.saved.length = some m1 ∧ w4.core.passSpace w3.core.saved.length = some m2 ∧
      UsedBetween w1.core w2.core peak1 ∧ w1.core.used ≤ peak1 ∧ w2.core.used ≤ peak1 ∧
      UsedBetween w3.core w4.core peak2 ∧ w3.core.used ≤ peak2 ∧ w4.core.used ≤ peak2 ∧
      (w1.core.used < peak1 →
        (∀ n1 n2 : ℕ, 3 ≤ n1 → n1 ≤ n2 → n2 ≤ 2 ^ 32 → Covered powf n1 n2 limit →
          ∃ v, analyseSpace E pr ⟨n1, n2⟩ ⟨m1, m2⟩ = .ok v ∧
            AcceptsUpTo (MeetsLimit tol n1 n2 (peak1 - w1.core.used)) (peak2 - w3.core.used) v limit) ∧
        (∀ a b rep : ℕ, 3 ≤ a → 3 ≤ b → a ≤ 2 ^ 32 → b ≤ 2 ^ 32 → Covered powf (min a b) (max a b) limit →
          ∃ v, analyseSpaceConstantSet E pr ⟨a, b, rep⟩ ⟨m1, m2⟩ = .ok v ∧
            AcceptsUpTo (MeetsLimit tol (min a b : ℕ) (max a b : ℕ) (peak1 - w1.core.used)) (peak2 - w3.core.used) v limit) ∧
        (∀ n : ℕ, 2 ≤ n → n ≤ 2 ^ 32 → ∃ v, analyseSpaceSetResizing E pr ⟨n⟩ ⟨m1, m2⟩ = .ok v ∧
          AcceptsUpTo (MeetsResizingLimit tol n (peak1 - w1.core.used)) (peak2 - w3.core.used) v limit)) := by
  obtain ⟨L1, P1, L2, P2, L3, P3, L4, P4, pre', mid', r1, p1, r3, p2⟩ :=
    weak_passes hN hN32 reach pass1 between pass2 hone hsaves
  exact C91_space_verdict_shipped pr N s0 h0 log2 powi powf H tol ht r1 p1 r3 p2 limit

/-- a second pass after that of `example_weak_pass`: thread 1 allocates 20 bytes -/
def exWeakSave2 : List AAct := readSteps 1 ([1, 2] ++ [0, 0, 0] ++ [2, 3, 0, 3, 0] ++ [2, 1, 0, 0, 2, 1, 0, 0, 0, 3, 2, 3] ++ [0])
def exWeakReq2 : List AAct := readSteps 1 ([0, 2, 0] ++ [2, 4] ++ [3, 1, 0, 0, 3, 1, 0, 0, 0] ++ [0, 4])
/-- all that happens in the first pass -/
def exWeakPass1 : List AAct := (.save 1 :: exWeakSave) ++ ((exWork ++ [2].map (.sync 1)) ++ (.delta 1 0 :: exWeakReq))
/-- all that happens in the second pass -/
def exWeakPass2 : List AAct := (.save 1 :: exWeakSave2) ++ (exWork2 ++ (.delta 1 1 :: exWeakReq2))

/-- the hypotheses of the theorems above are met by two passes, the first of two threads, with nothing before and in between; this is what
they report -/
theorem example_weak_passes : ∃ w2 w4, WeakPass 1 (AWeak.init .checked 1024 (fun _ => 0)) exWeakPass1 w2
      [.alloc 100 true, .alloc 50 true, .dealloc 100] ∧
    w2.sched [] = some w2 ∧ WeakPass 1 w2 exWeakPass2 w4 [.alloc 20 true] ∧
    OneAfterAnother anyone (AWeak.init .checked 1024 (fun _ => 0)) ([] ++ (exWeakPass1 ++ ([] ++ exWeakPass2))) ∧ w4.begun = 2 ∧
    w2.core.passSpace 0 = some { usedBefore := 0, usedAfter := 50, minUsed := 0, maxUsed := 150 } ∧
    w4.core.passSpace w2.core.saved.length = some { usedBefore := 50, usedAfter := 70, minUsed := 50, maxUsed := 70 } := by
  obtain ⟨f2, f3, f4, h2, h3, h4, q1, u1, a2, a3, a4, i2, q3, u3, i4, o1, hb, -⟩ := example_weak_pass
  have p1 : WeakPass 1 (AWeak.init .checked 1024 (fun _ => 0)) exWeakPass1 f4 [.alloc 100 true, .alloc 50 true, .dealloc 100] :=
    ⟨q1, u1, ⟨exWeakSave, exWork ++ [2].map (.sync 1), exWeakReq, f2, f3, rfl, h2, a2, i2, h3, a3, by decide, q3, u3, h4, a4, i4⟩,
      by decide⟩
  have all : (AWeak.init .checked 1024 (fun _ => 0)).sched exWeakPass1 = some f4 := wsched_append.2 ⟨f2, h2, wsched_append.2 ⟨f3, h3, h4⟩⟩
  have up : ∀ f : AWeak, allCtrs.map (fun c => decide ((f.core.th 1).view c = (f.core.loc c).top)) = allCtrs.map (fun _ => true) →
      f.core.UpToDate 1 := by
    intro s h c
    have := List.map_inj_left.1 h c (by cases c <;> decide)
    simpa using this
  have a1 : ∀ as : List Nat, Alone 1 (readSteps 1 as) := by
    intro as a ha; obtain ⟨i, _, rfl⟩ := List.mem_map.1 ha; exact ⟨i, true, rfl⟩
  have e4 : ((AWeak.init .checked 1024 (fun _ => 0)).sched exWeakPass1).map (fun f => ((f.core.th 2).pc, f.core.saved.length,
        f.core.passSpace 0, (deltaCtrs.map fun k => (f.core.loc k).last),
        allCtrs.map fun c => decide ((f.core.th 1).view c = (f.core.loc c).top))) =
      some (.idle, 1, some { usedBefore := 0, usedAfter := 50, minUsed := 0, maxUsed := 150 }, [2, 1, 0, 0, 150, 100, 0, 0, 0],
        allCtrs.map fun _ => true) := by decide +kernel
  have e5 : ((AWeak.init .checked 1024 (fun _ => 0)).sched (exWeakPass1 ++ (.save 1 :: exWeakSave2))).map (fun f => (f.core.th 1).pc) =
      some .idle := by decide +kernel
  have e6 : ((AWeak.init .checked 1024 (fun _ => 0)).sched ((exWeakPass1 ++ (.save 1 :: exWeakSave2)) ++ exWork2)).map
      (fun f => ((f.core.th 1).pc, allCtrs.map fun c => decide ((f.core.th 1).view c = (f.core.loc c).top))) =
      some (.idle, allCtrs.map fun _ => true) := by decide +kernel
  have e7 : ((AWeak.init .checked 1024 (fun _ => 0)).sched (((exWeakPass1 ++ (.save 1 :: exWeakSave2)) ++ exWork2) ++
      (.delta 1 1 :: exWeakReq2))).map (fun f => ((f.core.th 1).pc, f.core.passSpace 1, f.begun)) =
      some (.idle, some { usedBefore := 50, usedAfter := 70, minUsed := 50, maxUsed := 70 }, 2) := by decide +kernel
  rw [all] at e4
  simp only [Option.map_some, Option.some.injEq, Prod.mk.injEq] at e4
  obtain ⟨f5, h5, g5⟩ := Option.map_eq_some_iff.1 e5
  obtain ⟨f6, h6, g6⟩ := Option.map_eq_some_iff.1 e6
  obtain ⟨f7, h7, g7⟩ := Option.map_eq_some_iff.1 e7
  simp only [Prod.mk.injEq] at g6 g7
  have t4 : ∀ a ∈ exWeakPass1, AAct.tid a = 1 ∨ AAct.tid a = 2 := by decide
  have q4 : f4.core.Quiescent := by
    intro u
    by_cases h1 : u = 1
    · subst h1; exact i4
    · by_cases h2 : u = 2
      · subst h2; exact e4.1
      · rw [wuntouched (u := u) _ (fun a ha e => (t4 a ha).elim (fun h => h1 (e.symm.trans h)) (fun h => h2 (e.symm.trans h))) all]
        rfl
  have t6 : ∀ a ∈ (.save 1 :: exWeakSave2) ++ exWork2, AAct.tid a = 1 := by decide
  have r6 : f4.sched ((.save 1 :: exWeakSave2) ++ exWork2) = some f6 := wsched_rest all (by rw [← List.append_assoc]; exact h6)
  have q6 : f6.core.Quiescent := by
    intro u
    by_cases h1 : u = 1
    · subst h1; exact g6.1
    · rw [wuntouched (u := u) _ (fun a ha e => h1 (e.symm.trans (t6 a ha))) r6]
      exact q4 u
  have l4 : f4.core.saved.length = 1 := e4.2.1
  refine ⟨f4, f7, p1, rfl, ⟨q4, up _ e4.2.2.2.2, ⟨exWeakSave2, exWork2, exWeakReq2, f5, f6, by rw [l4]; rfl, wsched_rest all h5, a1 _, g5,
    wsched_rest h5 h6, by decide, by decide, q6, up _ g6.2, by rw [l4]; exact wsched_rest h6 h7, a1 _, g7.1⟩, ?_⟩, ?_, g7.2.2,
    e4.2.2.1, by rw [l4]; exact g7.2.1⟩
  · have e := e4.2.2.2.1
    simp only [deltaCtrs, List.map_cons, List.map_nil, List.cons.injEq, and_true] at e
    intro k hk
    simp only [deltaCtrs, List.mem_cons, List.not_mem_nil, or_false] at hk
    rcases hk with rfl | rfl | rfl | rfl | rfl | rfl | rfl | rfl | rfl <;> simp only [e] <;> decide
  · have h7' : (AWeak.init .checked 1024 (fun _ => 0)).sched ([] ++ (exWeakPass1 ++ ([] ++ exWeakPass2))) = some f7 := by
      simp only [List.nil_append]
      unfold exWeakPass2
      rw [List.append_assoc, List.append_assoc] at h7
      exact h7
    refine C116_one_measuring_thread _ _ _ h7' 1 ?_
    intro a ha
    have key : ([] ++ (exWeakPass1 ++ ([] ++ exWeakPass2))).all
        (fun a => match a with | .save u => u == 1 | .delta u _ => u == 1 | _ => true) = true := by decide
    have key := List.all_eq_true.1 key a ha
    refine ⟨?_, ?_⟩
    · rintro u rfl; simpa using key
    · rintro u k rfl; simpa using key

end BigO
