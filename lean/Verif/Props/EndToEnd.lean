import Verif.Model.PassResult
import Verif.Props.Alloc
import Verif.Props.Shipped

/-!
# C84: from heap calls to the space verdict
-/
namespace BigO

theorem liveTrace_head (live : List Nat) (es : List AllocEv) : live.sum ∈ liveTrace live es := by
  cases es with
  | nil => simp [liveTrace]
  | cons e es => cases e <;> simp [liveTrace]

/-- **C84** (a pass reports the truth): whatever happened before, a pass during which the process makes the heap calls of `body` (and
at most `N` nested save points are taken) reports the live bytes before it, the live bytes after it, and the extremes of the live
bytes at all instants in between; it never panics, and leaves the allocator as the calls made it. -/
theorem C84_pass_reports_live_bytes {p : Profile} {N : Nat} (hN : 0 < N) (hN32 : N < 2 ^ 32) (pre body : List AllocEv)
    (ho : OrdinaryPass p N pre body) :
    ∃ m : SpacePass, (AllocSys.new.run p N pre).pass p N body = (AllocSys.new.run p N (pre ++ .savePoint :: body), .ok m) ∧
      m.usedBefore = (liveBlocks [] pre).sum ∧ m.usedAfter = (liveBlocks [] (pre ++ body)).sum ∧
      IsMinOf m.minUsed (liveTrace (liveBlocks [] pre) body) ∧ IsMaxOf m.maxUsed (liveTrace (liveBlocks [] pre) body) := by
  obtain ⟨hr, hs, hf, hfit, hfew, hnest⟩ := ho
  obtain ⟨s1, sp, h1, hsp, -, h4⟩ := deltaAfter_ok hN hN32 pre body hfew hfit
  obtain ⟨st, hst, -⟩ := h4 hnest
  have hmm := C22_delta_extremes hN hN32 pre body hfew hfit hst hr hs hf
  have hlast : (liveBlocks [] (pre ++ body)).sum < 2 ^ 64 := by
    rw [liveBlocks_append]
    apply hf
    clear * -
    generalize liveBlocks [] pre = live
    induction body generalizing live with
    | nil => simp [liveTrace, liveBlocks]
    | cons e es ih => cases e <;> simp only [liveTrace, liveBlocks] <;> exact List.mem_cons_of_mem _ (ih _)
  have hcur := C21_delta_current_is_absolute hN hN32 pre body hfew hfit hst hr hs hlast
  have hr' := (respects_append pre body []).1 hr
  have hbefore : sp.metrics .currentUsedMemory = (liveBlocks [] pre).sum := by
    rw [hsp]
    exact C20_used_is_live p N pre hr'.1 (fun c hc => hs c (by rw [callsOf_append]; exact List.mem_append_left _ hc))
      (hf _ (liveTrace_head _ _))
  have hdelta : (s1.run p N body).delta p N sp = .ok (.ok st) := by
    unfold deltaAfter at hst
    rw [h1] at hst
    exact hst
  refine ⟨⟨sp.metrics .currentUsedMemory, st .currentUsedMemory, st .maxUsedMemory, st .minUsedMemory⟩, ?_, hbefore, hcur, ?_, ?_⟩
  · unfold AllocSys.pass
    rw [h1]
    simp only [hdelta]
    have e : AllocSys.new.run p N (pre ++ .savePoint :: body) = s1.run p N body := by
      rw [run_append_alloc]
      show (((AllocSys.new.run p N pre).savePoint p N).1).run p N body = _
      rw [h1]
    rw [e]
    rfl
  · exact hmm.1
  · exact hmm.2

/-- **C84** (from heap calls to the space verdict, exact arithmetic): two passes in one process, with anything in between. If `peak1`
and `peak2` are the most bytes that were live at an instant of the two passes, the space analyses of what the passes reported
accept exactly if the peaks above the bytes live when each pass began meet the limit. -/
theorem C84_space_verdict {p : Profile} {N : Nat} (hN : 0 < N) (hN32 : N < 2 ^ 32) (tol : ℝ) (ht : 0 < tol) (ht1 : tol < 1)
    (pre body1 mid body2 : List AllocEv) (h1 : OrdinaryPass p N pre body1)
    (h2 : OrdinaryPass p N (pre ++ .savePoint :: body1 ++ mid) body2) (base1 base2 peak1 peak2 : ℕ)
    (hb1 : (liveBlocks [] pre).sum = base1) (hb2 : (liveBlocks [] (pre ++ body1 ++ mid)).sum = base2)
    (hp1 : IsMaxOf peak1 (liveTrace (liveBlocks [] pre) body1))
    (hp2 : IsMaxOf peak2 (liveTrace (liveBlocks [] (pre ++ body1 ++ mid)) body2)) (hpos : base1 < peak1) (limit : Complexity) :
    ∃ s1 m1 s2 m2, (AllocSys.new.run p N pre).pass p N body1 = (s1, .ok m1) ∧ (s1.run p N mid).pass p N body2 = (s2, .ok m2) ∧
      (∀ n1 n2 : ℕ, 3 ≤ n1 → n1 ≤ n2 → ∃ v, analyseSpace (exactEnv tol) p ⟨n1, n2⟩ ⟨m1, m2⟩ = .ok v ∧
        (v.asU32 ≤ limit.asU32 ↔ MeetsLimit tol n1 n2 (peak1 - base1) (peak2 - base2) limit)) ∧
      (∀ a b rep : ℕ, 3 ≤ a → 3 ≤ b → ∃ v, analyseSpaceConstantSet (exactEnv tol) p ⟨a, b, rep⟩ ⟨m1, m2⟩ = .ok v ∧
        (v.asU32 ≤ limit.asU32 ↔ MeetsLimit tol (min a b : ℕ) (max a b : ℕ) (peak1 - base1) (peak2 - base2) limit)) ∧
      (∀ n : ℕ, 2 ≤ n → ∃ v, analyseSpaceSetResizing (exactEnv tol) p ⟨n⟩ ⟨m1, m2⟩ = .ok v ∧
        (v.asU32 ≤ limit.asU32 ↔ MeetsResizingLimit tol n (peak1 - base1) (peak2 - base2) limit)) := by
  obtain ⟨m1, e1, b1, -, -, x1⟩ := C84_pass_reports_live_bytes hN hN32 pre body1 h1
  obtain ⟨m2, e2, b2, -, -, x2⟩ := C84_pass_reports_live_bytes hN hN32 _ body2 h2
  have hl : liveBlocks [] (pre ++ .savePoint :: body1 ++ mid) = liveBlocks [] (pre ++ body1 ++ mid) := by
    simp only [liveBlocks_append, liveBlocks]
  have uniq : ∀ {a b : ℕ} {l : List ℕ}, IsMaxOf a l → IsMaxOf b l → a = b := fun ha hb => le_antisymm (hb.2 _ ha.1) (ha.2 _ hb.1)
  rw [hl] at b2 x2
  have q1 : m1.maxUsed = peak1 := uniq x1 hp1
  have q2 : m2.maxUsed = peak2 := uniq x2 hp2
  rw [hb1] at b1
  rw [hb2] at b2
  have hpb : base2 ≤ peak2 := by rw [← hb2]; exact hp2.2 _ (liveTrace_head _ _)
  rw [run_append_alloc] at e2
  refine ⟨_, m1, _, m2, e1, e2, ?_⟩
  have key := C82_space tol ht ht1 p m1 m2 (by omega) (by omega) limit
  have u1 : ((bytesUsed m1 : ℕ) : ℝ) = (peak1 : ℝ) - base1 := by
    unfold bytesUsed; rw [q1, b1, Nat.cast_sub hpos.le]
  have u2 : ((bytesUsed m2 : ℕ) : ℝ) = (peak2 : ℝ) - base2 := by
    unfold bytesUsed; rw [q2, b2, Nat.cast_sub hpb]
  rw [u1, u2] at key
  exact key

/-- **C84** (shipped arithmetic): as `C84_space_verdict` with the shipped tolerances and binary64 arithmetic, up to one part in 2^40 of
the second peak. -/
theorem C84_space_verdict_shipped {p : Profile} {N : Nat} (hN : 0 < N) (hN32 : N < 2 ^ 32) (log2 : F → F) (powi : F → ℕ → F)
    (powf : F → F → F) (H : AccurateLibrary log2 powi) (tol : ℝ) (ht : tol = 1 / 10 ∨ tol = 1 / 4)
    (pre body1 mid body2 : List AllocEv) (h1 : OrdinaryPass p N pre body1)
    (h2 : OrdinaryPass p N (pre ++ .savePoint :: body1 ++ mid) body2) (base1 base2 peak1 peak2 : ℕ)
    (hb1 : (liveBlocks [] pre).sum = base1) (hb2 : (liveBlocks [] (pre ++ body1 ++ mid)).sum = base2)
    (hp1 : IsMaxOf peak1 (liveTrace (liveBlocks [] pre) body1))
    (hp2 : IsMaxOf peak2 (liveTrace (liveBlocks [] (pre ++ body1 ++ mid)) body2)) (hpos : base1 < peak1) (limit : Complexity) :
    let E := shippedEnv log2 powi powf tol
    ∃ s1 m1 s2 m2, (AllocSys.new.run p N pre).pass p N body1 = (s1, .ok m1) ∧ (s1.run p N mid).pass p N body2 = (s2, .ok m2) ∧
      (∀ n1 n2 : ℕ, 3 ≤ n1 → n1 ≤ n2 → n2 ≤ 2 ^ 32 → Covered powf n1 n2 limit →
        ∃ v, analyseSpace E p ⟨n1, n2⟩ ⟨m1, m2⟩ = .ok v ∧
          AcceptsUpTo (MeetsLimit tol n1 n2 (peak1 - base1)) (peak2 - base2) v limit) ∧
      (∀ a b rep : ℕ, 3 ≤ a → 3 ≤ b → a ≤ 2 ^ 32 → b ≤ 2 ^ 32 → Covered powf (min a b) (max a b) limit →
        ∃ v, analyseSpaceConstantSet E p ⟨a, b, rep⟩ ⟨m1, m2⟩ = .ok v ∧
          AcceptsUpTo (MeetsLimit tol (min a b : ℕ) (max a b : ℕ) (peak1 - base1)) (peak2 - base2) v limit) ∧
      (∀ n : ℕ, 2 ≤ n → n ≤ 2 ^ 32 → ∃ v, analyseSpaceSetResizing E p ⟨n⟩ ⟨m1, m2⟩ = .ok v ∧
        AcceptsUpTo (MeetsResizingLimit tol n (peak1 - base1)) (peak2 - base2) v limit) := by
  intro E
  obtain ⟨m1, e1, b1, -, -, x1⟩ := C84_pass_reports_live_bytes hN hN32 pre body1 h1
  obtain ⟨m2, e2, b2, -, -, x2⟩ := C84_pass_reports_live_bytes hN hN32 _ body2 h2
  have hl : liveBlocks [] (pre ++ .savePoint :: body1 ++ mid) = liveBlocks [] (pre ++ body1 ++ mid) := by
    simp only [liveBlocks_append, liveBlocks]
  have uniq : ∀ {a b : ℕ} {l : List ℕ}, IsMaxOf a l → IsMaxOf b l → a = b := fun ha hb => le_antisymm (hb.2 _ ha.1) (ha.2 _ hb.1)
  rw [hl] at b2 x2
  have q1 : m1.maxUsed = peak1 := uniq x1 hp1
  have q2 : m2.maxUsed = peak2 := uniq x2 hp2
  rw [hb1] at b1
  rw [hb2] at b2
  have hpb : base2 ≤ peak2 := by rw [← hb2]; exact hp2.2 _ (liveTrace_head _ _)
  rw [run_append_alloc] at e2
  refine ⟨_, m1, _, m2, e1, e2, ?_⟩
  have key := C83_space log2 powi powf H tol ht p m1 m2 (by omega) (by omega) (by rw [q1]; exact Nat.le_pred_of_lt (h1.small _ hp1.1))
    (by rw [q2]; exact Nat.le_pred_of_lt (h2.small _ (by rw [hl]; exact hp2.1))) limit
  have u1 : ((bytesUsed m1 : ℕ) : ℝ) = (peak1 : ℝ) - base1 := by
    unfold bytesUsed; rw [q1, b1, Nat.cast_sub hpos.le]
  have u2 : ((bytesUsed m2 : ℕ) : ℝ) = (peak2 : ℝ) - base2 := by
    unfold bytesUsed; rw [q2, b2, Nat.cast_sub hpb]
  rw [u1, u2] at key
  exact key

/-! ## A concrete case -/

/-- a pass that needs 100 bytes and one that needs 200 bytes, with 8 bytes live all the time -/
def smallBody (n : ℕ) : List AllocEv := [.call (.alloc n true), .savePoint, .call (.dealloc n)]

theorem small_ordinary1 : OrdinaryPass .checked 1024 [.call (.alloc 8 true)] (smallBody 100) where
  respected := by decide
  granted := by decide
  small := by decide
  totals := by
    intro k hk
    refine ⟨?_, Or.inr ?_⟩ <;> (revert k; decide)
  few := by decide
  nested := by decide

theorem small_ordinary2 : OrdinaryPass .checked 1024 ([.call (.alloc 8 true)] ++ .savePoint :: smallBody 100 ++ []) (smallBody 200) where
  respected := by decide
  granted := by decide
  small := by decide
  totals := by
    intro k hk
    refine ⟨?_, Or.inr ?_⟩ <;> (revert k; decide)
  few := by decide
  nested := by decide

/-- twice the bytes for twice the elements: within O(n), not within O(log n) -/
example : ∃ s1 m1 s2 m2 v, (AllocSys.new.run .checked 1024 [.call (.alloc 8 true)]).pass .checked 1024 (smallBody 100) = (s1, .ok m1) ∧
    (s1.run .checked 1024 []).pass .checked 1024 (smallBody 200) = (s2, .ok m2) ∧
    analyseSpace (exactEnv (1 / 10)) .checked ⟨1000, 2000⟩ ⟨m1, m2⟩ = .ok v ∧ v.asU32 ≤ Complexity.oN.asU32 := by
  obtain ⟨s1, m1, s2, m2, e1, e2, h, -⟩ := C84_space_verdict (by norm_num) (by norm_num) (1 / 10) (by norm_num) (by norm_num) _ _ [] _
    small_ordinary1 small_ordinary2 8 8 108 208 (by decide) (by decide) (by unfold IsMaxOf; decide) (by unfold IsMaxOf; decide)
    (by norm_num) .oN
  obtain ⟨v, hv, hm⟩ := h 1000 2000 (by norm_num) (by norm_num)
  exact ⟨s1, m1, s2, m2, v, e1, e2, hv, hm.2 (by unfold MeetsLimit grows; norm_num)⟩

end BigO
