import Verif.Spec.ThreadedTestSpec
import Verif.Props.SpaceWeak
import Verif.Props.QuietMoments

/-!
# C117: what is measured of a pass of several threads, with the memory orderings written in the code
-/
namespace BigO

/-- what `t` does alone, being idle, is nothing -/
theorem idle_alone {s s' : AConc} {t : Nat} {as : List AAct} (hi : (s.th t).pc = .idle) (ha : Alone t as) (h : s.sched as = some s') : s' = s := by
  cases as with
  | nil => simp [AConc.sched] at h; exact h.symm
  | cons a as =>
    obtain ⟨i, ok, rfl⟩ := ha a (by simp)
    obtain ⟨s1, h1, -⟩ := sched_cons_some h
    simp [AConc.act, AConc.step, hi] at h1

/-- a measured pass reports the memory in use before and after, and the extremes the allocator holds when the work is done -/
theorem pass_reports_extremes (pr : Profile) (N : Nat) (s0 : Stats) (h0 : ∀ c, s0 c < 2 ^ 64) {t : Nat}
    {pre save mid req : List AAct} {s1 s2 s3 s4 : AConc}
    (h1 : (AConc.init pr N s0).sched pre = some s1) (q1 : s1.Quiescent) (f1 : s1.UpToDate t)
    (h2 : s1.sched (.save t :: save) = some s2) (a2 : Alone t save) (i2 : (s2.th t).pc = .idle)
    (h3 : s2.sched mid = some s3) (a3 : StartedBy [t] mid) (q3 : s3.Quiescent) (f3 : s3.UpToDate t)
    (h4 : s3.sched (.delta t s1.saved.length :: req) = some s4) (a4 : Alone t req) (i4 : (s4.th t).pc = .idle)
    (hroom : ∀ k ∈ deltaCtrs, (s1.loc k).last + ((callsIn mid).map (contribution k)).sum < 2 ^ 64) :
    ∃ m, s4.passSpace s1.saved.length = some m ∧ m.usedBefore = s1.used ∧ m.usedAfter = s4.used ∧
      UsedBetween s1 s4 m.minUsed ∧ UsedBetween s1 s4 m.maxUsed ∧ m.minUsed ≤ m.usedBefore ∧ m.minUsed ≤ m.usedAfter ∧
      m.usedBefore ≤ m.maxUsed ∧ m.usedAfter ≤ m.maxUsed ∧
      m.minUsed = (s3.loc .minUsedMemory).last ∧ m.maxUsed = (s3.loc .maxUsedMemory).last := by
  obtain ⟨m, e, b1, b2, -, g1, g2, g3, g4, g5, g6, -⟩ := C91_pass_reports pr N s0 h0 h1
    (⟨q1, f1, ⟨save, mid, req, s2, s3, h2, a2, i2, h3, a3, rfl, q3, f3, h4, a4, i4⟩, hroom⟩ : MeasuredPass t s1 s4 (callsIn mid))
  obtain ⟨used, mn, mx, hres, -, -, -, -, -, ⟨sp, hsp, -⟩, -, -, k1, k2⟩ :=
    pass_statistics pr N s0 h0 h1 q1 f1 h2 a2 i2 h3 a3 q3 f3 h4 a4 i4 hroom
  have e' := e
  unfold AConc.passSpace at e'
  rw [hres, List.getLast?_append, hsp] at e'
  simp only [List.getLast?_singleton, Option.some_or, spaceOfLists, Option.some.injEq] at e'
  refine ⟨m, e, b1, b2, g5, g6, g1, g2, g3, g4, ?_, ?_⟩
  · rw [← e', ← k1]; rfl
  · rw [← e', ← k2]; rfl

theorem Skips.append {a' a b' b : List AAct} (h : Skips a' a) (h' : Skips b' b) : Skips (a' ++ b') (a ++ b) := by
  induction h with
  | nil => exact h'
  | keep x _ ih => exact .keep x ih
  | skip t i ok _ ih => exact .skip t i ok ih

/-- **C117** (a pass): what is measured of a pass of several threads is the time it took, the memory in use before and after it, and extremes
that were really in use at some time of the pass and enclose what was in use whenever no call was under way: the bytes it is found to use
are bytes it could need. -/
theorem C117_pass {α : Type} {pr : Profile} {N : Nat} (hN : 0 < N) (hN32 : N < 2 ^ 32) (x : TPass) (r : α) (h : OrdinaryTPass pr N x) :
    ∃ m, meterThreads (.ok (x, r)) = .ok (⟨x.time, m⟩, r) ∧ PlausibleReading m ∧ m.usedBefore = x.start.core.used ∧
      m.usedAfter = x.finish.core.used ∧ x.Trough m.minUsed ∧ x.Peak m.maxUsed ∧ x.CouldNeed (bytesUsed m) := by
  obtain ⟨w1, acts, w4, calls, t, time⟩ := x
  obtain ⟨⟨pre, reach, hone⟩, ⟨q1, u1, ⟨save, mid, req, w2, w3, hacts, h2, a2, i2, h3, a3, hc, q3, u3, h4, a4, i4⟩, hroom⟩, few, clock,
    bytes⟩ := h
  simp only at reach hone q1 u1 hacts h2 a2 i2 h3 a3 hc q3 u3 h4 a4 i4 hroom few clock bytes
  subst hacts hc
  have h0 : ∀ c : Ctr, (fun _ : Ctr => 0) c < 2 ^ 64 := fun _ => by positivity
  have b3 : w3.begun < 2 ^ 32 := Nat.lt_of_le_of_lt (wbegun_sched _ w3 w4 h4) few
  have b2 : w2.begun < 2 ^ 32 := Nat.lt_of_le_of_lt (wbegun_sched _ w2 w3 h3) b3
  have b1 : w1.begun < 2 ^ 32 := Nat.lt_of_le_of_lt (wbegun_sched _ w1 w2 h2) b2
  obtain ⟨d1, L1, P1, pre', m1, o1, -, r1, -⟩ := wksim_sched pre _ (wkSim_init hN hN32 fun _ => 0) hone reach b1
  obtain ⟨d2, L2, P2, save', m2, o2, k2, r2, -⟩ := wksim_sched (.save t :: save) _ m1 o1 h2 b2
  obtain ⟨d3, L3, P3, mid', m3, o3, k3, r3, -⟩ := wksim_sched mid _ m2 o2 h3 b3
  obtain ⟨d4, L4, P4, req', m4, -, k4, r4, -⟩ := wksim_sched (.delta t w1.core.saved.length :: req) [] m3
    (by rw [List.append_nil]; exact o3) h4 few
  obtain ⟨save2, rfl, k2'⟩ := skips_cons k2 (by simp)
  obtain ⟨req2, rfl, k4'⟩ := skips_cons k4 (by simp)
  have S1 : SameStatistics _ w1.core := sameStatistics m1.sim
  have S2 : SameStatistics _ w2.core := sameStatistics m2.sim
  have S3 : SameStatistics _ w3.core := sameStatistics m3.sim
  have S4 : SameStatistics _ w4.core := sameStatistics m4.sim
  have qa : (w1.core.over L1 P1).Quiescent := fun u => (S1.idle u).2 (q1 u)
  obtain ⟨m, e, c1, c2, c3, c4, c5, c6, c7, c8, e1, e2⟩ := pass_reports_extremes pr N _ h0 r1 qa u1
    r2 (k2'.alone a2) ((S2.idle t).2 i2) r3 (k3.startedBy a3) (fun u => (S3.idle u).2 (q3 u)) u3 r4 (k4'.alone a4) ((S4.idle t).2 i4)
    (by rw [k3.calls]; exact hroom)
  have F2 := (save_alone (show (w1.core.over L1 P1).UpToDate t from u1) (k2'.alone a2) r2 ((S2.idle t).2 i2)).1
  have u12 : w2.core.used = w1.core.used :=
    congrArg Loc.last (F2.other_locs .currentUsedMemory (by simp) (by simp) : w2.core.loc .currentUsedMemory = w1.core.loc .currentUsedMemory)
  have c1' : m.usedBefore = w1.core.used := c1
  have c2' : m.usedAfter = w4.core.used := c2
  have quiet : ∀ w, TPass.QuietAt ⟨w1, (.save t :: save) ++ (mid ++ (.delta t w1.core.saved.length :: req)), w4, callsIn mid, t, time⟩ w →
      m.minUsed ≤ w.core.used ∧ w.core.used ≤ m.maxUsed := by
    rintro w ⟨bef, aft, hsplit, hb, ha, hq⟩
    simp only at hsplit hb ha
    -- within the work
    have inside : ∀ g1 g2, mid = g1 ++ g2 → w2.sched g1 = some w → m.minUsed ≤ w.core.used ∧ w.core.used ≤ m.maxUsed := by
      rintro g1 g2 rfl hg1
      obtain ⟨w', hg1', hg2⟩ := wsched_append.1 h3
      rw [hg1] at hg1'; injection hg1' with hg1'; subst hg1'
      have bw : w.begun < 2 ^ 32 := Nat.lt_of_le_of_lt (wbegun_sched _ w w3 hg2) b3
      rw [List.append_assoc] at o2
      obtain ⟨dw, Lw, Pw, g1', mw, ow, kw, rw', -⟩ := wksim_sched g1 _ m2 o2 hg1 bw
      obtain ⟨dz, Lz, Pz, g2', mz, -, kz, rz, -⟩ := wksim_sched g2 _ mw ow hg2 b3
      have Sw : SameStatistics _ w.core := sameStatistics mw.sim
      have := quiet_enclosed r1 qa u1 r2 (k2'.alone a2) ((S2.idle t).2 i2) rw' rz (m1 := g1') (m2 := g2')
        ((kw.append kz).startedBy a3) (fun u => (Sw.idle u).2 (hq u))
      rw [e1, e2]
      exact this
    rcases List.append_eq_append_iff.1 hsplit with ⟨sv, e3, e4⟩ | ⟨sv, e3, e4⟩
    · rcases List.append_eq_append_iff.1 e4 with ⟨rq, e5, e6⟩ | ⟨rq, e5, e6⟩
      · -- while the statistics are requested
        subst e5 e3
        have hb2 := wsched_rest h2 hb
        have hb3 := wsched_rest h3 hb2
        cases rq with
        | nil => exact inside mid [] (by simp) (by simpa using hb2)
        | cons a rq =>
          injection e6 with e6 e7
          subst e6 e7
          have bw : w.begun < 2 ^ 32 := Nat.lt_of_le_of_lt (wbegun_sched _ w w4 ha) few
          obtain ⟨dw, Lw, Pw, as1, mw, ow, kw, rw', -⟩ := wksim_sched (.delta t w1.core.saved.length :: rq) aft m3 o3 hb3 bw
          obtain ⟨dz, Lz, Pz, as2, mz, -, kz, rz, -⟩ := wksim_sched aft [] mw (by rw [List.append_nil]; exact ow) ha few
          have Sw : SameStatistics _ w.core := sameStatistics mw.sim
          have := idle_alone ((Sw.idle t).2 (hq t)) (kz.alone fun a h => a4 a (by simp [h])) rz
          have hl : w4.core.used = w.core.used := (congrArg AConc.used this :)
          rw [← hl, ← c2']
          exact ⟨c6, c8⟩
      · subst e3 e5
        exact inside sv rq rfl (wsched_rest h2 hb)
    · -- while the save point is taken
      cases bef with
      | nil =>
        simp [AWeak.sched] at hb
        subst hb
        rw [← c1']
        exact ⟨c5, c7⟩
      | cons a sv1 =>
        injection e3 with e3 e5
        subst e3 e5
        obtain ⟨w', hb', hsv⟩ := wsched_append.1 (show w1.sched ((.save t :: sv1) ++ sv) = some w2 from h2)
        rw [hb] at hb'; injection hb' with hb'; subst hb'
        have bw : w.begun < 2 ^ 32 := Nat.lt_of_le_of_lt (wbegun_sched _ w w2 hsv) b2
        obtain ⟨dw, Lw, Pw, as1, mw, ow, kw, rw', -⟩ := wksim_sched (.save t :: sv1) (sv ++ (mid ++ (.delta t w1.core.saved.length :: req))) m1
          (by simpa using o1) hb bw
        obtain ⟨dz, Lz, Pz, as2, mz, -, kz, rz, -⟩ := wksim_sched sv _ mw ow hsv b2
        have Sw : SameStatistics _ w.core := sameStatistics mw.sim
        have := idle_alone ((Sw.idle t).2 (hq t)) (kz.alone fun a h => a2 a (by simp [h])) rz
        have hl : w2.core.used = w.core.used := (congrArg AConc.used this :)
        rw [← hl, u12, ← c1']
        exact ⟨c5, c7⟩
  exact ⟨m, by simp only [meterThreads]; rw [show w4.core.passSpace w1.core.saved.length = some m from e], ⟨c5, c7, c8, bytes _ c4⟩, c1, c2, ⟨c3, fun w hw => (quiet w hw).1⟩,
    ⟨c4, fun w hw => (quiet w hw).2⟩, ⟨m.maxUsed, ⟨c4, fun w hw => (quiet w hw).2⟩, by unfold bytesUsed; rw [c1']⟩⟩

end BigO
