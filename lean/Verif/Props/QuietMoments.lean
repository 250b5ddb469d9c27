import Verif.Props.AllocPass
import Verif.Props.SpaceThreads

/-!
# Whenever no heap call is under way during a pass, the memory in use is within the extremes that are reported
-/
namespace BigO

/-- neither a save point nor a request -/
def HeapOnly (as : List AAct) : Prop := ∀ a ∈ as, (∀ t, a ≠ .save t) ∧ ∀ t k, a ≠ .delta t k

theorem StartedBy.heapOnly : ∀ {as : List AAct} {A : List Nat}, StartedBy A as → HeapOnly as
  | [], _, _ => by intro a ha; cases ha
  | .call u c :: as, A, h => by
    intro a ha
    rcases List.mem_cons.1 ha with rfl | ha
    · exact ⟨fun _ => by simp, fun _ _ => by simp⟩
    · exact h.2.heapOnly a ha
  | .step u i ok :: as, A, h => by
    intro a ha
    rcases List.mem_cons.1 ha with rfl | ha
    · exact ⟨fun _ => by simp, fun _ _ => by simp⟩
    · exact h.2.heapOnly a ha
  | .sync u v :: as, A, h => by
    intro a ha
    rcases List.mem_cons.1 ha with rfl | ha
    · exact ⟨fun _ => by simp, fun _ _ => by simp⟩
    · exact h.2.heapOnly a ha
  | .save _ :: _, _, h => h.elim
  | .delta _ _ :: _, _, h => h.elim

theorem StartedBy.of_append : ∀ {as bs : List AAct} {A : List Nat}, StartedBy A (as ++ bs) → StartedBy A as
  | [], _, _, _ => trivial
  | .call _ _ :: _, _, _, h => ⟨h.1, StartedBy.of_append h.2⟩
  | .step _ _ _ :: _, _, _, h => ⟨h.1, StartedBy.of_append h.2⟩
  | .sync _ _ :: _, _, _, h => ⟨h.1, StartedBy.of_append h.2⟩
  | .save _ :: _, _, _, h => h.elim
  | .delta _ _ :: _, _, _, h => h.elim

/-- heap calls only add to the history of the counters -/
theorem plain_sched : ∀ (as : List AAct) (s s' : AConc), HeapOnly as → (∀ u, plain (s.th u).pc) → s.sched as = some s' → LocLater s s' := by
  intro as
  induction as with
  | nil => intro s s' _ _ h; simp [AConc.sched] at h; subst h; exact .refl rfl
  | cons a as ih =>
    intro s s' ho hp h
    obtain ⟨s1, h1, h2⟩ := sched_cons_some h
    have ho' : HeapOnly as := fun b hb => ho b (by simp [hb])
    have ha := ho a (by simp)
    cases a with
    | save t => exact (ha.1 t rfl).elim
    | delta t k => exact (ha.2 t k rfl).elim
    | call u c =>
      simp only [AConc.act] at h1
      split at h1
      · simp at h1; subst h1
        have := ih _ s' ho' (fun w => by rw [goto_pc]; split <;> [exact plain_toRmw _; exact hp w]) h2
        exact fun c => this c
      · simp at h1
    | sync u v =>
      simp only [AConc.act] at h1
      split at h1
      · simp at h1; subst h1
        have := ih _ s' ho' (fun w => by rw [learn_pc]; exact hp w) h2
        exact fun c => this c
      · simp at h1
    | step u i ok =>
      have P := plain_step (hp u) h1
      refine P.later.trans (ih s1 s' ho' (fun w => ?_) h2)
      by_cases hw : w = u
      · subst hw; exact P.dest
      · rw [P.others w hw]; exact hp w

/-- during a pass, whenever no heap call is under way, the memory in use is within the extremes the allocator holds when the work is done -/
theorem quiet_enclosed {t : Nat} {save m1 m2 : List AAct} {s1 s2 sM s3 : AConc} {pr : Profile} {N : Nat} {s0 : Stats} {pre : List AAct}
    (h1 : (AConc.init pr N s0).sched pre = some s1) (q1 : s1.Quiescent) (f1 : s1.UpToDate t)
    (h2 : s1.sched (.save t :: save) = some s2) (a2 : Alone t save) (i2 : (s2.th t).pc = .idle)
    (hM : s2.sched m1 = some sM) (hMs : sM.sched m2 = some s3) (a3 : StartedBy [t] (m1 ++ m2)) (qM : sM.Quiescent) :
    (s3.loc .minUsedMemory).last ≤ sM.used ∧ sM.used ≤ (s3.loc .maxUsedMemory).last := by
  obtain ⟨F2, hsv, hmin2, hmax2⟩ := save_alone f1 a2 h2 i2
  have h12 : (AConc.init pr N s0).sched (pre ++ .save t :: save) = some s2 := sched_append.2 ⟨s1, h1, h2⟩
  have V2 := view_sched h12
  have q2 : s2.Quiescent := by
    intro u
    by_cases hu : u = t
    · subst hu; exact i2
    · rw [F2.others u hu]; exact q1 u
  have hcur : s2.loc .currentUsedMemory = s1.loc .currentUsedMemory := F2.other_locs _ (by simp) (by simp)
  have hM0 : MidInv (fun c => (s2.loc c).top) s2 [t] s2 := by
    refine ⟨fun u => by rw [q2 u]; trivial, V2.views, fun c => Nat.le_refl _, ?_, fun c => ⟨t, by simp, F2.fresh c⟩, LocLater.refl rfl, rfl, rfl,
      rfl, rfl, rfl⟩
    intro u hu c
    simp only [List.mem_singleton] at hu
    subst hu
    exact (F2.fresh c).ge
  have hS : ((fun c => (s2.loc c).last) Ctr.minUsedMemory ≤ (fun c => (s2.loc c).last) .currentUsedMemory) ∧
      ((fun c => (s2.loc c).last) Ctr.currentUsedMemory ≤ (fun c => (s2.loc c).last) .maxUsedMemory) := by
    simp only [hmin2, hmax2, hcur]; exact ⟨Nat.le_refl _, Nat.le_refl _⟩
  -- at the quiet moment
  obtain ⟨⟨B, hB, _⟩, hsim⟩ := mid_sched m1 [t] s2 sM a3.of_append hM0 hM
  obtain ⟨as', st', hns, hre⟩ := hsim []
  rw [rebase_init q2 V2.views] at hre
  have hqM : (rebase (fun c => (s2.loc c).top) st' sM).Quiescent := fun u => qM u
  have E1 := C26_extremes_enclose _ _ _ hS.1 hS.2 hns hre hqM
  have hl : ∀ c, ((rebase (fun c => (s2.loc c).top) st' sM).loc c).last = (sM.loc c).last := fun c => reLoc_last (hB.tops c)
  simp only [hl] at E1
  -- at the end
  have h23 : s2.sched (m1 ++ m2) = some s3 := sched_append.2 ⟨sM, hM, hMs⟩
  obtain ⟨⟨B3, hB3, _⟩, hsim3⟩ := mid_sched (m1 ++ m2) [t] s2 s3 a3 hM0 h23
  obtain ⟨as3, st3, hns3, hre3⟩ := hsim3 []
  rw [rebase_init q2 V2.views] at hre3
  have E2 := C26_extremes_widen _ _ _ hS.1 hS.2 hns3 hre3
  have hl3 : ∀ c, ((rebase (fun c => (s2.loc c).top) st3 s3).loc c).last = (s3.loc c).last := fun c => reLoc_last (hB3.tops c)
  simp only [hl3] at E2
  have hlater : LocLater sM s3 := plain_sched m2 sM s3 (fun a ha => a3.heapOnly a (by simp [ha])) hB.plain hMs
  have val : ∀ c, ((rebase (fun c => (s2.loc c).top) st3 s3).loc c).val ((sM.loc c).top - (s2.loc c).top) = (sM.loc c).last := by
    intro c
    have := reLoc_val (o := (s2.loc c).top) (l := s3.loc c) (hB.tops c) (hlater c).1
    exact this.trans ((hlater c).2 _ (Nat.le_refl _))
  have top : ∀ c, (sM.loc c).top - (s2.loc c).top ≤ ((rebase (fun c => (s2.loc c).top) st3 s3).loc c).top := by
    intro c
    show _ ≤ (s3.loc c).top - (s2.loc c).top
    have := (hlater c).1
    omega
  have W1 := E2.1 _ (top _)
  have W2 := E2.2 _ (top _)
  rw [val] at W1 W2
  exact ⟨W1.trans E1.1, E1.2.trans W2⟩

end BigO
