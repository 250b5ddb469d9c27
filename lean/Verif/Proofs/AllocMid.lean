import Verif.Proofs.AllocRebase

/-!
# Between a save point and the request for its statistics
-/
namespace BigO

/-- since the state `s2`, the values numbered below `off` being older: only the threads `A` have done anything -/
structure MidInv (off : Ctr → Nat) (s2 : AConc) (A : List Nat) (s : AConc) : Prop where
  plain : ∀ u, BigO.plain (s.th u).pc
  views : ∀ u c, (s.th u).view c ≤ (s.loc c).top
  tops : ∀ c, off c ≤ (s.loc c).top
  awake : ∀ u ∈ A, ∀ c, off c ≤ (s.th u).view c
  holder : ∀ c, ∃ u ∈ A, (s.th u).view c = (s.loc c).top
  later : LocLater s2 s
  slots : s.slots = s2.slots
  saved : s.saved = s2.saved
  results : s.results = s2.results
  size : s.size = s2.size
  profile : s.profile = s2.profile

theorem rebase_learn (off st) (s : AConc) (t u) :
    rebase off st (s.learn t (s.th u).view) = (rebase off st s).learn t ((rebase off st s).th u).view := by
  refine aconc_eq rfl rfl rfl ?_ rfl rfl rfl rfl
  funext w
  refine th_eq ?_ ?_
  · rw [learn_pc]
    show ((s.learn t (s.th u).view).th w).pc = (s.th w).pc
    rw [learn_pc]
  · funext d
    rw [learn_view]
    show ((s.learn t (s.th u).view).th w).view d - off d = _
    rw [learn_view]
    split
    · show Nat.max _ _ - off d = Nat.max (_ - off d) (_ - off d)
      simp only [Nat.max_def]
      split <;> split <;> omega
    · rfl

theorem sched_cons_some {s s' : AConc} {a as} (h : s.sched (a :: as) = some s') : ∃ s1, s.act a = some s1 ∧ s1.sched as = some s' := by
  simp only [AConc.sched] at h
  split at h
  · rename_i s1 h1; exact ⟨s1, h1, h⟩
  · simp at h

theorem sched_cons_of {s s1 s' : AConc} {a as} (h1 : s.act a = some s1) (h2 : s1.sched as = some s') : s.sched (a :: as) = some s' := by
  simp only [AConc.sched, h1]; exact h2

theorem sched_append {s s' : AConc} {as bs} : s.sched (as ++ bs) = some s' ↔ ∃ s1, s.sched as = some s1 ∧ s1.sched bs = some s' := by
  induction as generalizing s with
  | nil => simp [AConc.sched]
  | cons a as ih =>
    constructor
    · intro h
      obtain ⟨s1, h1, h2⟩ := sched_cons_some h
      obtain ⟨s3, h3, h4⟩ := ih.1 h2
      exact ⟨s3, sched_cons_of h1 h3, h4⟩
    · rintro ⟨s3, h3, h4⟩
      obtain ⟨s1, h1, h2⟩ := sched_cons_some h3
      exact sched_cons_of h1 (ih.2 ⟨s3, h2, h4⟩)

theorem MidInv.step {off : Ctr → Nat} {s2 : AConc} {A : List Nat} {s s' : AConc} {u i ok} (h : MidInv off s2 A s) (hu : u ∈ A)
    (hs : s.step u i ok = some s') : MidInv off s2 A s' := by
  have P := plain_step (h.plain u) hs
  have hgv : ∀ w c, (s.th w).view c ≤ (s'.th w).view c := by
    intro w c
    by_cases hw : w = u
    · subst hw; exact P.grew c (h.views w c)
    · rw [P.others w hw]
  have hbv : ∀ w c, (s'.th w).view c ≤ (s'.loc c).top := by
    intro w c
    by_cases hw : w = u
    · subst hw; exact P.bound c (h.views w c)
    · rw [P.others w hw]; exact (h.views w c).trans (P.later c).1
  refine ⟨?_, hbv, fun c => (h.tops c).trans (P.later c).1, fun w hw c => (h.awake w hw c).trans (hgv w c), ?_, h.later.trans P.later,
    P.slots.trans h.slots, P.saved.trans h.saved, P.results.trans h.results, P.size.trans h.size, P.profile.trans h.profile⟩
  · intro w
    by_cases hw : w = u
    · subst hw; exact P.dest
    · rw [P.others w hw]; exact h.plain w
  · intro c
    rcases P.wrote c with he | he
    · obtain ⟨w, hw, e⟩ := h.holder c
      refine ⟨w, hw, ?_⟩
      have h1 := hgv w c
      have h2 := hbv w c
      omega
    · exact ⟨u, hu, he⟩

theorem MidInv.call {off : Ctr → Nat} {s2 : AConc} {A : List Nat} {s : AConc} {u c} (h : MidInv off s2 A s) :
    MidInv off s2 A (({ s with started := s.started ++ [c] } : AConc).goto u (toRmw (rmws c))) := by
  refine ⟨?_, ?_, h.tops, ?_, ?_, h.later, h.slots, h.saved, h.results, h.size, h.profile⟩
  · intro w; rw [goto_pc]; split
    · exact plain_toRmw _
    · exact h.plain w
  · intro w c; rw [goto_view]; exact h.views w c
  · intro w hw c; rw [goto_view]; exact h.awake w hw c
  · intro c
    obtain ⟨w, hw, e⟩ := h.holder c
    exact ⟨w, hw, by rw [goto_view]; exact e⟩

theorem MidInv.sync {off : Ctr → Nat} {s2 : AConc} {A : List Nat} {s : AConc} {u v} (h : MidInv off s2 A s) (hv : v ∈ A) :
    MidInv off s2 (u :: A) (s.learn u (s.th v).view) := by
  have hgv : ∀ w c, (s.th w).view c ≤ ((s.learn u (s.th v).view).th w).view c := by
    intro w c; rw [learn_view]; split
    · rename_i e; subst e; exact Nat.le_max_left _ _
    · exact Nat.le_refl _
  have hbv : ∀ w c, ((s.learn u (s.th v).view).th w).view c ≤ (s.loc c).top := by
    intro w c; rw [learn_view]; split
    · exact Nat.max_le.2 ⟨h.views u c, h.views v c⟩
    · exact h.views w c
  refine ⟨?_, hbv, h.tops, ?_, ?_, h.later, h.slots, h.saved, h.results, h.size, h.profile⟩
  · intro w; rw [learn_pc]; exact h.plain w
  · intro w hw c
    rcases List.mem_cons.1 hw with rfl | hw
    · rw [learn_view, if_pos rfl]; exact (h.awake v hv c).trans (Nat.le_max_right _ _)
    · exact (h.awake w hw c).trans (hgv w c)
  · intro c
    obtain ⟨w, hw, e⟩ := h.holder c
    refine ⟨w, by simp [hw], ?_⟩
    have h1 := hgv w c
    have h2 := hbv w c
    show _ = (s.loc c).top
    omega

/-- the invariant holds along such a schedule, and the same can happen without what is older -/
theorem mid_sched {off : Ctr → Nat} {s2 : AConc} : ∀ (as : List AAct) (A : List Nat) (s s' : AConc), StartedBy A as → MidInv off s2 A s →
    s.sched as = some s' →
    (∃ B, MidInv off s2 B s' ∧ ∀ u ∈ B, u ∈ A ∨ ∃ a ∈ as, a.tid = u) ∧
    ∀ st, ∃ as' st', NoSave as' ∧ (rebase off st s).sched as' = some (rebase off st' s') := by
  intro as
  induction as with
  | nil =>
    intro A s s' _ h hs
    simp [AConc.sched] at hs; subst hs
    exact ⟨⟨A, h, fun u hu => Or.inl hu⟩, fun st => ⟨[], st, by simp [NoSave], rfl⟩⟩
  | cons a as ih =>
    intro A s s' hA h hs
    obtain ⟨s1, h1, h2⟩ := sched_cons_some hs
    cases a with
    | save t => exact hA.elim
    | delta t k => exact hA.elim
    | call u c =>
      obtain ⟨hu, hA⟩ := hA
      simp only [AConc.act] at h1
      split at h1
      · rename_i hc
        simp at h1; subst h1
        obtain ⟨⟨B, hB, hsub⟩, hsim⟩ := ih A _ s' hA h.call h2
        refine ⟨⟨B, hB, fun w hw => ?_⟩, fun st => ?_⟩
        · rcases hsub w hw with h | ⟨b, hb, e⟩
          · exact Or.inl h
          · exact Or.inr ⟨b, by simp [hb], e⟩
        · obtain ⟨as', st', hn, hsc⟩ := hsim (st ++ [c])
          refine ⟨.call u c :: as', st', ?_, sched_cons_of ?_ hsc⟩
          · intro t ht; simp at ht; exact hn t ht
          · simp only [AConc.act]
            rw [if_pos ⟨hc.1, hc.2⟩, rebase_goto]
            rfl
      · simp at h1
    | sync u v =>
      obtain ⟨hv, hA⟩ := hA
      simp only [AConc.act] at h1
      split at h1
      · rename_i hc
        simp at h1; subst h1
        obtain ⟨⟨B, hB, hsub⟩, hsim⟩ := ih (u :: A) _ s' hA (h.sync hv) h2
        refine ⟨⟨B, hB, fun w hw => ?_⟩, fun st => ?_⟩
        · rcases hsub w hw with h | ⟨b, hb, e⟩
          · rcases List.mem_cons.1 h with rfl | h
            · exact Or.inr ⟨.sync w v, by simp, rfl⟩
            · exact Or.inl h
          · exact Or.inr ⟨b, by simp [hb], e⟩
        · obtain ⟨as', st', hn, hsc⟩ := hsim st
          refine ⟨.sync u v :: as', st', ?_, sched_cons_of ?_ hsc⟩
          · intro t ht; simp at ht; exact hn t ht
          · simp only [AConc.act]
            rw [if_pos (show ((rebase off st s).th u).pc = .idle from hc), rebase_learn]
      · simp at h1
    | step u i ok =>
      obtain ⟨hu, hA⟩ := hA
      have h1' : s.step u i ok = some s1 := h1
      obtain ⟨⟨B, hB, hsub⟩, hsim⟩ := ih A _ s' hA (h.step hu h1') h2
      refine ⟨⟨B, hB, fun w hw => ?_⟩, fun st => ?_⟩
      · rcases hsub w hw with h | ⟨b, hb, e⟩
        · exact Or.inl h
        · exact Or.inr ⟨b, by simp [hb], e⟩
      · obtain ⟨j, hj⟩ := rebase_step st (h.plain u) (h.awake u hu) h.tops h1'
        obtain ⟨as', st', hn, hsc⟩ := hsim st
        refine ⟨.step u j ok :: as', st', ?_, sched_cons_of hj hsc⟩
        intro t ht; simp at ht; exact hn t ht

/-- a thread that has joined others has seen what they had -/
theorem joins {t : Nat} : ∀ (us : List Nat) (s s' : AConc), s.sched (us.map (AAct.sync t)) = some s' →
    s'.loc = s.loc ∧ (∀ c, (s.th t).view c ≤ (s'.th t).view c) ∧ ∀ u ∈ us, ∀ c, (s.th u).view c ≤ (s'.th t).view c := by
  intro us
  induction us with
  | nil => intro s s' h; simp [AConc.sched] at h; subst h; simp
  | cons u us ih =>
    intro s s' h
    simp only [List.map_cons] at h
    obtain ⟨s1, h1, h2⟩ := sched_cons_some h
    simp only [AConc.act] at h1
    split at h1
    · simp at h1; subst h1
      obtain ⟨a, b, d⟩ := ih _ s' h2
      have hg : ∀ w c, (s.th w).view c ≤ ((s.learn t (s.th u).view).th w).view c := by
        intro w c; rw [learn_view]; split
        · rename_i e; subst e; exact Nat.le_max_left _ _
        · exact Nat.le_refl _
      refine ⟨a, fun c => (hg t c).trans (b c), ?_⟩
      intro w hw c
      rcases List.mem_cons.1 hw with rfl | hw
      · refine le_trans ?_ (b c)
        rw [learn_view, if_pos rfl]; exact Nat.le_max_right _ _
      · exact (hg w c).trans (d w hw c)
    · simp at h1

theorem startedBy_append_left : ∀ (as bs : List AAct) (A : List Nat), StartedBy A (as ++ bs) → StartedBy A as
  | [], _, _, _ => trivial
  | .call _ _ :: as, bs, A, h => ⟨h.1, startedBy_append_left as bs A h.2⟩
  | .step _ _ _ :: as, bs, A, h => ⟨h.1, startedBy_append_left as bs A h.2⟩
  | .sync u _ :: as, bs, A, h => ⟨h.1, startedBy_append_left as bs (u :: A) h.2⟩
  | .save _ :: _, _, _, h => h
  | .delta _ _ :: _, _, _, h => h

end BigO
