import Verif.Proofs.AllocMid

/-!
# A save point, and a request for statistics, taken by a thread while no other does anything
-/
namespace BigO

/-- what does not change while thread `t` is alone in a save point: everything but the extremes, the ring and its own place -/
structure SaveFrame (s1 : AConc) (t : Nat) (s : AConc) : Prop where
  others : ∀ u, u ≠ t → s.th u = s1.th u
  fresh : s.UpToDate t
  other_locs : ∀ c, c ≠ .minUsedMemory → c ≠ .maxUsedMemory → s.loc c = s1.loc c
  later : LocLater s1 s
  results : s.results = s1.results
  size : s.size = s1.size
  profile : s.profile = s1.profile

theorem SaveFrame.moved {s1 s : AConc} {t pc} (h : SaveFrame s1 t s) : SaveFrame s1 t (s.goto t pc) :=
  ⟨fun u hu => (goto_other hu).trans (h.others u hu), fun c => by rw [goto_view]; exact h.fresh c, h.other_locs, h.later, h.results, h.size,
    h.profile⟩

/-- up to date: a load gives the newest value and changes nothing else -/
theorem fresh_load {s s' : AConc} {t : Nat} {c : Ctr} {i : Nat} {k : Nat → APc} (hf : s.UpToDate t) (h : s.load t c i k = some s') :
    s' = s.goto t (k (s.loc c).last) := by
  obtain ⟨rfl, h1, h2⟩ := load_some h
  have hi : i = (s.loc c).top := by have := hf c; omega
  subst hi
  have hs : s.see t c (s.loc c).top = s := by
    refine aconc_eq rfl rfl rfl ?_ rfl rfl rfl rfl
    funext u
    refine th_eq (by simp) ?_
    funext d
    rw [see_view]
    split
    · rename_i e; obtain ⟨rfl, rfl⟩ := e; exact (hf d).symm
    · rfl
  rw [hs]; rfl

theorem fresh_see {s : AConc} {t : Nat} {c : Ctr} {i : Nat} (hf : s.UpToDate t) (h : s.readable t c i = true) :
    s.see t c i = s ∧ i = (s.loc c).top := by
  simp only [AConc.readable, Bool.and_eq_true, decide_eq_true_eq] at h
  have hi : i = (s.loc c).top := by have := hf c; omega
  subst hi
  refine ⟨?_, rfl⟩
  refine aconc_eq rfl rfl rfl ?_ rfl rfl rfl rfl
  funext u
  refine th_eq (by simp) ?_
  funext d
  rw [see_view]
  split
  · rename_i e; obtain ⟨rfl, rfl⟩ := e; exact (hf d).symm
  · rfl

theorem SaveFrame.wrote {s1 s : AConc} {t : Nat} {c : Ctr} {v pc} (h : SaveFrame s1 t s) (hc : c = .minUsedMemory ∨ c = .maxUsedMemory) :
    SaveFrame s1 t ((s.write t c v).goto t pc) := by
  refine ⟨fun u hu => (th_write hu).trans (h.others u hu), ?_, ?_, h.later.trans (locLater_write s t c v pc), h.results, h.size, h.profile⟩
  · intro d
    rw [goto_view, write_view, goto_loc, write_loc]
    by_cases hd : d = c
    · subst hd; simp
    · rw [if_neg (fun e => hd e.2), if_neg hd]; exact h.fresh d
  · intro d h1 h2
    rw [goto_loc, write_loc, if_neg (by rintro rfl; exact hc.elim h1 h2)]
    exact h.other_locs d h1 h2

/-- where thread `t` is in the save point, what it holds, and what it has done so far -/
def saveAt (s1 s : AConc) (t : Nat) : APc → Prop
  | .spMin => s.slots = s1.slots ∧ s.saved = s1.saved
  | .spMax _ => s.slots = s1.slots ∧ s.saved = s1.saved
  | .spEnqueue _ _ => s.slots = s1.slots ∧ s.saved = s1.saved
  | .spConsumer => s.slots.length = s1.slots.length + 1 ∧ s.saved = s1.saved
  | .spCur1 hd => s.slots.length = s1.slots.length + 1 ∧ hd = s.slots.length ∧ s.saved = s1.saved
  | .spStoreMin hd cur => s.slots.length = s1.slots.length + 1 ∧ hd = s.slots.length ∧ s.saved = s1.saved ∧
      cur = (s1.loc .currentUsedMemory).last
  | .spCur2 hd => s.slots.length = s1.slots.length + 1 ∧ hd = s.slots.length ∧ s.saved = s1.saved ∧
      (s.loc .minUsedMemory).last = (s1.loc .currentUsedMemory).last
  | .spStoreMax hd cur => s.slots.length = s1.slots.length + 1 ∧ hd = s.slots.length ∧ s.saved = s1.saved ∧
      (s.loc .minUsedMemory).last = (s1.loc .currentUsedMemory).last ∧ cur = (s1.loc .currentUsedMemory).last
  | .spLoad hd rest got => s.slots.length = s1.slots.length + 1 ∧ hd = s.slots.length ∧ s.saved = s1.saved ∧
      (s.loc .minUsedMemory).last = (s1.loc .currentUsedMemory).last ∧ (s.loc .maxUsedMemory).last = (s1.loc .currentUsedMemory).last ∧
      ∃ done, allCtrs = done ++ rest ∧ got = done.map fun c => (s.loc c).last
  | .idle => s.saved = s1.saved ++ [⟨allCtrs.map fun c => (s.loc c).last, s.slots.length, (s.th t).view⟩] ∧
      (s.loc .minUsedMemory).last = (s1.loc .currentUsedMemory).last ∧ (s.loc .maxUsedMemory).last = (s1.loc .currentUsedMemory).last
  | _ => False

theorem save_step {s1 s s' : AConc} {t i ok} (hf : SaveFrame s1 t s) (h : saveAt s1 s t (s.th t).pc)
    (hst : s.step t i ok = some s') : SaveFrame s1 t s' ∧ saveAt s1 s' t (s'.th t).pc := by
  have hcur : s.loc .currentUsedMemory = s1.loc .currentUsedMemory := hf.other_locs _ (by simp) (by simp)
  unfold AConc.step at hst
  split at hst <;> (rename_i hpc; rw [hpc] at h)
  · simp at hst
  · exact h.elim
  · exact h.elim
  · exact h.elim
  · exact h.elim
  · exact h.elim
  · exact h.elim
  · exact h.elim
  · have e := fresh_load hf.fresh hst; subst e
    refine ⟨hf.moved, ?_⟩; rw [goto_pc, if_pos rfl]; exact h
  · have e := fresh_load hf.fresh hst; subst e
    refine ⟨hf.moved, ?_⟩; rw [goto_pc, if_pos rfl]; exact h
  · simp at hst; subst hst
    obtain ⟨a, b⟩ := h
    refine ⟨⟨fun u hu => (goto_other hu).trans (hf.others u hu), fun c => by rw [goto_view]; exact hf.fresh c, hf.other_locs, hf.later,
      hf.results, hf.size, hf.profile⟩, ?_⟩
    rw [goto_pc, if_pos rfl]
    exact ⟨by simp [a], b⟩
  · simp at hst; subst hst
    refine ⟨hf.moved, ?_⟩; rw [goto_pc, if_pos rfl]; exact ⟨h.1, rfl, h.2⟩
  · have e := fresh_load hf.fresh hst; subst e
    refine ⟨hf.moved, ?_⟩; rw [goto_pc, if_pos rfl]
    exact ⟨h.1, h.2.1, h.2.2, by rw [hcur]⟩
  · simp at hst; subst hst
    obtain ⟨a, b, d, e⟩ := h
    refine ⟨hf.wrote (Or.inl rfl), ?_⟩
    rw [goto_pc, if_pos rfl]
    refine ⟨a, b, d, ?_⟩
    rw [goto_loc, write_loc, if_pos rfl, push_last, e]
  · have e := fresh_load hf.fresh hst; subst e
    obtain ⟨a, b, d, e⟩ := h
    refine ⟨hf.moved, ?_⟩; rw [goto_pc, if_pos rfl]
    exact ⟨a, b, d, e, by rw [hcur]⟩
  · simp at hst; subst hst
    obtain ⟨a, b, d, e, g⟩ := h
    refine ⟨hf.wrote (Or.inr rfl), ?_⟩
    rw [goto_pc, if_pos rfl]
    refine ⟨a, b, d, ?_, ?_, [], rfl, rfl⟩
    · rw [goto_loc, write_loc, if_neg (by simp)]; exact e
    · rw [goto_loc, write_loc, if_pos rfl, push_last, g]
  · rename_i hd got
    simp at hst; subst hst
    obtain ⟨a, b, d, e, g, done, hd1, hd2⟩ := h
    simp only [List.append_nil] at hd1
    refine ⟨⟨fun u hu => (goto_other hu).trans (hf.others u hu), fun c => by rw [goto_view]; exact hf.fresh c, hf.other_locs, hf.later,
      hf.results, hf.size, hf.profile⟩, ?_⟩
    rw [goto_pc, if_pos rfl]
    refine ⟨?_, e, g⟩
    rw [goto_view]
    show s.saved ++ _ = _
    rw [d, hd2, hd1, b]
    rfl
  · rename_i hd c rest got
    have e := fresh_load hf.fresh hst; subst e
    obtain ⟨a, b, d, e, g, done, hd1, hd2⟩ := h
    refine ⟨hf.moved, ?_⟩
    rw [goto_pc, if_pos rfl]
    exact ⟨a, b, d, e, g, done ++ [c], by rw [hd1]; simp, by rw [hd2]; simp⟩
  all_goals exact h.elim

theorem save_steps {s1 : AConc} {t : Nat} : ∀ (as : List AAct) (s s' : AConc), Alone t as → SaveFrame s1 t s → saveAt s1 s t (s.th t).pc →
    s.sched as = some s' → SaveFrame s1 t s' ∧ saveAt s1 s' t (s'.th t).pc := by
  intro as
  induction as with
  | nil => intro s s' _ hf h hs; simp [AConc.sched] at hs; subst hs; exact ⟨hf, h⟩
  | cons a as ih =>
    intro s s' hA hf h hs
    obtain ⟨s2, h1, h2⟩ := sched_cons_some hs
    obtain ⟨i, ok, rfl⟩ := hA a (by simp)
    obtain ⟨hf2, hp2⟩ := save_step hf h h1
    exact ih s2 s' (fun b hb => hA b (by simp [hb])) hf2 hp2 h2

/-- a save point taken alone -/
theorem save_alone {s1 s2 : AConc} {t : Nat} {as : List AAct} (hf : s1.UpToDate t) (hA : Alone t as)
    (h : s1.sched (.save t :: as) = some s2) (hi : (s2.th t).pc = .idle) :
    SaveFrame s1 t s2 ∧ s2.saved = s1.saved ++ [⟨allCtrs.map fun c => (s2.loc c).last, s2.slots.length, (s2.th t).view⟩] ∧
    (s2.loc .minUsedMemory).last = (s1.loc .currentUsedMemory).last ∧ (s2.loc .maxUsedMemory).last = (s1.loc .currentUsedMemory).last := by
  obtain ⟨s, h1, h2⟩ := sched_cons_some h
  simp only [AConc.act] at h1
  split at h1
  · simp at h1; subst h1
    have hf0 : SaveFrame s1 t s1 := ⟨fun _ _ => rfl, hf, fun _ _ _ => rfl, LocLater.refl rfl, rfl, rfl, rfl⟩
    obtain ⟨a, b⟩ := save_steps as _ s2 hA hf0.moved (by rw [goto_pc, if_pos rfl]; exact ⟨rfl, rfl⟩) h2
    rw [hi] at b
    exact ⟨a, b⟩
  · simp at h1

/-! ### a request alone -/

/-- what does not change while thread `t` is alone in a request for statistics -/
structure DeltaFrame (s3 : AConc) (t : Nat) (s : AConc) : Prop where
  others : ∀ u, u ≠ t → s.th u = s3.th u
  fresh : s.UpToDate t
  loc : s.loc = s3.loc
  slots : s.slots = s3.slots
  saved : s.saved = s3.saved
  profile : s.profile = s3.profile
  size : s.size = s3.size

theorem DeltaFrame.moved {s3 s : AConc} {t pc} (h : DeltaFrame s3 t s) : DeltaFrame s3 t (s.goto t pc) :=
  ⟨fun u hu => (goto_other hu).trans (h.others u hu), fun c => by rw [goto_view]; exact h.fresh c, h.loc, h.slots, h.saved, h.profile, h.size⟩

/-- the statistics since the save point `sp`, no save point having been taken since -/
def sinceSave (s3 : AConc) (sp : CSave) : List Nat :=
  ((deltaCtrs.zip sp.got).map fun p => (s3.loc p.1).last - p.2) ++
    [(s3.loc .currentUsedMemory).last, Nat.min usizeMax (s3.loc .minUsedMemory).last, (s3.loc .maxUsedMemory).last]

/-- where thread `t` is in the request for save point `k` -/
def deltaAt (s3 s : AConc) (k : Nat) (sp : CSave) : APc → Prop
  | .dPeek j => j = k ∧ s.results = s3.results
  | .dMin j mn mx => j = k ∧ s.results = s3.results ∧ mn = usizeMax ∧ mx = 0
  | .dMax j mn mx => j = k ∧ s.results = s3.results ∧ mn = Nat.min usizeMax (s3.loc .minUsedMemory).last ∧ mx = 0
  | .dLoad j mn mx rest got => j = k ∧ s.results = s3.results ∧ mn = Nat.min usizeMax (s3.loc .minUsedMemory).last ∧
      mx = (s3.loc .maxUsedMemory).last ∧
      ∃ done, deltaCtrs.zip sp.got = done ++ rest ∧ got = done.map fun p => (s3.loc p.1).last - p.2
  | .dCur j mn mx got => j = k ∧ s.results = s3.results ∧ mn = Nat.min usizeMax (s3.loc .minUsedMemory).last ∧
      mx = (s3.loc .maxUsedMemory).last ∧ got = (deltaCtrs.zip sp.got).map fun p => (s3.loc p.1).last - p.2
  | .idle => s.results = s3.results ++ [(k, .stats (sinceSave s3 sp))]
  | _ => False

theorem delta_step_solo {s3 s s' : AConc} {t i ok k} {sp : CSave} (hsp : s3.saved[k]? = some sp) (hhd : s3.slots.length = sp.head)
    (hle : ∀ p ∈ deltaCtrs.zip sp.got, p.2 ≤ (s3.loc p.1).last) (hf : DeltaFrame s3 t s) (h : deltaAt s3 s k sp (s.th t).pc)
    (hst : s.step t i ok = some s') : DeltaFrame s3 t s' ∧ deltaAt s3 s' k sp (s'.th t).pc := by
  unfold AConc.step at hst
  split at hst <;> (rename_i hpc; rw [hpc] at h)
  · simp at hst
  iterate 17 exact h.elim
  · rename_i j
    obtain ⟨rfl, hr⟩ := h
    rw [hf.saved, hsp, hf.slots, hf.size] at hst
    simp only at hst
    rw [if_neg (by omega)] at hst
    simp at hst; subst hst
    refine ⟨hf.moved, ?_⟩
    rw [goto_pc, if_pos rfl]
    have hdrop : s3.slots.drop sp.head = [] := List.drop_eq_nil_of_le (by omega)
    rw [hdrop]
    exact ⟨rfl, hr, rfl, rfl⟩
  · rename_i j mn mx
    obtain ⟨rfl, hr, h1, h2⟩ := h
    have e := fresh_load hf.fresh hst; subst e
    refine ⟨hf.moved, ?_⟩
    rw [goto_pc, if_pos rfl]
    exact ⟨rfl, hr, by rw [h1, hf.loc], h2⟩
  · rename_i j mn mx
    obtain ⟨rfl, hr, h1, h2⟩ := h
    rw [hf.saved, hsp] at hst
    simp only at hst
    have e := fresh_load hf.fresh hst; subst e
    refine ⟨hf.moved, ?_⟩
    rw [goto_pc, if_pos rfl]
    exact ⟨rfl, hr, h1, by rw [h2, hf.loc]; exact Nat.zero_max _, [], rfl, rfl⟩
  · rename_i j mn mx got
    obtain ⟨rfl, hr, h1, h2, done, h3, h4⟩ := h
    simp at hst; subst hst
    refine ⟨hf.moved, ?_⟩
    rw [goto_pc, if_pos rfl]
    simp only [List.append_nil] at h3
    exact ⟨rfl, hr, h1, h2, by rw [h4, h3]⟩
  · rename_i j mn mx c before rest got
    obtain ⟨rfl, hr, h1, h2, done, h3, h4⟩ := h
    split at hst
    · rename_i hrd
      obtain ⟨e1, e2⟩ := fresh_see hf.fresh hrd
      subst e2
      rw [e1] at hst
      have hlast : (s.loc c).val (s.loc c).top = (s3.loc c).last := by rw [hf.loc]; rfl
      have hb := hle (c, before) (by rw [h3]; simp)
      rw [hlast, no_under hb] at hst
      simp at hst; subst hst
      refine ⟨hf.moved, ?_⟩
      rw [goto_pc, if_pos rfl]
      exact ⟨rfl, hr, h1, h2, done ++ [(c, before)], by rw [h3]; simp, by rw [h4]; simp⟩
    · simp at hst
  · rename_i j mn mx got
    obtain ⟨rfl, hr, h1, h2, h3⟩ := h
    split at hst
    · rename_i hrd
      obtain ⟨e1, e2⟩ := fresh_see hf.fresh hrd
      subst e2
      rw [e1] at hst
      have hlast : (s.loc .currentUsedMemory).val (s.loc .currentUsedMemory).top = (s3.loc .currentUsedMemory).last := by rw [hf.loc]; rfl
      rw [hlast] at hst
      simp at hst; subst hst
      refine ⟨⟨fun u hu => (goto_other hu).trans (hf.others u hu), fun c => by rw [AConc.result, goto_view]; exact hf.fresh c, hf.loc,
        hf.slots, hf.saved, hf.profile, hf.size⟩, ?_⟩
      rw [AConc.result, goto_pc, if_pos rfl]
      show s.results ++ _ = _
      rw [hr, h1, h2, h3]
      rfl
    · simp at hst

theorem delta_steps {s3 : AConc} {t k} {sp : CSave} (hsp : s3.saved[k]? = some sp) (hhd : s3.slots.length = sp.head)
    (hle : ∀ p ∈ deltaCtrs.zip sp.got, p.2 ≤ (s3.loc p.1).last) : ∀ (as : List AAct) (s s' : AConc), Alone t as → DeltaFrame s3 t s →
    deltaAt s3 s k sp (s.th t).pc → s.sched as = some s' → DeltaFrame s3 t s' ∧ deltaAt s3 s' k sp (s'.th t).pc := by
  intro as
  induction as with
  | nil => intro s s' _ hf h hs; simp [AConc.sched] at hs; subst hs; exact ⟨hf, h⟩
  | cons a as ih =>
    intro s s' hA hf h hs
    obtain ⟨s2, h1, h2⟩ := sched_cons_some hs
    obtain ⟨i, ok, rfl⟩ := hA a (by simp)
    obtain ⟨hf2, hp2⟩ := delta_step_solo hsp hhd hle hf h h1
    exact ih s2 s' (fun b hb => hA b (by simp [hb])) hf2 hp2 h2

/-- a request alone -/
theorem delta_alone {s3 s4 : AConc} {t k : Nat} {sp : CSave} {as : List AAct} (hf : s3.UpToDate t) (hA : Alone t as)
    (hsp : s3.saved[k]? = some sp) (hhd : s3.slots.length = sp.head) (hle : ∀ p ∈ deltaCtrs.zip sp.got, p.2 ≤ (s3.loc p.1).last)
    (hv : ∀ c, sp.view c ≤ (s3.loc c).top)
    (h : s3.sched (.delta t k :: as) = some s4) (hi : (s4.th t).pc = .idle) :
    DeltaFrame s3 t s4 ∧ s4.results = s3.results ++ [(k, .stats (sinceSave s3 sp))] := by
  obtain ⟨s, h1, h2⟩ := sched_cons_some h
  simp only [AConc.act] at h1
  split at h1
  · rw [hsp] at h1
    simp only [Option.some.injEq] at h1; subst h1
    have hl : s3.learn t sp.view = s3 := by
      refine aconc_eq rfl rfl rfl ?_ rfl rfl rfl rfl
      funext u
      refine th_eq (by simp) ?_
      funext d
      rw [learn_view]
      split
      · rename_i e; subst e
        have := hv d
        rw [hf d]
        exact Nat.max_eq_left this
      · rfl
    rw [hl] at h2
    have hf0 : DeltaFrame s3 t s3 := ⟨fun _ _ => rfl, hf, rfl, rfl, rfl, rfl, rfl⟩
    obtain ⟨a, b⟩ := delta_steps hsp hhd hle as _ s4 hA hf0.moved (by rw [goto_pc, if_pos rfl]; exact ⟨rfl, rfl⟩) h2
    rw [hi] at b
    exact ⟨a, b⟩
  · simp at h1

end BigO
