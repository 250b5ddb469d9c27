import Verif.Proofs.AllocSolo

/-!
# No thread has seen the future
-/
namespace BigO

/-- what threads and save points have seen is in the past -/
structure ViewInv (s : AConc) : Prop where
  views : ∀ t c, (s.th t).view c ≤ (s.loc c).top
  saved : ∀ sp ∈ s.saved, ∀ c, sp.view c ≤ (s.loc c).top

theorem viewInv_init (pr : Profile) (N : Nat) (s0 : Stats) : ViewInv (AConc.init pr N s0) :=
  ⟨fun _ _ => Nat.le_refl _, by simp [AConc.init]⟩

theorem ViewInv.moved {s s1 : AConc} {t pc} (h : ViewInv s) (h1 : s1.loc = s.loc) (h2 : s1.th = s.th) (h3 : s1.saved = s.saved) :
    ViewInv (s1.goto t pc) := by
  refine ⟨?_, ?_⟩
  · intro u c; rw [goto_view, goto_loc, h1, h2]; exact h.views u c
  · intro sp hsp c; rw [goto_loc, h1]; rw [goto_saved, h3] at hsp; exact h.saved sp hsp c

theorem ViewInv.seen {s : AConc} {t c i} (h : ViewInv s) (hi : i ≤ (s.loc c).top) : ViewInv (s.see t c i) := by
  refine ⟨?_, h.saved⟩
  intro u d
  rw [see_view, see_loc]
  split
  · rename_i e; obtain ⟨_, rfl⟩ := e; exact hi
  · exact h.views u d

theorem ViewInv.loaded {s s' : AConc} {t c i k} (h : ViewInv s) (hl : s.load t c i k = some s') : ViewInv s' := by
  obtain ⟨rfl, _, h2⟩ := load_some hl
  exact (h.seen h2).moved rfl rfl rfl

theorem ViewInv.wrote {s : AConc} {t c v pc} (h : ViewInv s) : ViewInv ((s.write t c v).goto t pc) := by
  have hl := locLater_write s t c v pc
  refine ⟨?_, fun sp hsp d => (h.saved sp hsp d).trans (hl d).1⟩
  intro u d
  have := h.views u d
  rw [goto_view, goto_loc, write_view, write_loc]
  by_cases hd : d = c
  · subst hd
    rw [if_pos rfl, push_top]
    split <;> omega
  · rw [if_neg (fun e => hd e.2), if_neg hd]; exact this

theorem ViewInv.learnt {s : AConc} {t v} (h : ViewInv s) (hv : ∀ c, v c ≤ (s.loc c).top) : ViewInv (s.learn t v) := by
  refine ⟨?_, h.saved⟩
  intro u c
  rw [learn_view, learn_loc]
  split
  · exact Nat.max_le.2 ⟨h.views t c, hv c⟩
  · exact h.views u c

theorem ViewInv.step {s s' : AConc} {t i ok} (h : ViewInv s) (hst : s.step t i ok = some s') : ViewInv s' := by
  have hr : ∀ {c}, s.readable t c i = true → i ≤ (s.loc c).top := by
    intro c hr; simp only [AConc.readable, Bool.and_eq_true, decide_eq_true_eq] at hr; exact hr.2
  unfold AConc.step at hst
  split at hst
  · simp at hst
  · simp at hst; subst hst; exact h.moved rfl rfl rfl
  · simp at hst; subst hst; exact h.wrote
  · exact h.loaded hst
  · exact h.loaded hst
  · split at hst
    · split at hst
      · simp at hst; subst hst; exact h.wrote
      · simp at hst
    · exact h.loaded hst
  · exact h.loaded hst
  · split at hst
    · split at hst
      · simp at hst; subst hst; exact h.wrote
      · simp at hst
    · exact h.loaded hst
  · exact h.loaded hst
  · exact h.loaded hst
  · simp at hst; subst hst; exact h.moved rfl rfl rfl
  · simp at hst; subst hst; exact h.moved rfl rfl rfl
  · exact h.loaded hst
  · simp at hst; subst hst; exact h.wrote
  · exact h.loaded hst
  · simp at hst; subst hst; exact h.wrote
  · simp at hst; subst hst
    refine ⟨?_, ?_⟩
    · intro u c; rw [goto_view]; exact h.views u c
    · intro sp hsp c
      rw [goto_saved] at hsp
      rcases List.mem_append.1 hsp with h1 | h1
      · exact h.saved sp h1 c
      · simp only [List.mem_singleton] at h1; subst h1; exact h.views t c
  · exact h.loaded hst
  · split at hst
    · simp at hst
    · split at hst
      · simp at hst; subst hst; exact h.moved rfl rfl rfl
      · simp at hst; subst hst; exact h.moved rfl rfl rfl
  · exact h.loaded hst
  · split at hst
    · simp at hst
    · exact h.loaded hst
  · simp at hst; subst hst; exact h.moved rfl rfl rfl
  · split at hst
    · rename_i hrd
      split at hst
      · simp at hst; subst hst; exact (h.seen (hr hrd)).moved rfl rfl rfl
      · simp at hst; subst hst; exact (h.seen (hr hrd)).moved rfl rfl rfl
    · simp at hst
  · split at hst
    · rename_i hrd
      simp at hst; subst hst; exact (h.seen (hr hrd)).moved rfl rfl rfl
    · simp at hst

theorem ViewInv.act {s s' : AConc} {a : AAct} (h : ViewInv s) (ha : s.act a = some s') : ViewInv s' := by
  cases a with
  | call t c =>
    simp only [AConc.act] at ha
    split at ha
    · simp at ha; subst ha; exact h.moved rfl rfl rfl
    · simp at ha
  | save t =>
    simp only [AConc.act] at ha
    split at ha
    · simp at ha; subst ha; exact h.moved rfl rfl rfl
    · simp at ha
  | delta t k =>
    simp only [AConc.act] at ha
    split at ha
    · split at ha
      · simp at ha
      · rename_i sp e
        simp at ha; subst ha
        exact (h.learnt (h.saved sp (List.mem_of_getElem? e))).moved rfl rfl rfl
    · simp at ha
  | sync t u =>
    simp only [AConc.act] at ha
    split at ha
    · simp at ha; subst ha; exact h.learnt (h.views u)
    · simp at ha
  | step t i ok => exact h.step ha

theorem view_sched {pr : Profile} {N : Nat} {s0 : Stats} {as : List AAct} {s : AConc} (h : (AConc.init pr N s0).sched as = some s) :
    ViewInv s := sched_induct (fun _ _ _ h ha => h.act ha) as _ s (viewInv_init pr N s0) h

end BigO
