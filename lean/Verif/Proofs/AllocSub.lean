import Verif.Proofs.AllocDelta
import Mathlib.Data.List.Forall2

/-!
# No statistic since a save point goes below zero
-/
namespace BigO

/-- the past of every location is the same -/
def LocLater (s s' : AConc) : Prop :=
  ∀ c, (s.loc c).top ≤ (s'.loc c).top ∧ ∀ i, i ≤ (s.loc c).top → (s'.loc c).val i = (s.loc c).val i

theorem LocLater.refl {s s' : AConc} (h : s'.loc = s.loc) : LocLater s s' := fun c => by rw [h]; exact ⟨Nat.le_refl _, fun _ _ => rfl⟩

theorem LocLater.trans {s s' s'' : AConc} (h : LocLater s s') (h' : LocLater s' s'') : LocLater s s'' := fun c =>
  ⟨(h c).1.trans (h' c).1, fun i hi => ((h' c).2 i (hi.trans (h c).1)).trans ((h c).2 i hi)⟩

theorem locLater_write (s : AConc) (t c v pc) : LocLater s ((s.write t c v).goto t pc) := by
  intro c'
  rw [goto_loc, write_loc]
  split
  · rename_i h; subst h
    refine ⟨by rw [push_top]; omega, fun i hi => ?_⟩
    rw [push_val, if_neg (by omega)]
  · exact ⟨Nat.le_refl _, fun _ _ => rfl⟩

/-- `b` was in `c` at a moment not later than `view` -/
def SeenVal (s : AConc) (view : Ctr → Nat) (c : Ctr) (b : Nat) : Prop := ∃ i, i ≤ view c ∧ (s.loc c).val i = b

theorem SeenVal.mono {s s' : AConc} {v v' : Ctr → Nat} (hl : LocLater s s') (hv : ∀ c, v c ≤ v' c) (hb : ∀ c, v c ≤ (s.loc c).top)
    {c b} (h : SeenVal s v c b) : SeenVal s' v' c b := by
  obtain ⟨i, hi, e⟩ := h
  exact ⟨i, hi.trans (hv c), ((hl c).2 i (hi.trans (hb c))).trans e⟩

/-- a save point's numbers were read not later than its view, which is in the past -/
def SavedOk (s : AConc) (sp : CSave) : Prop :=
  (∀ c, sp.view c ≤ (s.loc c).top) ∧ List.Forall₂ (SeenVal s sp.view) allCtrs sp.got

theorem SavedOk.mono {s s' : AConc} (hl : LocLater s s') {sp} (h : SavedOk s sp) : SavedOk s' sp :=
  ⟨fun c => (h.1 c).trans (hl c).1, h.2.imp fun _ _ hs => hs.mono hl (fun _ => Nat.le_refl _) h.1⟩

/-- what a thread within a save point or a request for statistics holds -/
def pcSub (s : AConc) (view : Ctr → Nat) : APc → Prop
  | .spLoad _ rest got => ∃ done, allCtrs = done ++ rest ∧ List.Forall₂ (SeenVal s view) done got
  | .dPeek k => ∃ sp, s.saved[k]? = some sp ∧ ∀ c, sp.view c ≤ view c
  | .dMin k _ _ => ∃ sp, s.saved[k]? = some sp ∧ ∀ c, sp.view c ≤ view c
  | .dMax k _ _ => ∃ sp, s.saved[k]? = some sp ∧ ∀ c, sp.view c ≤ view c
  | .dLoad _ _ _ rest _ => ∀ p ∈ rest, p.1 ∈ deltaCtrs ∧ SeenVal s view p.1 p.2
  | _ => True

theorem pcSub.mono {s s' : AConc} {v v' : Ctr → Nat} (hl : LocLater s s') (hv : ∀ c, v c ≤ v' c) (hb : ∀ c, v c ≤ (s.loc c).top)
    {extra} (hs : s'.saved = s.saved ++ extra) {pc} (h : pcSub s v pc) : pcSub s' v' pc := by
  have hk : ∀ k : Nat, (∃ sp : CSave, s.saved[k]? = some sp ∧ ∀ c, sp.view c ≤ v c) → ∃ sp : CSave, s'.saved[k]? = some sp ∧ ∀ c, sp.view c ≤ v' c := by
    rintro k ⟨sp, h1, h2⟩
    refine ⟨sp, ?_, fun c => (h2 c).trans (hv c)⟩
    rw [hs, List.getElem?_append_left (List.getElem?_eq_some_iff.1 h1).1, h1]
  cases pc
  case spLoad hd rest got =>
    obtain ⟨d, h1, h2⟩ := h
    exact ⟨d, h1, h2.imp fun _ _ x => x.mono hl hv hb⟩
  case dPeek k => exact hk k h
  case dMin k _ _ => exact hk k h
  case dMax k _ _ => exact hk k h
  case dLoad => exact fun p hp => ⟨(h p hp).1, (h p hp).2.mono hl hv hb⟩
  all_goals trivial

theorem pcSub_toMin (s v a b) : pcSub s v (toMin a b) := by unfold toMin; split <;> trivial
theorem pcSub_toMax (s v a b) : pcSub s v (toMax a b) := by unfold toMax; split <;> trivial
theorem pcSub_toRmw (s v ops) : pcSub s v (toRmw ops) := by cases ops <;> trivial

/-- no subtraction has overflowed, and why -/
structure SubInv (s : AConc) : Prop where
  views : ∀ t c, (s.th t).view c ≤ (s.loc c).top
  saved : ∀ sp ∈ s.saved, SavedOk s sp
  pcs : ∀ t, pcSub s (s.th t).view (s.th t).pc
  results : ∀ k, (k, DRes.panicked) ∉ s.results

theorem subInv_init (pr : Profile) (N : Nat) (s0 : Stats) : SubInv (AConc.init pr N s0) :=
  ⟨fun _ _ => Nat.le_refl _, by simp [AConc.init], fun _ => trivial, by simp [AConc.init]⟩

theorem SubInv.frame {s s' : AConc} {t : Nat} (h : SubInv s) (hl : LocLater s s') (ho : ∀ u, u ≠ t → s'.th u = s.th u)
    (hv : ∀ c, (s'.th t).view c ≤ (s'.loc c).top) {extra} (hs : s'.saved = s.saved ++ extra) (he : ∀ sp ∈ extra, SavedOk s' sp)
    (hp : pcSub s' (s'.th t).view (s'.th t).pc) (hr : ∀ k, (k, DRes.panicked) ∉ s'.results) : SubInv s' where
  views := by
    intro u c
    by_cases hu : u = t
    · subst hu; exact hv c
    · rw [ho u hu]; exact (h.views u c).trans (hl c).1
  saved := by
    intro sp hsp
    rw [hs] at hsp
    rcases List.mem_append.1 hsp with h1 | h1
    · exact (h.saved sp h1).mono hl
    · exact he sp h1
  pcs := by
    intro u
    by_cases hu : u = t
    · subst hu; exact hp
    · rw [ho u hu]; exact (h.pcs u).mono hl (fun _ => Nat.le_refl _) (h.views u) hs
  results := hr

theorem goto_other {s : AConc} {t u pc} (h : u ≠ t) : (s.goto t pc).th u = s.th u := by simp [AConc.goto, h]
theorem learn_other {s : AConc} {t u v} (h : u ≠ t) : (s.learn t v).th u = s.th u := by simp [AConc.learn, h]

/-- the thread only moves -/
theorem SubInv.moved {s : AConc} {t : Nat} {pc : APc} (h : SubInv s) (hp : pcSub s (s.th t).view pc) : SubInv (s.goto t pc) := by
  refine h.frame (t := t) (extra := []) (LocLater.refl rfl) (fun u hu => goto_other hu) ?_ (by simp) (by simp) ?_ h.results
  · intro c; rw [goto_view]; exact h.views t c
  · rw [goto_view, goto_pc, if_pos rfl]
    exact hp.mono (LocLater.refl rfl) (fun _ => Nat.le_refl _) (h.views t) (extra := []) (by simp)

theorem SubInv.loaded {s : AConc} {t i : Nat} {c : Ctr} {pc : APc} (h : SubInv s) (h1 : (s.th t).view c ≤ i) (h2 : i ≤ (s.loc c).top)
    (hp : ∀ v : Ctr → Nat, (∀ d, (s.th t).view d ≤ v d) → v c = i → pcSub s v pc) : SubInv ((s.see t c i).goto t pc) := by
  have hv : ∀ d, (s.th t).view d ≤ ((s.see t c i).th t).view d := by
    intro d; rw [see_view]; split
    · rename_i hd; obtain ⟨_, rfl⟩ := hd; exact h1
    · exact Nat.le_refl _
  have hw : ∀ d, ((s.see t c i).th t).view d ≤ (s.loc d).top := by
    intro d; rw [see_view]; split
    · rename_i hd; obtain ⟨_, rfl⟩ := hd; exact h2
    · exact h.views t d
  refine h.frame (t := t) (extra := []) (LocLater.refl rfl) (fun u hu => ?_) ?_ (by simp) (by simp) ?_ h.results
  · rw [goto_other hu, see_other hu]
  · intro d; rw [goto_view]; exact hw d
  · rw [goto_view, goto_pc, if_pos rfl]
    exact (hp _ hv (by rw [see_view]; simp)).mono (LocLater.refl rfl) (fun _ => Nat.le_refl _) hw (extra := []) (by simp)

theorem SubInv.wrote {s : AConc} {t : Nat} {c : Ctr} {v : Nat} {pc : APc} (h : SubInv s)
    (hp : ∀ s' v', pcSub s' v' pc) : SubInv ((s.write t c v).goto t pc) := by
  refine h.frame (t := t) (extra := []) (locLater_write s t c v pc) (fun u hu => th_write hu) ?_ (by simp) (by simp) ?_ h.results
  · intro d
    rw [goto_view, goto_loc, write_view, write_loc]
    have := h.views t d
    split
    · rename_i hd; obtain ⟨_, rfl⟩ := hd; simp
    · rename_i hd
      rw [if_neg (by rintro rfl; exact hd ⟨rfl, rfl⟩)]; exact this
  · rw [goto_pc, if_pos rfl]; exact hp _ _

/-- a read of a counter that only grew is not less than an earlier value of it -/
theorem no_under {pr : Profile} {a b : Nat} (h : b ≤ a) : usizeSub pr a b = .ok (a - b) := by unfold usizeSub; rw [if_pos h]

theorem SubInv.step {s s' : AConc} {t i ok} (hg : ∀ k ∈ deltaCtrs, Grows k s) (h : SubInv s) (hst : s.step t i ok = some s') :
    SubInv s' := by
  have hpt := h.pcs t
  unfold AConc.step at hst
  split at hst <;> (rename_i hpc; rw [hpc] at hpt)
  · simp at hst
  · simp at hst; subst hst; exact h.moved trivial
  · simp at hst; subst hst; exact h.wrote fun _ _ => pcSub_toRmw _ _ _
  · obtain ⟨rfl, h1, h2⟩ := load_some hst; exact h.loaded h1 h2 fun _ _ _ => trivial
  · obtain ⟨rfl, h1, h2⟩ := load_some hst; exact h.loaded h1 h2 fun _ _ _ => pcSub_toMin _ _ _ _
  · split at hst
    · split at hst
      · simp at hst; subst hst; exact h.wrote fun _ _ => trivial
      · simp at hst
    · obtain ⟨rfl, h1, h2⟩ := load_some hst; exact h.loaded h1 h2 fun _ _ _ => pcSub_toMin _ _ _ _
  · obtain ⟨rfl, h1, h2⟩ := load_some hst; exact h.loaded h1 h2 fun _ _ _ => pcSub_toMax _ _ _ _
  · split at hst
    · split at hst
      · simp at hst; subst hst; exact h.wrote fun _ _ => trivial
      · simp at hst
    · obtain ⟨rfl, h1, h2⟩ := load_some hst; exact h.loaded h1 h2 fun _ _ _ => pcSub_toMax _ _ _ _
  · obtain ⟨rfl, h1, h2⟩ := load_some hst; exact h.loaded h1 h2 fun _ _ _ => trivial
  · obtain ⟨rfl, h1, h2⟩ := load_some hst; exact h.loaded h1 h2 fun _ _ _ => trivial
  · simp at hst; subst hst
    refine h.frame (t := t) (extra := []) (LocLater.refl rfl) (fun u hu => goto_other hu) ?_ (by simp) (by simp) ?_ h.results
    · intro c; rw [goto_view]; exact h.views t c
    · rw [goto_pc, if_pos rfl]; trivial
  · simp at hst; subst hst; exact h.moved trivial
  · obtain ⟨rfl, h1, h2⟩ := load_some hst; exact h.loaded h1 h2 fun _ _ _ => trivial
  · simp at hst; subst hst; exact h.wrote fun _ _ => trivial
  · obtain ⟨rfl, h1, h2⟩ := load_some hst; exact h.loaded h1 h2 fun _ _ _ => trivial
  · simp at hst; subst hst; exact h.wrote fun _ _ => ⟨[], rfl, .nil⟩
  · rename_i hd got
    simp at hst; subst hst
    obtain ⟨d, e, hf⟩ := hpt
    simp only [List.append_nil] at e
    refine h.frame (t := t) (extra := [⟨got, hd, (s.th t).view⟩]) (LocLater.refl rfl) (fun u hu => goto_other hu) ?_ rfl ?_ ?_ h.results
    · intro c; rw [goto_view]; exact h.views t c
    · intro sp hsp
      simp only [List.mem_singleton] at hsp
      subst hsp
      exact ⟨h.views t, by rw [e]; exact hf⟩
    · rw [goto_pc, if_pos rfl]; trivial
  · rename_i hd c rest got
    obtain ⟨rfl, h1, h2⟩ := load_some hst
    obtain ⟨d, e, hf⟩ := hpt
    refine h.loaded h1 h2 fun v hv hc => ⟨d ++ [c], by rw [e]; simp, ?_⟩
    refine List.rel_append (hf.imp fun _ _ x => x.mono (LocLater.refl rfl) hv (h.views t)) (.cons ⟨i, hc.ge, rfl⟩ .nil)
  · rename_i k
    split at hst
    · simp at hst
    · split at hst
      · simp at hst; subst hst
        refine h.frame (t := t) (extra := []) (LocLater.refl rfl) (fun u hu => goto_other hu) ?_ (by simp [AConc.result]) (by simp) ?_ ?_
        · intro c; rw [AConc.result, goto_view]; exact h.views t c
        · rw [AConc.result, goto_pc, if_pos rfl]; trivial
        · intro j hj
          simp [AConc.result] at hj
          exact h.results j hj
      · simp at hst; subst hst; exact h.moved hpt
  · rename_i k mn mx
    obtain ⟨rfl, h1, h2⟩ := load_some hst
    obtain ⟨sp, e, hs⟩ := hpt
    exact h.loaded h1 h2 fun v hv _ => ⟨sp, e, fun c => (hs c).trans (hv c)⟩
  · rename_i k mn mx
    obtain ⟨sp0, e0, hs⟩ := hpt
    split at hst
    · simp at hst
    · rename_i sp e
      rw [e0] at e; injection e with e; subst e
      obtain ⟨rfl, h1, h2⟩ := load_some hst
      refine h.loaded h1 h2 fun v hv _ => ?_
      have hok := h.saved sp0 (List.mem_of_getElem? e0)
      intro p hp
      have h9 : deltaCtrs.zip sp0.got = deltaCtrs.zip (sp0.got.take 9) := by
        rw [List.zip_eq_zip_take_min]
        have : (sp0.got.take 9).length = 9 := by rw [List.length_take, ← hok.2.length_eq]; rfl
        have hl : sp0.got.length = 12 := hok.2.length_eq.symm
        rw [hl]; rfl
      have hf : List.Forall₂ (SeenVal s sp0.view) deltaCtrs (sp0.got.take 9) := by
        have := List.forall₂_take 9 hok.2
        exact this
      rw [h9] at hp
      have := List.forall₂_zip hf hp
      obtain ⟨a, b⟩ := p
      refine ⟨(List.of_mem_zip hp).1, ?_⟩
      exact SeenVal.mono (LocLater.refl rfl) (fun c => (hs c).trans (hv c)) hok.1 this
  · simp at hst; subst hst; exact h.moved trivial
  · rename_i k mn mx c before rest got
    split at hst
    · rename_i hr
      simp only [AConc.readable, Bool.and_eq_true, decide_eq_true_eq] at hr
      obtain ⟨hcm, j, hj, hjv⟩ := hpt (c, before) (by simp)
      have hle : before ≤ (s.loc c).val i := by
        have hjv' : (s.loc c).val j = before := hjv
        rw [← hjv']; exact hg c hcm j i (hj.trans hr.1) hr.2
      rw [no_under hle] at hst
      simp at hst; subst hst
      refine h.loaded hr.1 hr.2 fun v hv _ p hp => ?_
      have := hpt p (by simp [hp])
      exact ⟨this.1, this.2.mono (LocLater.refl rfl) hv (h.views t)⟩
    · simp at hst
  · rename_i k mn mx got
    split at hst
    · rename_i hr
      simp only [AConc.readable, Bool.and_eq_true, decide_eq_true_eq] at hr
      simp at hst; subst hst
      have hL := h.loaded (pc := .idle) hr.1 hr.2 fun _ _ _ => trivial
      refine hL.frame (t := t) (extra := []) (LocLater.refl rfl) (fun u hu => ?_) ?_ (by simp [AConc.result]) (by simp) ?_ ?_
      · rw [AConc.result, goto_other hu, goto_other hu]
      · intro d; have := hL.views t d; rw [AConc.result, goto_view]; rw [goto_view] at this; exact this
      · rw [AConc.result, goto_pc, if_pos rfl]; trivial
      · intro j hj
        simp [AConc.result] at hj
        exact h.results j hj
    · simp at hst

theorem SubInv.act {s s' : AConc} {a : AAct} (hg : ∀ k ∈ deltaCtrs, Grows k s) (h : SubInv s) (ha : s.act a = some s') : SubInv s' := by
  cases a with
  | call t c =>
    simp only [AConc.act] at ha
    split at ha
    · simp at ha; subst ha
      refine h.frame (t := t) (extra := []) (LocLater.refl rfl) (fun u hu => goto_other hu) ?_ (by simp) (by simp) ?_ h.results
      · intro c; rw [goto_view]; exact h.views t c
      · rw [goto_pc, if_pos rfl]; exact pcSub_toRmw _ _ _
    · simp at ha
  | save t =>
    simp only [AConc.act] at ha
    split at ha
    · simp at ha; subst ha; exact h.moved trivial
    · simp at ha
  | delta t k =>
    simp only [AConc.act] at ha
    split at ha
    · split at ha
      · simp at ha
      · rename_i sp e
        simp at ha; subst ha
        have hok := h.saved sp (List.mem_of_getElem? e)
        refine h.frame (t := t) (extra := []) (LocLater.refl rfl) (fun u hu => ?_) ?_ (by simp) (by simp) ?_ h.results
        · rw [goto_other hu, learn_other hu]
        · intro c; rw [goto_view, learn_view, if_pos rfl]
          exact Nat.max_le.2 ⟨h.views t c, hok.1 c⟩
        · rw [goto_pc, if_pos rfl]
          refine ⟨sp, e, fun c => ?_⟩
          rw [goto_view, learn_view, if_pos rfl]; exact Nat.le_max_right _ _
    · simp at ha
  | sync t u =>
    simp only [AConc.act] at ha
    split at ha
    · rename_i hi
      simp at ha; subst ha
      refine h.frame (t := t) (extra := []) (LocLater.refl rfl) (fun u hu => learn_other hu) ?_ (by simp) (by simp) ?_ h.results
      · intro c; rw [learn_view, if_pos rfl]
        exact Nat.max_le.2 ⟨h.views t c, h.views u c⟩
      · rw [learn_pc, hi]; trivial
    · simp at ha
  | step t i ok => exact h.step hg ha

theorem countInv_init (pr : Profile) (N n : Nat) (s0 : Stats) (k : Ctr) : CountInv n s0 k (AConc.init pr N s0) := by
  refine ⟨fun _ => trivial, fun _ => ⟨?_, ?_⟩⟩
  · simp [ExactSum, AConc.init, Loc.last, pendEff]
  · intro i j _ _; exact Nat.le_refl _

theorem started_act {s s' : AConc} {a : AAct} (h : s.act a = some s') : s'.started = s.started ++ callsIn [a] := by
  have := started_sched [a] s s' (by simp [AConc.sched, h])
  exact this

theorem sum_callEff_mono {k : Ctr} (hk : k ∈ deltaCtrs) (l m : List HeapCall) :
    (l.map (callEff k)).sum ≤ ((l ++ m).map (callEff k)).sum := by
  rw [List.map_append, List.sum_append]
  have : ∀ m : List HeapCall, 0 ≤ (m.map (callEff k)).sum := by
    intro m
    induction m with
    | nil => simp
    | cons c m ih => simp only [List.map_cons, List.sum_cons]; have := callEff_nonneg hk c; omega
  have := this m
  omega

/-- there is room for all calls -/
def Room (s0 : Stats) (l : List HeapCall) : Prop := ∀ k ∈ deltaCtrs, (s0 k : Int) + (l.map (callEff k)).sum < 2 ^ 64

theorem Room.prefix {s0 : Stats} {l m : List HeapCall} (h : Room s0 (l ++ m)) : Room s0 l := fun k hk =>
  lt_of_le_of_lt (Int.add_le_add_left (sum_callEff_mono hk l m) _) (h k hk)

theorem sub_sched {s0 : Stats} {n : Nat} : ∀ (as : List AAct) (s s' : AConc), (∀ a ∈ as, a.tid < n) →
    (∀ k ∈ deltaCtrs, CountInv n s0 k s) → SubInv s → s.sched as = some s' → Room s0 s'.started →
    SubInv s' ∧ ∀ k ∈ deltaCtrs, CountInv n s0 k s' := by
  intro as
  induction as with
  | nil => intro s s' _ hc h hs _; simp [AConc.sched] at hs; subst hs; exact ⟨h, hc⟩
  | cons a as ih =>
    intro s s' hn hc h hs hr
    simp only [AConc.sched] at hs
    split at hs
    · rename_i s1 h1
      have hr1 : Room s0 s1.started := by rw [started_sched as s1 s' hs] at hr; exact hr.prefix
      have hr0 : Room s0 s.started := by rw [started_act h1] at hr1; exact hr1.prefix
      exact ih s1 s' (fun b hb => hn b (by simp [hb])) (fun k hk => (hc k hk).act hk (hn a (by simp)) h1)
        (h.act (fun k hk => ((hc k hk).sum (hr0 k hk)).2) h1) hs hr
    · simp at hs

end BigO
