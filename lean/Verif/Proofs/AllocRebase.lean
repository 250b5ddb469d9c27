import Verif.Proofs.AllocSub
import Verif.Spec.AllocPassSpec

/-!
# Forgetting what happened before a save point
-/
namespace BigO

/-- in no save point and no request for statistics -/
def plain : APc → Prop
  | .idle => True
  | .rmw _ => True
  | .loadCur => True
  | .loadMin _ => True
  | .casMin _ _ => True
  | .loadMax _ => True
  | .casMax _ _ => True
  | _ => False

theorem plain_toMin (a b) : plain (toMin a b) := by unfold toMin; split <;> trivial
theorem plain_toMax (a b) : plain (toMax a b) := by unfold toMax; split <;> trivial
theorem plain_toRmw (ops) : plain (toRmw ops) := by cases ops <;> trivial

/-- a location, its first `o` values forgotten -/
def reLoc (o : Nat) (l : Loc) : Loc := ⟨l.top - o, fun i => if i ≤ l.top - o then l.val (i + o) else l.val o⟩

/-- a state, the first `off c` values of each location forgotten, and save points and results too -/
def rebase (off : Ctr → Nat) (st : List HeapCall) (s : AConc) : AConc :=
  { profile := s.profile, size := s.size, loc := fun c => reLoc (off c) (s.loc c),
    th := fun u => ⟨(s.th u).pc, fun c => (s.th u).view c - off c⟩, slots := [], started := st, saved := [], results := [] }

theorem reLoc_push {o : Nat} {l : Loc} (h : o ≤ l.top) (v : Nat) : reLoc o (l.push v) = (reLoc o l).push v := by
  unfold reLoc Loc.push
  simp only [Loc.mk.injEq]
  refine ⟨by omega, ?_⟩
  funext i
  by_cases h1 : i = l.top - o + 1
  · subst h1
    rw [if_pos (by omega), if_pos (by omega), if_pos rfl]
  · rw [if_neg h1]
    by_cases h2 : i ≤ l.top - o
    · rw [if_pos (by omega), if_neg (by omega), if_pos h2]
    · rw [if_neg (by omega), if_neg (by omega), if_neg h2]

theorem reLoc_val {o : Nat} {l : Loc} {i : Nat} (h : o ≤ i) (h' : i ≤ l.top) : (reLoc o l).val (i - o) = l.val i := by
  show (if i - o ≤ l.top - o then l.val (i - o + o) else l.val o) = l.val i
  rw [if_pos (by omega), Nat.sub_add_cancel h]

theorem reLoc_last {o : Nat} {l : Loc} (h : o ≤ l.top) : (reLoc o l).last = l.last := by
  show (reLoc o l).val (l.top - o) = l.val l.top
  exact reLoc_val h (Nat.le_refl _)

theorem aconc_eq {a b : AConc} (h1 : a.profile = b.profile) (h2 : a.size = b.size) (h3 : a.loc = b.loc) (h4 : a.th = b.th)
    (h5 : a.slots = b.slots) (h6 : a.started = b.started) (h7 : a.saved = b.saved) (h8 : a.results = b.results) : a = b := by
  cases a; cases b; simp_all

theorem th_eq {a b : ATh} (h1 : a.pc = b.pc) (h2 : a.view = b.view) : a = b := by cases a; cases b; simp_all

theorem rebase_goto (off st) (s : AConc) (t pc) : rebase off st (s.goto t pc) = (rebase off st s).goto t pc := by
  refine aconc_eq rfl rfl rfl ?_ rfl rfl rfl rfl
  funext u
  simp only [rebase, AConc.goto]
  split <;> rfl

theorem rebase_see (off st) (s : AConc) (t c i) : rebase off st (s.see t c i) = (rebase off st s).see t c (i - off c) := by
  refine aconc_eq rfl rfl rfl ?_ rfl rfl rfl rfl
  funext u
  refine th_eq ?_ ?_
  · simp only [rebase, see_pc]
  · funext d
    rw [see_view]
    show ((s.see t c i).th u).view d - off d = _
    rw [see_view]
    split
    · rename_i h; obtain ⟨_, rfl⟩ := h; rfl
    · rfl

theorem rebase_write {off : Ctr → Nat} (st) {s : AConc} (t) {c : Ctr} (h : off c ≤ (s.loc c).top) (v) :
    rebase off st (s.write t c v) = (rebase off st s).write t c v := by
  refine aconc_eq rfl rfl ?_ ?_ rfl rfl rfl rfl
  · funext d
    rw [write_loc]
    show reLoc (off d) ((s.write t c v).loc d) = _
    rw [write_loc]
    split
    · rename_i hd; subst hd; exact reLoc_push h v
    · rfl
  · funext u
    refine th_eq ?_ ?_
    · simp only [rebase, write_pc]
    · funext d
      rw [write_view]
      show ((s.write t c v).th u).view d - off d = _
      rw [write_view]
      split
      · rename_i hd; obtain ⟨_, rfl⟩ := hd
        show (s.loc d).top + 1 - off d = (s.loc d).top - off d + 1
        omega
      · rfl

/-- a load of a thread that has seen the values forgotten -/
theorem rebase_load {off : Ctr → Nat} (st) {s s' : AConc} {t : Nat} {c : Ctr} {i : Nat} {k : Nat → APc}
    (ha : off c ≤ (s.th t).view c) (h : s.load t c i k = some s') :
    (rebase off st s).load t c (i - off c) k = some (rebase off st s') := by
  obtain ⟨rfl, h1, h2⟩ := load_some h
  unfold AConc.load
  rw [if_pos]
  · rw [rebase_goto, rebase_see]
    congr 3
    exact reLoc_val (ha.trans h1) h2
  · simp only [AConc.readable, Bool.and_eq_true, decide_eq_true_eq]
    constructor
    · show (s.th t).view c - off c ≤ i - off c
      omega
    · show i - off c ≤ (s.loc c).top - off c
      omega

/-- a step of a thread that has seen the values forgotten is a step of the state without them -/
theorem rebase_step {off : Ctr → Nat} (st) {s s' : AConc} {t i : Nat} {ok : Bool} (hp : plain (s.th t).pc)
    (ha : ∀ c, off c ≤ (s.th t).view c) (ht : ∀ c, off c ≤ (s.loc c).top) (h : s.step t i ok = some s') :
    ∃ j, (rebase off st s).step t j ok = some (rebase off st s') := by
  unfold AConc.step at h
  split at h <;> rename_i hpc <;> rw [hpc] at hp
  · simp at h
  · simp at h; subst h
    refine ⟨0, ?_⟩
    unfold AConc.step
    simp only [rebase_goto]
    rw [show ((rebase off st s).th t).pc = .rmw [] from hpc]
  · rename_i op ops
    simp at h; subst h
    refine ⟨0, ?_⟩
    unfold AConc.step
    rw [show ((rebase off st s).th t).pc = .rmw (op :: ops) from hpc]
    simp only [rebase_goto]
    rw [rebase_write st t (ht op.ctr)]
    rw [show ((rebase off st s).loc op.ctr).last = (s.loc op.ctr).last from reLoc_last (ht _)]
  · refine ⟨i - off .currentUsedMemory, ?_⟩
    unfold AConc.step
    rw [show ((rebase off st s).th t).pc = .loadCur from hpc]
    exact rebase_load st (ha _) h
  · rename_i cur
    refine ⟨i - off .minUsedMemory, ?_⟩
    unfold AConc.step
    rw [show ((rebase off st s).th t).pc = .loadMin cur from hpc]
    exact rebase_load st (ha _) h
  · rename_i cur mn
    split at h
    · rename_i hok
      split at h
      · rename_i hl
        simp at h; subst h
        refine ⟨0, ?_⟩
        unfold AConc.step
        rw [show ((rebase off st s).th t).pc = .casMin cur mn from hpc]
        simp only [hok, if_true]
        rw [show ((rebase off st s).loc .minUsedMemory).last = (s.loc .minUsedMemory).last from reLoc_last (ht _), if_pos hl,
          rebase_goto, rebase_write st t (ht _)]
      · simp at h
    · rename_i hok
      refine ⟨i - off .minUsedMemory, ?_⟩
      unfold AConc.step
      rw [show ((rebase off st s).th t).pc = .casMin cur mn from hpc]
      simp only [hok]
      exact rebase_load st (ha _) h
  · rename_i cur
    refine ⟨i - off .maxUsedMemory, ?_⟩
    unfold AConc.step
    rw [show ((rebase off st s).th t).pc = .loadMax cur from hpc]
    exact rebase_load st (ha _) h
  · rename_i cur mx
    split at h
    · rename_i hok
      split at h
      · rename_i hl
        simp at h; subst h
        refine ⟨0, ?_⟩
        unfold AConc.step
        rw [show ((rebase off st s).th t).pc = .casMax cur mx from hpc]
        simp only [hok, if_true]
        rw [show ((rebase off st s).loc .maxUsedMemory).last = (s.loc .maxUsedMemory).last from reLoc_last (ht _), if_pos hl,
          rebase_goto, rebase_write st t (ht _)]
      · simp at h
    · rename_i hok
      refine ⟨i - off .maxUsedMemory, ?_⟩
      unfold AConc.step
      rw [show ((rebase off st s).th t).pc = .casMax cur mx from hpc]
      simp only [hok]
      exact rebase_load st (ha _) h
  all_goals exact hp.elim

/-- what one step of a thread in no save point and no request does -/
structure PlainStep (s s' : AConc) (t : Nat) : Prop where
  dest : plain (s'.th t).pc
  others : ∀ u, u ≠ t → s'.th u = s.th u
  slots : s'.slots = s.slots
  saved : s'.saved = s.saved
  results : s'.results = s.results
  later : LocLater s s'
  grew : ∀ c, (s.th t).view c ≤ (s.loc c).top → (s.th t).view c ≤ (s'.th t).view c
  bound : ∀ c, (s.th t).view c ≤ (s.loc c).top → (s'.th t).view c ≤ (s'.loc c).top
  wrote : ∀ c, (s'.loc c).top = (s.loc c).top ∨ (s'.th t).view c = (s'.loc c).top
  size : s'.size = s.size
  profile : s'.profile = s.profile

theorem PlainStep.load {s s' : AConc} {t c i} {k : Nat → APc} (hk : ∀ v, plain (k v)) (h : s.load t c i k = some s') :
    PlainStep s s' t := by
  obtain ⟨rfl, h1, h2⟩ := load_some h
  refine ⟨by rw [goto_pc, if_pos rfl]; exact hk _, fun u hu => th_load hu, rfl, rfl, rfl, LocLater.refl rfl, ?_, ?_,
    fun _ => Or.inl rfl, rfl, rfl⟩
  · intro d hd
    rw [goto_view, see_view]
    split
    · rename_i e; obtain ⟨_, rfl⟩ := e; exact h1
    · exact Nat.le_refl _
  · intro d hd
    rw [goto_view, see_view]
    split
    · rename_i e; obtain ⟨_, rfl⟩ := e; exact h2
    · exact hd

theorem PlainStep.write {s : AConc} {t c v pc} (hk : plain pc) : PlainStep s ((s.write t c v).goto t pc) t := by
  refine ⟨by rw [goto_pc, if_pos rfl]; exact hk, fun u hu => th_write hu, rfl, rfl, rfl, locLater_write _ _ _ _ _, ?_, ?_, ?_, rfl, rfl⟩
  · intro d hd
    rw [goto_view, write_view]
    split
    · rename_i e; obtain ⟨_, rfl⟩ := e; omega
    · exact Nat.le_refl _
  · intro d hd
    rw [goto_view, write_view, goto_loc, write_loc]
    split
    · rename_i e; obtain ⟨_, rfl⟩ := e; simp
    · rename_i e; rw [if_neg (fun x => e ⟨rfl, x⟩)]; exact hd
  · intro d
    rw [goto_view, write_view, goto_loc, write_loc]
    by_cases hd : d = c
    · subst hd; right; simp
    · left; rw [if_neg hd]

theorem plain_step {s s' : AConc} {t i ok} (hp : plain (s.th t).pc) (h : s.step t i ok = some s') : PlainStep s s' t := by
  unfold AConc.step at h
  split at h <;> rename_i hpc <;> rw [hpc] at hp
  · simp at h
  · simp at h; subst h
    refine ⟨by rw [goto_pc, if_pos rfl]; trivial, fun u hu => goto_other hu, rfl, rfl, rfl, LocLater.refl rfl, ?_, ?_,
      fun _ => Or.inl rfl, rfl, rfl⟩
    · intro d hd; rw [goto_view]
    · intro d hd; rw [goto_view]; exact hd
  · simp at h; subst h; exact .write (plain_toRmw _)
  · exact .load (k := .loadMin) (fun _ => trivial) h
  · exact .load (fun _ => plain_toMin _ _) h
  · split at h
    · split at h
      · simp at h; subst h; exact .write trivial
      · simp at h
    · exact .load (fun _ => plain_toMin _ _) h
  · exact .load (fun _ => plain_toMax _ _) h
  · split at h
    · split at h
      · simp at h; subst h; exact .write trivial
      · simp at h
    · exact .load (fun _ => plain_toMax _ _) h
  all_goals exact hp.elim

end BigO
