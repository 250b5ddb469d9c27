import Verif.Proofs.AllocConc
import Mathlib.Algebra.Order.BigOperators.Group.Finset

/-!
# Statistics since a save point, whatever other threads do
-/
namespace BigO

/-! ### counters never decrease -/

/-- only the used memory is ever subtracted from -/
def pcAdds : APc → Prop
  | .rmw ops => ∀ op ∈ ops, ∀ c n, op = .sub c n → c = .currentUsedMemory
  | _ => True

theorem pcAdds_toRmw {ops : List Rmw} (h : ∀ op ∈ ops, ∀ c n, op = .sub c n → c = .currentUsedMemory) : pcAdds (toRmw ops) := by
  cases ops with
  | nil => trivial
  | cons o os => exact h

theorem pcAdds_call (c : HeapCall) : pcAdds (toRmw (rmws c)) := by
  apply pcAdds_toRmw
  cases c with
  | alloc n ok => simp [rmws]
  | dealloc n => simp [rmws]
  | allocZeroed n ok => simp [rmws]
  | realloc a b ok =>
    simp only [rmws]
    split
    · simp
    · split
      · simp
      · simp

theorem pcAdds_toMin (a b) : pcAdds (toMin a b) := by unfold toMin; split <;> trivial
theorem pcAdds_toMax (a b) : pcAdds (toMax a b) := by unfold toMax; split <;> trivial

/-- for each thread -/
def AllAdds (s : AConc) : Prop := ∀ t, pcAdds (s.th t).pc

theorem AllAdds.goto {s s' : AConc} (h : AllAdds s) {t pc} (hp : pcAdds pc) (hs' : ∀ u, (s'.th u).pc = (s.th u).pc) :
    AllAdds (s'.goto t pc) := by
  intro u; rw [goto_pc]; split
  · exact hp
  · rw [hs']; exact h u

theorem pcAdds_delta {pc : APc} (h : pc = .idle ∨ isDelta pc) : pcAdds pc := by
  rcases h with rfl | h
  · trivial
  · cases pc <;> first | exact h.elim | trivial

theorem AllAdds.step {s s' : AConc} {t i ok} (h : AllAdds s) (hst : s.step t i ok = some s') : AllAdds s' := by
  have hwf := h t
  by_cases hd : isDelta (s.th t).pc
  · obtain ⟨s1, pc, rfl, D⟩ := delta_step hd hst
    exact h.goto (pcAdds_delta D.dest) D.pcs
  unfold AConc.step at hst
  split at hst
  · simp at hst
  · simp at hst; subst hst; exact h.goto trivial (fun _ => rfl)
  · rename_i op ops hpc
    simp at hst; subst hst; rw [hpc] at hwf
    exact h.goto (pcAdds_toRmw fun o ho => hwf o (by simp [ho])) (by simp)
  · obtain ⟨rfl, _⟩ := load_some hst; exact h.goto trivial (by simp)
  · obtain ⟨rfl, _⟩ := load_some hst; exact h.goto (pcAdds_toMin _ _) (by simp)
  · split at hst
    · split at hst
      · simp at hst; subst hst; exact h.goto trivial (by simp)
      · simp at hst
    · obtain ⟨rfl, _⟩ := load_some hst; exact h.goto (pcAdds_toMin _ _) (by simp)
  · obtain ⟨rfl, _⟩ := load_some hst; exact h.goto (pcAdds_toMax _ _) (by simp)
  · split at hst
    · split at hst
      · simp at hst; subst hst; exact h.goto trivial (by simp)
      · simp at hst
    · obtain ⟨rfl, _⟩ := load_some hst; exact h.goto (pcAdds_toMax _ _) (by simp)
  · obtain ⟨rfl, _⟩ := load_some hst; exact h.goto trivial (by simp)
  · obtain ⟨rfl, _⟩ := load_some hst; exact h.goto trivial (by simp)
  · simp at hst; subst hst; exact h.goto trivial (fun _ => rfl)
  · simp at hst; subst hst; exact h.goto trivial (fun _ => rfl)
  · obtain ⟨rfl, _⟩ := load_some hst; exact h.goto trivial (by simp)
  · simp at hst; subst hst; exact h.goto trivial (by simp)
  · obtain ⟨rfl, _⟩ := load_some hst; exact h.goto trivial (by simp)
  · simp at hst; subst hst; exact h.goto trivial (by simp)
  · simp at hst; subst hst; exact h.goto trivial (fun _ => rfl)
  · obtain ⟨rfl, _⟩ := load_some hst; exact h.goto trivial (by simp)
  all_goals exact absurd (by rename_i hpc; rw [hpc]; trivial) hd

theorem AllAdds.act {s s' : AConc} {a} (h : AllAdds s) (ha : s.act a = some s') : AllAdds s' := by
  cases a with
  | call t c =>
    simp only [AConc.act] at ha
    split at ha
    · simp at ha; subst ha; exact h.goto (pcAdds_call c) (fun _ => rfl)
    · simp at ha
  | save t =>
    simp only [AConc.act] at ha
    split at ha
    · simp at ha; subst ha; exact h.goto trivial (fun _ => rfl)
    · simp at ha
  | delta t k =>
    simp only [AConc.act] at ha
    split at ha
    · split at ha
      · simp at ha
      · simp at ha; subst ha; exact h.goto trivial (by simp)
    · simp at ha
  | sync t u =>
    simp only [AConc.act] at ha
    split at ha
    · simp at ha; subst ha; intro w; rw [learn_pc]; exact h w
    · simp at ha
  | step t i ok => exact h.step ha

/-- statistic `k`: exactly the initial value and all calls entered, less what threads have still to do -/
def ExactSum (n : Nat) (s0 : Stats) (k : Ctr) (s : AConc) : Prop :=
  ((s.loc k).last : Int) = (s0 k : Int) + (s.started.map (callEff k)).sum - ∑ t ∈ Finset.range n, pendEff k (s.th t).pc

theorem deltaCtr_ne {k : Ctr} (hk : k ∈ deltaCtrs) : k ≠ .minUsedMemory ∧ k ≠ .maxUsedMemory ∧ k ≠ .currentUsedMemory := by
  refine ⟨?_, ?_, ?_⟩ <;> rintro rfl <;> simp [deltaCtrs] at hk

theorem eff_nonneg {k : Ctr} (hk : k ∈ deltaCtrs) {op : Rmw} (h : ∀ c n, op = .sub c n → c = .currentUsedMemory) : 0 ≤ op.eff k := by
  cases op with
  | add c n => simp only [Rmw.eff]; split <;> omega
  | sub c n =>
    have := h c n rfl
    subst this
    simp [Rmw.eff, Ne.symm (deltaCtr_ne hk).2.2]

theorem sum_eff_nonneg {k : Ctr} (hk : k ∈ deltaCtrs) : ∀ ops : List Rmw,
    (∀ op ∈ ops, ∀ c n, op = .sub c n → c = .currentUsedMemory) → 0 ≤ (ops.map (Rmw.eff k)).sum
  | [], _ => by simp
  | op :: ops, h => by
    have h1 := eff_nonneg hk (h op (by simp))
    have h2 := sum_eff_nonneg hk ops fun o ho => h o (by simp [ho])
    simp only [List.map_cons, List.sum_cons]
    omega

theorem pendEff_nonneg {k : Ctr} (hk : k ∈ deltaCtrs) {pc : APc} (h : pcAdds pc) : 0 ≤ pendEff k pc := by
  cases pc
  case rmw ops => exact sum_eff_nonneg hk ops h
  all_goals simp [pendEff]

/-- a read-modify-write of a counter that has room for all calls made adds exactly its amount -/
theorem room {n : Nat} {s0 : Stats} {k : Ctr} (hk : k ∈ deltaCtrs) {s : AConc} {t : Nat} (ht : t < n) (ha : AllAdds s)
    (h : ExactSum n s0 k s) (hb : (s0 k : Int) + (s.started.map (callEff k)).sum < 2 ^ 64) {op : Rmw} {ops : List Rmw}
    (hpc : (s.th t).pc = .rmw (op :: ops)) (hc : op.ctr = k) :
    ∃ m : Nat, op = .add k m ∧ op.apply (s.loc k).last = (s.loc k).last + m := by
  have hat := ha t
  rw [hpc] at hat
  cases op with
  | sub c m =>
    have := hat _ (by simp) c m rfl
    exact absurd (this ▸ hc).symm (deltaCtr_ne hk).2.2
  | add c m =>
    have hck : c = k := hc
    subst hck
    refine ⟨m, rfl, ?_⟩
    have hm : t ∈ Finset.range n := Finset.mem_range.2 ht
    have h1 : (m : Int) ≤ pendEff c (s.th t).pc := by
      rw [hpc]
      simp only [pendEff, List.map_cons, List.sum_cons, Rmw.eff, if_pos]
      have := sum_eff_nonneg hk ops fun o ho => hat o (by simp [ho])
      omega
    have h2 : pendEff c (s.th t).pc ≤ ∑ u ∈ Finset.range n, pendEff c (s.th u).pc := by
      rw [← Finset.add_sum_erase _ _ hm]
      have : 0 ≤ ∑ u ∈ (Finset.range n).erase t, pendEff c (s.th u).pc :=
        Finset.sum_nonneg fun u _ => pendEff_nonneg hk (ha u)
      omega
    unfold ExactSum at h
    simp only [Rmw.apply]
    apply Nat.mod_eq_of_lt
    have hM : usizeMod = 2 ^ 64 := rfl
    rw [hM]
    omega

/-- what a step does to a counter `k`: nothing, or the next read-modify-write of the thread -/
inductive Effect (k : Ctr) (s s' : AConc) (t : Nat) : Prop
  | rmw (op : Rmw) (ops : List Rmw) (hpc : (s.th t).pc = .rmw (op :: ops)) (hc : op.ctr = k)
      (e : s' = (s.write t op.ctr (op.apply (s.loc op.ctr).last)).goto t (toRmw ops))
  | none (s1 : AConc) (pc : APc) (e : s' = s1.goto t pc) (hpcs : ∀ u, (s1.th u).pc = (s.th u).pc) (hloc : s1.loc k = s.loc k)
      (hst : s1.started = s.started) (hp : pendEff k pc = pendEff k (s.th t).pc)

theorem step_effect {k : Ctr} (hk1 : k ≠ .minUsedMemory) (hk2 : k ≠ .maxUsedMemory) {s s' : AConc} {t i ok}
    (hst : s.step t i ok = some s') : Effect k s s' t := by
  by_cases hd : isDelta (s.th t).pc
  · obtain ⟨s1, pc, rfl, D⟩ := delta_step hd hst
    exact .none s1 pc rfl D.pcs (by rw [D.loc]) D.started (by rw [pendEff_delta D.dest, pendEff_delta (Or.inr hd)])
  unfold AConc.step at hst
  split at hst
  · simp at hst
  · rename_i hpc; simp at hst; subst hst
    exact .none s _ rfl (fun _ => rfl) rfl rfl (by rw [hpc]; rfl)
  · rename_i op ops hpc
    simp at hst; subst hst
    by_cases hc : op.ctr = k
    · exact .rmw op ops hpc hc rfl
    · refine .none _ _ rfl (by simp) ?_ rfl ?_
      · rw [write_loc, if_neg (Ne.symm hc)]
      · rw [hpc, pendEff_toRmw]
        simp only [pendEff, List.map_cons, List.sum_cons]
        have : op.eff k = 0 := by cases op <;> simp_all [Rmw.eff, Rmw.ctr]
        omega
  · rename_i hpc; obtain ⟨rfl, _⟩ := load_some hst; exact .none _ _ rfl (by simp) rfl rfl (by rw [hpc]; rfl)
  · rename_i hpc; obtain ⟨rfl, _⟩ := load_some hst; exact .none _ _ rfl (by simp) rfl rfl (by rw [hpc, pendEff_toMin]; rfl)
  · rename_i hpc
    split at hst
    · split at hst
      · simp at hst; subst hst
        exact .none _ _ rfl (by simp) (by rw [write_loc, if_neg hk1]) rfl (by rw [hpc]; rfl)
      · simp at hst
    · obtain ⟨rfl, _⟩ := load_some hst; exact .none _ _ rfl (by simp) rfl rfl (by rw [hpc, pendEff_toMin]; rfl)
  · rename_i hpc; obtain ⟨rfl, _⟩ := load_some hst; exact .none _ _ rfl (by simp) rfl rfl (by rw [hpc, pendEff_toMax]; rfl)
  · rename_i hpc
    split at hst
    · split at hst
      · simp at hst; subst hst
        exact .none _ _ rfl (by simp) (by rw [write_loc, if_neg hk2]) rfl (by rw [hpc]; rfl)
      · simp at hst
    · obtain ⟨rfl, _⟩ := load_some hst; exact .none _ _ rfl (by simp) rfl rfl (by rw [hpc, pendEff_toMax]; rfl)
  · rename_i hpc; obtain ⟨rfl, _⟩ := load_some hst; exact .none _ _ rfl (by simp) rfl rfl (by rw [hpc]; rfl)
  · rename_i hpc; obtain ⟨rfl, _⟩ := load_some hst; exact .none _ _ rfl (by simp) rfl rfl (by rw [hpc]; rfl)
  · rename_i hpc; simp at hst; subst hst; exact .none _ _ rfl (fun _ => rfl) rfl rfl (by rw [hpc]; rfl)
  · rename_i hpc; simp at hst; subst hst; exact .none _ _ rfl (fun _ => rfl) rfl rfl (by rw [hpc]; rfl)
  · rename_i hpc; obtain ⟨rfl, _⟩ := load_some hst; exact .none _ _ rfl (by simp) rfl rfl (by rw [hpc]; rfl)
  · rename_i hpc; simp at hst; subst hst
    exact .none _ _ rfl (by simp) (by rw [write_loc, if_neg hk1]) rfl (by rw [hpc]; rfl)
  · rename_i hpc; obtain ⟨rfl, _⟩ := load_some hst; exact .none _ _ rfl (by simp) rfl rfl (by rw [hpc]; rfl)
  · rename_i hpc; simp at hst; subst hst
    exact .none _ _ rfl (by simp) (by rw [write_loc, if_neg hk2]) rfl (by rw [hpc]; rfl)
  · rename_i hpc; simp at hst; subst hst; exact .none _ _ rfl (fun _ => rfl) rfl rfl (by rw [hpc]; rfl)
  · rename_i hpc; obtain ⟨rfl, _⟩ := load_some hst; exact .none _ _ rfl (by simp) rfl rfl (by rw [hpc]; rfl)
  all_goals exact absurd (by rename_i hpc; rw [hpc]; trivial) hd

/-- the modification order of `k` is non-decreasing -/
def Grows (k : Ctr) (s : AConc) : Prop := ∀ i j, i ≤ j → j ≤ (s.loc k).top → (s.loc k).val i ≤ (s.loc k).val j

theorem grows_push {l : Loc} (h : ∀ i j, i ≤ j → j ≤ l.top → l.val i ≤ l.val j) {v : Nat} (hv : l.last ≤ v) :
    ∀ i j, i ≤ j → j ≤ (l.push v).top → (l.push v).val i ≤ (l.push v).val j := by
  intro i j hij hj
  rw [push_top] at hj
  rw [push_val, push_val]
  split
  · split
    · exact Nat.le_refl _
    · omega
  · split
    · exact (h i l.top (by omega) (Nat.le_refl _)).trans hv
    · exact h i j hij (by omega)

/-- the exact count and its growth, together -/
structure CountInv (n : Nat) (s0 : Stats) (k : Ctr) (s : AConc) : Prop where
  adds : AllAdds s
  sum : (s0 k : Int) + (s.started.map (callEff k)).sum < 2 ^ 64 → ExactSum n s0 k s ∧ Grows k s

theorem CountInv.step {n : Nat} {s0 : Stats} {k : Ctr} (hk : k ∈ deltaCtrs) {s s' : AConc} {t i ok} (ht : t < n)
    (h : CountInv n s0 k s) (hst : s.step t i ok = some s') : CountInv n s0 k s' := by
  have hks := deltaCtr_ne hk
  refine ⟨h.adds.step hst, ?_⟩
  rw [started_step hst]
  intro hb
  obtain ⟨h1, h2⟩ := h.sum hb
  cases step_effect hks.1 hks.2.1 hst with
  | none s1 pc e hpcs hloc hstd hp =>
    subst e
    constructor
    · unfold ExactSum at h1 ⊢
      rw [sum_goto ht k s s1 pc hpcs, hp]
      simp only [goto_loc, goto_started, hloc, hstd]
      omega
    · unfold Grows at h2 ⊢
      rw [goto_loc, hloc]; exact h2
  | rmw op ops hpc hc e =>
    obtain ⟨m, ho, hr⟩ := room hk ht h.adds h1 hb hpc hc
    subst e
    constructor
    · unfold ExactSum at h1 ⊢
      rw [sum_goto ht k s _ _ (by simp), hpc, pendEff_toRmw]
      simp only [goto_loc, goto_started, write_started]
      rw [write_loc, if_pos hc.symm, push_last, hc, hr]
      have hpe : pendEff k (.rmw (op :: ops)) = m + (ops.map (Rmw.eff k)).sum := by
        simp [pendEff, ho, Rmw.eff]
      rw [hpe]
      push_cast
      omega
    · unfold Grows
      rw [goto_loc, write_loc, if_pos hc.symm, hc]
      exact grows_push h2 (by omega)

theorem callEff_nonneg {k : Ctr} (hk : k ∈ deltaCtrs) (c : HeapCall) : 0 ≤ callEff k c := by
  have h := pcAdds_call c
  have := pendEff_nonneg hk h
  rw [pendEff_toRmw] at this
  exact this

theorem CountInv.act {n : Nat} {s0 : Stats} {k : Ctr} (hk : k ∈ deltaCtrs) {s s' : AConc} {a : AAct} (ht : a.tid < n)
    (h : CountInv n s0 k s) (ha : s.act a = some s') : CountInv n s0 k s' := by
  have hadds := h.adds.act ha
  cases a with
  | call t c =>
    refine ⟨hadds, ?_⟩
    simp only [AConc.act] at ha
    split at ha
    · rename_i hc
      simp at ha; subst ha
      have e0 : pendEff k .idle = 0 := rfl
      have e1 : callEff k c = ((rmws c).map (Rmw.eff k)).sum := rfl
      simp only [goto_started, List.map_append, List.sum_append, List.map_cons, List.map_nil, List.sum_cons, List.sum_nil]
      intro hb
      have := callEff_nonneg hk c
      obtain ⟨h1, h2⟩ := h.sum (by omega)
      refine ⟨?_, h2⟩
      unfold ExactSum at h1 ⊢
      rw [sum_goto (show t < n from ht) k s { s with started := s.started ++ [c] } _ (fun _ => rfl), pendEff_toRmw, hc.1]
      simp only [goto_loc, goto_started, List.map_append, List.sum_append, List.map_cons, List.map_nil, List.sum_cons,
        List.sum_nil]
      rw [h1, e0, ← e1]
      omega
    · simp at ha
  | save t =>
    refine ⟨hadds, ?_⟩
    simp only [AConc.act] at ha
    split at ha
    · rename_i hc; simp at ha; subst ha
      intro hb
      obtain ⟨h1, h2⟩ := h.sum hb
      refine ⟨?_, h2⟩
      unfold ExactSum at h1 ⊢
      rw [sum_goto (show t < n from ht) k s s _ (fun _ => rfl), hc]
      simp only [goto_loc, goto_started]
      rw [h1]; simp [pendEff]
    · simp at ha
  | delta t j =>
    refine ⟨hadds, ?_⟩
    simp only [AConc.act] at ha
    split at ha
    · rename_i hc
      split at ha
      · simp at ha
      · simp at ha; subst ha
        intro hb
        obtain ⟨h1, h2⟩ := h.sum hb
        refine ⟨?_, h2⟩
        unfold ExactSum at h1 ⊢
        rw [sum_goto (show t < n from ht) k s _ _ (by simp), hc]
        simp only [goto_loc, goto_started, learn_loc, learn_started]
        rw [h1]; simp [pendEff]
    · simp at ha
  | sync t u =>
    refine ⟨hadds, ?_⟩
    simp only [AConc.act] at ha
    split at ha
    · simp at ha; subst ha
      intro hb
      obtain ⟨h1, h2⟩ := h.sum hb
      refine ⟨?_, h2⟩
      unfold ExactSum at h1 ⊢
      simp only [learn_loc, learn_started, learn_pc]
      exact h1
    · simp at ha
  | step t i ok => exact h.step hk ht ha

end BigO
