import Verif.Spec.AllocConcSpec
import Verif.Proofs.Alloc
import Mathlib.Algebra.BigOperators.Group.Finset.Basic
import Mathlib.Data.List.Forall2

/-!
# Invariants of the concurrent metrics allocator
-/
namespace BigO

/-! ### accessors -/

@[simp] theorem goto_loc (s : AConc) (t pc) : (s.goto t pc).loc = s.loc := rfl
@[simp] theorem goto_slots (s : AConc) (t pc) : (s.goto t pc).slots = s.slots := rfl
@[simp] theorem goto_started (s : AConc) (t pc) : (s.goto t pc).started = s.started := rfl
@[simp] theorem goto_saved (s : AConc) (t pc) : (s.goto t pc).saved = s.saved := rfl
@[simp] theorem see_loc (s : AConc) (t c i) : (s.see t c i).loc = s.loc := rfl
@[simp] theorem see_slots (s : AConc) (t c i) : (s.see t c i).slots = s.slots := rfl
@[simp] theorem see_started (s : AConc) (t c i) : (s.see t c i).started = s.started := rfl
@[simp] theorem see_saved (s : AConc) (t c i) : (s.see t c i).saved = s.saved := rfl
@[simp] theorem write_slots (s : AConc) (t c v) : (s.write t c v).slots = s.slots := rfl
@[simp] theorem write_started (s : AConc) (t c v) : (s.write t c v).started = s.started := rfl
@[simp] theorem write_saved (s : AConc) (t c v) : (s.write t c v).saved = s.saved := rfl
theorem write_loc (s : AConc) (t c v c') : (s.write t c v).loc c' = if c' = c then (s.loc c).push v else s.loc c' := rfl
theorem goto_pc (s : AConc) (t pc u) : ((s.goto t pc).th u).pc = if u = t then pc else (s.th u).pc := by
  simp only [AConc.goto]; split <;> rfl
theorem goto_view (s : AConc) (t pc u) : ((s.goto t pc).th u).view = (s.th u).view := by
  simp only [AConc.goto]; split <;> simp_all
@[simp] theorem see_pc (s : AConc) (t c i u) : ((s.see t c i).th u).pc = (s.th u).pc := by
  simp only [AConc.see]; split <;> simp_all
@[simp] theorem write_pc (s : AConc) (t c v u) : ((s.write t c v).th u).pc = (s.th u).pc := by
  simp only [AConc.write, AConc.see]; split <;> simp_all
theorem see_view (s : AConc) (t c i u c') :
    ((s.see t c i).th u).view c' = if u = t ∧ c' = c then i else (s.th u).view c' := by
  simp only [AConc.see]; split
  · subst_vars; simp
  · simp_all
theorem write_view (s : AConc) (t c v u c') :
    ((s.write t c v).th u).view c' = if u = t ∧ c' = c then (s.loc c).top + 1 else (s.th u).view c' := by
  simp only [AConc.write]; rw [see_view]
@[simp] theorem push_last (l : Loc) (v) : (l.push v).last = v := by simp [Loc.push, Loc.last]
@[simp] theorem push_top (l : Loc) (v) : (l.push v).top = l.top + 1 := rfl
theorem push_val (l : Loc) (v i) : (l.push v).val i = if i = l.top + 1 then v else l.val i := rfl

@[simp] theorem goto_results (s : AConc) (t pc) : (s.goto t pc).results = s.results := rfl
@[simp] theorem see_results (s : AConc) (t c i) : (s.see t c i).results = s.results := rfl
@[simp] theorem write_results (s : AConc) (t c v) : (s.write t c v).results = s.results := rfl
@[simp] theorem goto_profile (s : AConc) (t pc) : (s.goto t pc).profile = s.profile := rfl
@[simp] theorem see_profile (s : AConc) (t c i) : (s.see t c i).profile = s.profile := rfl
@[simp] theorem write_profile (s : AConc) (t c v) : (s.write t c v).profile = s.profile := rfl
@[simp] theorem goto_size (s : AConc) (t pc) : (s.goto t pc).size = s.size := rfl
@[simp] theorem see_size (s : AConc) (t c i) : (s.see t c i).size = s.size := rfl
@[simp] theorem write_size (s : AConc) (t c v) : (s.write t c v).size = s.size := rfl
@[simp] theorem learn_loc (s : AConc) (t v) : (s.learn t v).loc = s.loc := rfl
@[simp] theorem learn_slots (s : AConc) (t v) : (s.learn t v).slots = s.slots := rfl
@[simp] theorem learn_started (s : AConc) (t v) : (s.learn t v).started = s.started := rfl
@[simp] theorem learn_saved (s : AConc) (t v) : (s.learn t v).saved = s.saved := rfl
@[simp] theorem learn_results (s : AConc) (t v) : (s.learn t v).results = s.results := rfl
@[simp] theorem learn_profile (s : AConc) (t v) : (s.learn t v).profile = s.profile := rfl
@[simp] theorem learn_size (s : AConc) (t v) : (s.learn t v).size = s.size := rfl
@[simp] theorem learn_pc (s : AConc) (t v u) : ((s.learn t v).th u).pc = (s.th u).pc := by
  simp only [AConc.learn]; split <;> simp_all
theorem learn_view (s : AConc) (t v u c) :
    ((s.learn t v).th u).view c = if u = t then Nat.max ((s.th t).view c) (v c) else (s.th u).view c := by
  simp only [AConc.learn]; split <;> simp_all

theorem load_some {s s' : AConc} {t c i k} (h : s.load t c i k = some s') :
    s' = (s.see t c i).goto t (k ((s.loc c).val i)) ∧ (s.th t).view c ≤ i ∧ i ≤ (s.loc c).top := by
  unfold AConc.load at h
  split at h
  · rename_i hr
    simp [AConc.readable] at hr
    simp at h
    exact ⟨h.symm, hr⟩
  · simp at h

/-- in `delta_statistics` -/
def isDelta : APc → Prop
  | .dPeek _ => True
  | .dMin _ _ _ => True
  | .dMax _ _ _ => True
  | .dLoad _ _ _ _ _ => True
  | .dCur _ _ _ _ => True
  | _ => False

instance (pc) : Decidable (isDelta pc) := by cases pc <;> unfold isDelta <;> infer_instance

/-- a step within `delta_statistics` writes to no statistic -/
structure DeltaStep (s s1 : AConc) (t : Nat) (pc : APc) : Prop where
  loc : s1.loc = s.loc
  pcs : ∀ u, (s1.th u).pc = (s.th u).pc
  others : ∀ u, u ≠ t → s1.th u = s.th u
  slots : s1.slots = s.slots
  started : s1.started = s.started
  saved : s1.saved = s.saved
  dest : pc = .idle ∨ isDelta pc

theorem see_other {s : AConc} {t u c i} (h : u ≠ t) : (s.see t c i).th u = s.th u := by simp [AConc.see, h]

theorem delta_step {s s' : AConc} {t i ok} (hd : isDelta (s.th t).pc) (h : s.step t i ok = some s') :
    ∃ s1 pc, s' = s1.goto t pc ∧ DeltaStep s s1 t pc := by
  unfold AConc.step at h
  split at h <;> rename_i hpc <;> rw [hpc] at hd <;> try exact hd.elim
  · split at h
    · simp at h
    · split at h
      · simp at h; subst h
        exact ⟨_, _, rfl, rfl, fun _ => rfl, fun _ _ => rfl, rfl, rfl, rfl, Or.inl rfl⟩
      · simp at h; subst h
        exact ⟨_, _, rfl, rfl, fun _ => rfl, fun _ _ => rfl, rfl, rfl, rfl, Or.inr trivial⟩
  · obtain ⟨rfl, _⟩ := load_some h
    exact ⟨_, _, rfl, rfl, by simp, fun _ => see_other, rfl, rfl, rfl, Or.inr trivial⟩
  · split at h
    · simp at h
    · obtain ⟨rfl, _⟩ := load_some h
      exact ⟨_, _, rfl, rfl, by simp, fun _ => see_other, rfl, rfl, rfl, Or.inr trivial⟩
  · simp at h; subst h
    exact ⟨_, _, rfl, rfl, fun _ => rfl, fun _ _ => rfl, rfl, rfl, rfl, Or.inr trivial⟩
  · split at h
    · split at h
      · simp at h; subst h
        exact ⟨_, _, rfl, rfl, by simp, fun _ => see_other, rfl, rfl, rfl, Or.inl rfl⟩
      · simp at h; subst h
        exact ⟨_, _, rfl, rfl, by simp, fun _ => see_other, rfl, rfl, rfl, Or.inr trivial⟩
    · simp at h
  · split at h
    · simp at h; subst h
      exact ⟨_, _, rfl, rfl, by simp, fun _ => see_other, rfl, rfl, rfl, Or.inl rfl⟩
    · simp at h

/-! ### sums -/

/-- what a read-modify-write adds to a statistic -/
def Rmw.eff (k : Ctr) : Rmw → Int
  | .add c n => if c = k then n else 0
  | .sub c n => if c = k then -n else 0

/-- still to be added to statistic `k` by a thread at `pc` -/
def pendEff (k : Ctr) : APc → Int
  | .rmw ops => (ops.map (Rmw.eff k)).sum
  | _ => 0

/-- the amount of a read-modify-write -/
def Rmw.amount : Rmw → Nat
  | .add _ n => n
  | .sub _ n => n

/-- a thread's pending read-modify-writes are sane: amounts fit, none touches the extremes, the one on the used memory
comes last -/
def pcWf : APc → Prop
  | .rmw ops => (∀ op ∈ ops, op.amount < usizeMod ∧ op.ctr ≠ .minUsedMemory ∧ op.ctr ≠ .maxUsedMemory) ∧
      ∀ op rest pre, ops = pre ++ op :: rest → op.ctr = .currentUsedMemory → rest = []
  | .casMin cur mn => cur < mn
  | .casMax cur mx => mx < cur
  | _ => True

theorem pendEff_toRmw (k : Ctr) (ops : List Rmw) : pendEff k (toRmw ops) = (ops.map (Rmw.eff k)).sum := by
  cases ops <;> rfl

theorem pcWf_toRmw_tail {op : Rmw} {ops : List Rmw} (h : pcWf (.rmw (op :: ops))) : pcWf (toRmw ops) := by
  cases ops with
  | nil => trivial
  | cons o os =>
    refine ⟨fun x hx => h.1 x (by simp at hx ⊢; tauto), fun x rest pre he hx => ?_⟩
    exact h.2 x rest (op :: pre) (by rw [he]; rfl) hx

theorem pcWf_call {c : HeapCall} (h : c.sized = true) : pcWf (toRmw (rmws c)) := by
  have key : ∀ (a b : Rmw) (l : List Rmw), (∀ op ∈ l, op.ctr ≠ .currentUsedMemory) → ∀ x,
      ∀ op rest pre, l ++ [x] = pre ++ op :: rest → op.ctr = .currentUsedMemory → rest = [] := by
    intro _ _ l hl x op rest pre he hop
    rcases List.eq_nil_or_concat rest with hr | ⟨r, y, hr⟩
    · exact hr
    · exfalso
      rw [List.concat_eq_append] at hr
      subst hr
      have h2 : l ++ [x] = (pre ++ op :: r) ++ [y] := by rw [he]; simp
      have h3 := (List.append_inj' h2 rfl).1
      exact hl op (by rw [h3]; simp) hop
  have key0 : ∀ l : List Rmw, (∀ op ∈ l, op.ctr ≠ .currentUsedMemory) →
      ∀ op rest pre, l = pre ++ op :: rest → op.ctr = .currentUsedMemory → rest = [] := by
    intro l hl op rest pre he hop
    exact absurd hop (hl op (by rw [he]; simp))
  have h1 : 1 < usizeMod := by decide
  cases c with
  | alloc n ok =>
    simp [HeapCall.sized] at h
    refine ⟨by simp [Rmw.amount, Rmw.ctr, h, h1], ?_⟩
    exact key (.add .allocationsCount 1) (.add .allocationsCount 1) [_, _] (by simp [Rmw.ctr]) _
  | dealloc n =>
    simp [HeapCall.sized] at h
    refine ⟨by simp [Rmw.amount, Rmw.ctr, h, h1], ?_⟩
    exact key (.add .allocationsCount 1) (.add .allocationsCount 1) [_, _] (by simp [Rmw.ctr]) _
  | allocZeroed n ok =>
    simp [HeapCall.sized] at h
    refine ⟨by simp [Rmw.amount, Rmw.ctr, h, h1], ?_⟩
    exact key (.add .allocationsCount 1) (.add .allocationsCount 1) [_, _] (by simp [Rmw.ctr]) _
  | realloc a b ok =>
    simp [HeapCall.sized] at h
    simp only [rmws]
    split
    · refine ⟨by simp [Rmw.amount, Rmw.ctr, h, h1]; omega, ?_⟩
      exact key (.add .allocationsCount 1) (.add .allocationsCount 1) [_, _, _] (by simp [Rmw.ctr]) _
    · split
      · refine ⟨by simp [Rmw.amount, Rmw.ctr, h, h1]; omega, ?_⟩
        exact key (.add .allocationsCount 1) (.add .allocationsCount 1) [_, _, _] (by simp [Rmw.ctr]) _
      · refine ⟨by simp [Rmw.amount, Rmw.ctr, h, h1], ?_⟩
        exact key0 [_, _, _] (by simp [Rmw.ctr])

theorem pcWf_toMin (a b) : pcWf (toMin a b) := by unfold toMin; split <;> simp [pcWf, *]
theorem pcWf_toMax (a b) : pcWf (toMax a b) := by unfold toMax; split <;> simp_all [pcWf]

/-- every thread's place is sane -/
def AllWf (s : AConc) : Prop := ∀ t, pcWf (s.th t).pc

theorem AllWf.goto {s s' : AConc} (h : AllWf s) {t pc} (hp : pcWf pc) (hs' : ∀ u, (s'.th u).pc = (s.th u).pc) :
    AllWf (s'.goto t pc) := by
  intro u; rw [goto_pc]; split
  · exact hp
  · rw [hs']; exact h u

theorem pcWf_delta {pc : APc} (h : pc = .idle ∨ isDelta pc) : pcWf pc := by
  rcases h with rfl | h
  · trivial
  · cases pc <;> first | exact h.elim | trivial

theorem AllWf.step {s s' : AConc} {t i ok} (h : AllWf s) (hst : s.step t i ok = some s') : AllWf s' := by
  have hwf := h t
  by_cases hd : isDelta (s.th t).pc
  · obtain ⟨s1, pc, rfl, D⟩ := delta_step hd hst
    exact h.goto (pcWf_delta D.dest) D.pcs
  unfold AConc.step at hst
  split at hst
  · simp at hst
  · simp at hst; subst hst; exact h.goto trivial (fun _ => rfl)
  · rename_i op ops hpc
    simp at hst; subst hst; rw [hpc] at hwf
    exact h.goto (pcWf_toRmw_tail hwf) (by simp)
  · obtain ⟨rfl, _⟩ := load_some hst; exact h.goto trivial (by simp)
  · obtain ⟨rfl, _⟩ := load_some hst; exact h.goto (pcWf_toMin _ _) (by simp)
  · split at hst
    · split at hst
      · simp at hst; subst hst; exact h.goto trivial (by simp)
      · simp at hst
    · obtain ⟨rfl, _⟩ := load_some hst; exact h.goto (pcWf_toMin _ _) (by simp)
  · obtain ⟨rfl, _⟩ := load_some hst; exact h.goto (pcWf_toMax _ _) (by simp)
  · split at hst
    · split at hst
      · simp at hst; subst hst; exact h.goto trivial (by simp)
      · simp at hst
    · obtain ⟨rfl, _⟩ := load_some hst; exact h.goto (pcWf_toMax _ _) (by simp)
  · obtain ⟨rfl, _⟩ := load_some hst; exact h.goto trivial (by simp)
  · obtain ⟨rfl, _⟩ := load_some hst; exact h.goto trivial (by simp)
  · simp at hst; subst hst; exact h.goto trivial (fun _ => rfl)
  · simp at hst; subst hst; exact h.goto trivial (fun _ => rfl)
  · obtain ⟨rfl, _⟩ := load_some hst; exact h.goto trivial (by simp)
  · simp at hst; subst hst; exact h.goto trivial (by simp)
  · obtain ⟨rfl, _⟩ := load_some hst; exact h.goto trivial (by simp)
  · simp at hst; subst hst; exact h.goto trivial (by simp)
  · simp at hst; subst hst; exact h.goto trivial (fun _ => rfl)
  · obtain ⟨rfl, _⟩ := load_some hst; exact h.goto trivial (by simp)
  all_goals exact absurd (by rename_i hpc; rw [hpc]; trivial) hd

theorem AllWf.act {s s' : AConc} {a} (h : AllWf s) (ha : s.act a = some s') : AllWf s' := by
  cases a with
  | call t c =>
    simp only [AConc.act] at ha
    split at ha
    · rename_i hc; simp at ha; subst ha; exact h.goto (pcWf_call hc.2) (fun _ => rfl)
    · simp at ha
  | save t =>
    simp only [AConc.act] at ha
    split at ha
    · simp at ha; subst ha; exact h.goto trivial (fun _ => rfl)
    · simp at ha
  | delta t k =>
    simp only [AConc.act] at ha
    split at ha
    · split at ha
      · simp at ha
      · simp at ha; subst ha; exact h.goto trivial (by simp)
    · simp at ha
  | sync t u =>
    simp only [AConc.act] at ha
    split at ha
    · simp at ha; subst ha; intro w; rw [learn_pc]; exact h w
    · simp at ha
  | step t i ok => exact h.step ha

/-- induction over schedules -/
theorem sched_induct {P : AConc → Prop} (hact : ∀ s s' a, P s → s.act a = some s' → P s') :
    ∀ (as : List AAct) (s s' : AConc), P s → s.sched as = some s' → P s' := by
  intro as
  induction as with
  | nil => intro s s' h hs; simp [AConc.sched] at hs; subst hs; exact h
  | cons a as ih =>
    intro s s' h hs
    simp only [AConc.sched] at hs
    split at hs
    · rename_i s1 h1; exact ih s1 s' (hact s s1 a h h1) hs
    · simp at hs

theorem started_step {s s' : AConc} {t i ok} (hst : s.step t i ok = some s') : s'.started = s.started := by
  by_cases hd : isDelta (s.th t).pc
  · obtain ⟨s1, pc, rfl, D⟩ := delta_step hd hst
    exact D.started
  unfold AConc.step at hst
  split at hst
  · simp at hst
  · simp at hst; subst hst; rfl
  · simp at hst; subst hst; rfl
  · obtain ⟨rfl, _⟩ := load_some hst; rfl
  · obtain ⟨rfl, _⟩ := load_some hst; rfl
  · split at hst
    · split at hst
      · simp at hst; subst hst; rfl
      · simp at hst
    · obtain ⟨rfl, _⟩ := load_some hst; rfl
  · obtain ⟨rfl, _⟩ := load_some hst; rfl
  · split at hst
    · split at hst
      · simp at hst; subst hst; rfl
      · simp at hst
    · obtain ⟨rfl, _⟩ := load_some hst; rfl
  · obtain ⟨rfl, _⟩ := load_some hst; rfl
  · obtain ⟨rfl, _⟩ := load_some hst; rfl
  · simp at hst; subst hst; rfl
  · simp at hst; subst hst; rfl
  · obtain ⟨rfl, _⟩ := load_some hst; rfl
  · simp at hst; subst hst; rfl
  · obtain ⟨rfl, _⟩ := load_some hst; rfl
  · simp at hst; subst hst; rfl
  · simp at hst; subst hst; rfl
  · obtain ⟨rfl, _⟩ := load_some hst; rfl
  all_goals exact absurd (by rename_i hpc; rw [hpc]; trivial) hd

theorem started_sched : ∀ (as : List AAct) (s s' : AConc), s.sched as = some s' →
    s'.started = s.started ++ callsIn as := by
  intro as
  induction as with
  | nil => intro s s' h; simp [AConc.sched] at h; subst h; simp [callsIn]
  | cons a as ih =>
    intro s s' h
    simp only [AConc.sched] at h
    split at h
    · rename_i s1 h1
      rw [ih s1 s' h]
      cases a with
      | call t c =>
        simp only [AConc.act] at h1
        split at h1
        · simp at h1; subst h1; simp [callsIn]
        · simp at h1
      | save t =>
        simp only [AConc.act] at h1
        split at h1
        · simp at h1; subst h1; simp [callsIn]
        · simp at h1
      | delta t k =>
        simp only [AConc.act] at h1
        split at h1
        · split at h1
          · simp at h1
          · simp at h1; subst h1; simp [callsIn]
        · simp at h1
      | sync t u =>
        simp only [AConc.act] at h1
        split at h1
        · simp at h1; subst h1; simp [callsIn]
        · simp at h1
      | step t i ok => rw [started_step h1]; rfl
    · simp at h

/-! the sums -/

/-- what a call adds to a statistic -/
def callEff (k : Ctr) (c : HeapCall) : Int := ((rmws c).map (Rmw.eff k)).sum

/-- statistic `k` is the initial value plus all calls entered, less what threads have still to do -/
def SumInv (n : Nat) (s0 : Stats) (k : Ctr) (s : AConc) : Prop :=
  ((s.loc k).last : Int) = ((s0 k : Int) + (s.started.map (callEff k)).sum -
    ∑ t ∈ Finset.range n, pendEff k (s.th t).pc) % (2 ^ 64 : Int)

theorem sum_goto {n t : Nat} (ht : t < n) (k : Ctr) (s s' : AConc) (pc : APc) (hs' : ∀ u, (s'.th u).pc = (s.th u).pc) :
    ∑ u ∈ Finset.range n, pendEff k ((s'.goto t pc).th u).pc =
      (∑ u ∈ Finset.range n, pendEff k (s.th u).pc) - pendEff k (s.th t).pc + pendEff k pc := by
  have hm : t ∈ Finset.range n := Finset.mem_range.2 ht
  rw [← Finset.add_sum_erase _ _ hm, ← Finset.add_sum_erase (Finset.range n) (fun u => pendEff k (s.th u).pc) hm]
  have : ∑ u ∈ (Finset.range n).erase t, pendEff k ((s'.goto t pc).th u).pc =
      ∑ u ∈ (Finset.range n).erase t, pendEff k (s.th u).pc := by
    apply Finset.sum_congr rfl
    intro u hu
    rw [goto_pc, if_neg (Finset.ne_of_mem_erase hu), hs']
  rw [this, goto_pc, if_pos rfl]
  omega

theorem SumInv.quiet {n : Nat} {s0 : Stats} {k : Ctr} {s s' : AConc} {t : Nat} {pc : APc} (ht : t < n)
    (h : SumInv n s0 k s) (hs' : ∀ u, (s'.th u).pc = (s.th u).pc) (hloc : (s'.loc k).last = (s.loc k).last)
    (hstart : s'.started = s.started) (hp : pendEff k pc = pendEff k (s.th t).pc) : SumInv n s0 k (s'.goto t pc) := by
  unfold SumInv at h ⊢
  rw [sum_goto ht k s s' pc hs', hp]
  simp only [goto_loc, goto_started, hloc, hstart]
  rw [h]; congr 2; omega

theorem pendEff_toMin (k a b) : pendEff k (toMin a b) = 0 := by unfold toMin; split <;> rfl
theorem pendEff_toMax (k a b) : pendEff k (toMax a b) = 0 := by unfold toMax; split <;> rfl

theorem apply_eff {op : Rmw} {v : Nat} {x p : Int} (hv : (v : Int) = (x - (op.eff op.ctr + p)) % (2 ^ 64 : Int))
    (ha : op.amount < usizeMod) : ((op.apply v : Nat) : Int) = (x - p) % (2 ^ 64 : Int) := by
  have hM : usizeMod = 2 ^ 64 := rfl
  cases op with
  | add c n => simp only [Rmw.apply, Rmw.eff, Rmw.ctr, if_pos, hM, Rmw.amount] at *; omega
  | sub c n => simp only [Rmw.apply, Rmw.eff, Rmw.ctr, if_pos, hM, Rmw.amount] at *; omega

theorem pendEff_delta {k : Ctr} {pc : APc} (h : pc = .idle ∨ isDelta pc) : pendEff k pc = 0 := by
  rcases h with rfl | h
  · rfl
  · cases pc <;> first | exact h.elim | rfl

theorem SumInv.step {n : Nat} {s0 : Stats} {k : Ctr} (hk1 : k ≠ .minUsedMemory) (hk2 : k ≠ .maxUsedMemory) {s s' : AConc}
    {t i ok} (ht : t < n) (hwf : AllWf s) (h : SumInv n s0 k s) (hst : s.step t i ok = some s') : SumInv n s0 k s' := by
  have hwft := hwf t
  by_cases hd : isDelta (s.th t).pc
  · obtain ⟨s1, pc, rfl, D⟩ := delta_step hd hst
    refine h.quiet ht D.pcs (by rw [D.loc]) D.started ?_
    rw [pendEff_delta D.dest, pendEff_delta (Or.inr hd)]
  unfold AConc.step at hst
  split at hst
  · simp at hst
  · rename_i hpc; simp at hst; subst hst
    exact h.quiet ht (fun _ => rfl) rfl rfl (by rw [hpc]; rfl)
  · rename_i op ops hpc
    simp at hst; subst hst
    rw [hpc] at hwft
    by_cases hc : op.ctr = k
    · have hamt := (hwft.1 op (by simp)).1
      unfold SumInv at h ⊢
      rw [sum_goto ht k s _ _ (by simp), hpc, pendEff_toRmw]
      simp only [goto_loc, goto_started, write_started]
      rw [write_loc, if_pos hc.symm, push_last]
      subst hc
      have hpe : pendEff op.ctr (.rmw (op :: ops)) = op.eff op.ctr + (ops.map (Rmw.eff op.ctr)).sum := by
        simp [pendEff]
      rw [hpe]
      generalize (s.started.map (callEff op.ctr)).sum = A at *
      generalize (∑ u ∈ Finset.range n, pendEff op.ctr (s.th u).pc) = B at *
      generalize (ops.map (Rmw.eff op.ctr)).sum = C at *
      have := apply_eff (op := op) (v := (s.loc op.ctr).last) (x := (s0 op.ctr : Int) + A - B + op.eff op.ctr) (p := 0)
        (by rw [h]; congr 1; omega) hamt
      rw [this]; congr 1; omega
    · refine h.quiet ht (by simp) ?_ rfl ?_
      · rw [write_loc, if_neg (Ne.symm hc)]
      · rw [hpc, pendEff_toRmw]
        simp only [pendEff, List.map_cons, List.sum_cons]
        have : op.eff k = 0 := by cases op <;> simp_all [Rmw.eff, Rmw.ctr]
        omega
  · rename_i hpc; obtain ⟨rfl, _⟩ := load_some hst; exact h.quiet ht (by simp) rfl rfl (by rw [hpc]; rfl)
  · rename_i hpc; obtain ⟨rfl, _⟩ := load_some hst; exact h.quiet ht (by simp) rfl rfl (by rw [hpc, pendEff_toMin]; rfl)
  · rename_i hpc
    split at hst
    · split at hst
      · simp at hst; subst hst
        exact h.quiet ht (by simp) (by rw [write_loc, if_neg hk1]) rfl (by rw [hpc]; rfl)
      · simp at hst
    · obtain ⟨rfl, _⟩ := load_some hst; exact h.quiet ht (by simp) rfl rfl (by rw [hpc, pendEff_toMin]; rfl)
  · rename_i hpc; obtain ⟨rfl, _⟩ := load_some hst; exact h.quiet ht (by simp) rfl rfl (by rw [hpc, pendEff_toMax]; rfl)
  · rename_i hpc
    split at hst
    · split at hst
      · simp at hst; subst hst
        exact h.quiet ht (by simp) (by rw [write_loc, if_neg hk2]) rfl (by rw [hpc]; rfl)
      · simp at hst
    · obtain ⟨rfl, _⟩ := load_some hst; exact h.quiet ht (by simp) rfl rfl (by rw [hpc, pendEff_toMax]; rfl)
  · rename_i hpc; obtain ⟨rfl, _⟩ := load_some hst; exact h.quiet ht (by simp) rfl rfl (by rw [hpc]; rfl)
  · rename_i hpc; obtain ⟨rfl, _⟩ := load_some hst; exact h.quiet ht (by simp) rfl rfl (by rw [hpc]; rfl)
  · rename_i hpc; simp at hst; subst hst; exact h.quiet ht (fun _ => rfl) rfl rfl (by rw [hpc]; rfl)
  · rename_i hpc; simp at hst; subst hst; exact h.quiet ht (fun _ => rfl) rfl rfl (by rw [hpc]; rfl)
  · rename_i hpc; obtain ⟨rfl, _⟩ := load_some hst; exact h.quiet ht (by simp) rfl rfl (by rw [hpc]; rfl)
  · rename_i hpc; simp at hst; subst hst
    exact h.quiet ht (by simp) (by rw [write_loc, if_neg hk1]) rfl (by rw [hpc]; rfl)
  · rename_i hpc; obtain ⟨rfl, _⟩ := load_some hst; exact h.quiet ht (by simp) rfl rfl (by rw [hpc]; rfl)
  · rename_i hpc; simp at hst; subst hst
    exact h.quiet ht (by simp) (by rw [write_loc, if_neg hk2]) rfl (by rw [hpc]; rfl)
  · rename_i hpc; simp at hst; subst hst; exact h.quiet ht (fun _ => rfl) rfl rfl (by rw [hpc]; rfl)
  · rename_i hpc; obtain ⟨rfl, _⟩ := load_some hst; exact h.quiet ht (by simp) rfl rfl (by rw [hpc]; rfl)
  all_goals exact absurd (by rename_i hpc; rw [hpc]; trivial) hd

theorem SumInv.act {n : Nat} {s0 : Stats} {k : Ctr} (hk1 : k ≠ .minUsedMemory) (hk2 : k ≠ .maxUsedMemory) {s s' : AConc}
    {a : AAct} (ht : a.tid < n) (hwf : AllWf s) (h : SumInv n s0 k s) (ha : s.act a = some s') : SumInv n s0 k s' := by
  cases a with
  | call t c =>
    simp only [AConc.act] at ha
    split at ha
    · rename_i hc
      simp at ha; subst ha
      unfold SumInv at h ⊢
      rw [sum_goto (show t < n from ht) k s { s with started := s.started ++ [c] } _ (fun _ => rfl), pendEff_toRmw, hc.1]
      simp only [goto_loc, goto_started, List.map_append, List.sum_append, List.map_cons, List.map_nil, List.sum_cons,
        List.sum_nil]
      have e0 : pendEff k .idle = 0 := rfl
      have e1 : callEff k c = ((rmws c).map (Rmw.eff k)).sum := rfl
      rw [h, e0, ← e1]; congr 1
      omega
    · simp at ha
  | save t =>
    simp only [AConc.act] at ha
    split at ha
    · rename_i hc; simp at ha; subst ha; exact h.quiet ht (fun _ => rfl) rfl rfl (by rw [hc]; rfl)
    · simp at ha
  | delta t k =>
    simp only [AConc.act] at ha
    split at ha
    · rename_i hc
      split at ha
      · simp at ha
      · simp at ha; subst ha; exact h.quiet ht (by simp) rfl rfl (by rw [hc]; rfl)
    · simp at ha
  | sync t u =>
    simp only [AConc.act] at ha
    split at ha
    · simp at ha; subst ha
      unfold SumInv at h ⊢
      simp only [learn_loc, learn_started, learn_pc]
      exact h
    · simp at ha
  | step t i ok => exact h.step hk1 hk2 ht hwf ha

theorem allWf_init (pr : Profile) (N : Nat) (s0 : Stats) : AllWf (AConc.init pr N s0) := fun _ => trivial

theorem sumInv_init (pr : Profile) (N : Nat) (n : Nat) (s0 : Stats) (k : Ctr) (h : s0 k < 2 ^ 64) : SumInv n s0 k (AConc.init pr N s0) := by
  unfold SumInv
  simp only [AConc.init, Loc.last, pendEff, Finset.sum_const_zero, List.map_nil, List.sum_nil]
  omega

theorem exists_bound (as : List AAct) : ∃ n, ∀ a ∈ as, a.tid < n := by
  induction as with
  | nil => exact ⟨0, by simp⟩
  | cons a as ih =>
    obtain ⟨n, hn⟩ := ih
    refine ⟨n + a.tid + 1, ?_⟩
    intro b hb
    simp at hb
    rcases hb with rfl | hb
    · omega
    · have := hn b hb; omega

theorem sums_sched {pr : Profile} {N : Nat} {s0 : Stats} {k : Ctr} (hk1 : k ≠ .minUsedMemory) (hk2 : k ≠ .maxUsedMemory) (h0 : s0 k < 2 ^ 64)
    {as : List AAct} {s : AConc} (h : (AConc.init pr N s0).sched as = some s) (hq : s.Quiescent) :
    ((s.loc k).last : Int) = ((s0 k : Int) + ((callsIn as).map (callEff k)).sum) % (2 ^ 64 : Int) := by
  obtain ⟨n, hn⟩ := exists_bound as
  have hmain : ∀ (as : List AAct) (s s' : AConc), (∀ a ∈ as, a.tid < n) → AllWf s → SumInv n s0 k s →
      s.sched as = some s' → SumInv n s0 k s' := by
    intro as
    induction as with
    | nil => intro s s' _ _ h hs; simp [AConc.sched] at hs; subst hs; exact h
    | cons a as ih =>
      intro s s' hn hw h hs
      simp only [AConc.sched] at hs
      split at hs
      · rename_i s1 h1
        exact ih s1 s' (fun b hb => hn b (by simp [hb])) (hw.act h1) (h.act hk1 hk2 (hn a (by simp)) hw h1) hs
      · simp at hs
  have hs := hmain as _ s hn (allWf_init pr N s0) (sumInv_init pr N n s0 k h0) h
  have hst := started_sched as _ s h
  unfold SumInv at hs
  rw [hs, hst]
  have : ∑ t ∈ Finset.range n, pendEff k (s.th t).pc = 0 := by
    apply Finset.sum_eq_zero; intro t _; rw [hq t]; rfl
  rw [this]
  simp [AConc.init]

/-! ### every extreme was real -/

theorem Loc.Had.push {l : Loc} {x : Nat} (h : l.Had x) (v : Nat) : (l.push v).Had x := by
  obtain ⟨i, hi, hv⟩ := h
  refine ⟨i, by simp; omega, ?_⟩
  rw [push_val, if_neg (by omega)]; exact hv

theorem Loc.Had.new (l : Loc) (v : Nat) : (l.push v).Had v := ⟨l.top + 1, Nat.le_refl _, by simp [push_val]⟩

/-- what a thread holds: readings of the statistics satisfy `Hd`, of the minimum `Mn`, of the maximum `Mx` -/
def pcHolds (Hd : Ctr → Nat → Prop) (Mn Mx : Nat → Prop) : APc → Prop
  | .loadMin c => Hd .currentUsedMemory c
  | .casMin c _ => Hd .currentUsedMemory c
  | .loadMax c => Hd .currentUsedMemory c
  | .casMax c _ => Hd .currentUsedMemory c
  | .spStoreMin _ c => Hd .currentUsedMemory c
  | .spStoreMax _ c => Hd .currentUsedMemory c
  | .spMax mn => Mn mn
  | .spEnqueue mn mx => Mn mn ∧ Mx mx
  | .spLoad _ rest got => ∃ done, allCtrs = done ++ rest ∧ List.Forall₂ Hd done got
  | .dMin _ mn mx => (mn = usizeMax ∨ Mn mn) ∧ (mx = 0 ∨ Mx mx)
  | .dMax _ mn mx => Mn mn ∧ (mx = 0 ∨ Mx mx)
  | .dLoad _ mn mx _ _ => Mn mn ∧ Mx mx
  | .dCur _ mn mx _ => Mn mn ∧ Mx mx
  | _ => True

theorem pcHolds.mono {Hd Hd' : Ctr → Nat → Prop} {Mn Mx Mn' Mx' : Nat → Prop} (h1 : ∀ c x, Hd c x → Hd' c x)
    (h2 : ∀ x, Mn x → Mn' x) (h3 : ∀ x, Mx x → Mx' x) {pc : APc} (h : pcHolds Hd Mn Mx pc) : pcHolds Hd' Mn' Mx' pc := by
  cases pc <;> simp only [pcHolds] at h ⊢
  case spEnqueue => exact ⟨h2 _ h.1, h3 _ h.2⟩
  case spMax => exact h2 _ h
  case spLoad =>
    obtain ⟨d, e, hf⟩ := h
    exact ⟨d, e, hf.imp h1⟩
  case dMin => exact ⟨h.1.imp id (h2 _), h.2.imp id (h3 _)⟩
  case dMax => exact ⟨h2 _ h.1, h.2.imp id (h3 _)⟩
  case dLoad => exact ⟨h2 _ h.1, h3 _ h.2⟩
  case dCur => exact ⟨h2 _ h.1, h3 _ h.2⟩
  all_goals exact h1 _ _ h

/-- `x` was in the used memory, or is the starting extreme `x0` -/
def AConc.Real (s : AConc) (x0 x : Nat) : Prop := x = x0 ∨ (s.loc .currentUsedMemory).Had x

/-- statistic `c` had value `x` -/
def AConc.HadOf (s : AConc) (c : Ctr) (x : Nat) : Prop := (s.loc c).Had x

/-- all extremes anywhere are real -/
structure RealInv (s0 : Stats) (s : AConc) : Prop where
  mn : ∀ i, i ≤ (s.loc .minUsedMemory).top → s.Real (s0 .minUsedMemory) ((s.loc .minUsedMemory).val i)
  mx : ∀ i, i ≤ (s.loc .maxUsedMemory).top → s.Real (s0 .maxUsedMemory) ((s.loc .maxUsedMemory).val i)
  pcs : ∀ t, pcHolds s.HadOf (s.Real (s0 .minUsedMemory)) (s.Real (s0 .maxUsedMemory)) (s.th t).pc
  slots : ∀ x ∈ s.slots, s.Real (s0 .minUsedMemory) x.min ∧ s.Real (s0 .maxUsedMemory) x.max
  saved : ∀ sp ∈ s.saved, List.Forall₂ s.HadOf allCtrs sp.got
  results : ∀ k l, (k, DRes.stats l) ∈ s.results → ∃ nine u mn mx, l = nine ++ [u, mn, mx] ∧
    (s.loc .currentUsedMemory).Had u ∧ s.Real (s0 .minUsedMemory) mn ∧ s.Real (s0 .maxUsedMemory) mx
  small : ∀ i, i ≤ (s.loc .minUsedMemory).top → (s.loc .minUsedMemory).val i ≤ usizeMax

theorem realInv_init (pr : Profile) (N : Nat) (s0 : Stats) (h0 : s0 .minUsedMemory < 2 ^ 64) : RealInv s0 (AConc.init pr N s0) :=
  ⟨fun _ _ => Or.inl rfl, fun _ _ => Or.inl rfl, fun _ => trivial, by simp [AConc.init], by simp [AConc.init], by simp [AConc.init],
    fun _ _ => Nat.le_pred_of_lt h0⟩

/-- no write: the thread moves to a place that holds -/
theorem RealInv.quiet {s0 : Stats} {s s' : AConc} {t : Nat} {pc : APc} (h : RealInv s0 s) (hloc : s'.loc = s.loc)
    (hpcs : ∀ u, (s'.th u).pc = (s.th u).pc) (hsl : s'.slots = s.slots) (hsv : s'.saved = s.saved) (hrs : s'.results = s.results)
    (hp : pcHolds s.HadOf (s.Real (s0 .minUsedMemory)) (s.Real (s0 .maxUsedMemory)) pc) :
    RealInv s0 (s'.goto t pc) := by
  have hR : ∀ x0 x, (s'.goto t pc).Real x0 x ↔ s.Real x0 x := by intro x0 x; simp [AConc.Real, hloc]
  have hH : (s'.goto t pc).HadOf = s.HadOf := by funext c x; simp [AConc.HadOf, hloc]
  refine ⟨?_, ?_, ?_, ?_, ?_, ?_, ?_⟩
  · intro i hi; rw [hR]; simp only [goto_loc, hloc] at hi ⊢; exact h.mn i hi
  · intro i hi; rw [hR]; simp only [goto_loc, hloc] at hi ⊢; exact h.mx i hi
  · intro u
    rw [goto_pc, hH]
    split
    · exact hp.mono (fun _ _ h => h) (fun _ h => (hR _ _).2 h) (fun _ h => (hR _ _).2 h)
    · rw [hpcs]; exact (h.pcs u).mono (fun _ _ h => h) (fun _ h => (hR _ _).2 h) (fun _ h => (hR _ _).2 h)
  · intro x hx; rw [hR, hR]; simp only [goto_slots, hsl] at hx; exact h.slots x hx
  · intro x hx; rw [hH]; simp only [goto_saved, hsv] at hx; exact h.saved x hx
  · intro k l hx
    simp only [goto_results, hrs] at hx
    obtain ⟨nine, u, mn, mx, e, h1, h2, h3⟩ := h.results k l hx
    exact ⟨nine, u, mn, mx, e, by simpa only [goto_loc, hloc] using h1, (hR _ _).2 h2, (hR _ _).2 h3⟩
  · intro i hi; simp only [goto_loc, hloc] at hi ⊢; exact h.small i hi

/-- a write that keeps the extremes real -/
theorem RealInv.wrote {s0 : Stats} {s : AConc} {t : Nat} {pc : APc} {c : Ctr} {v : Nat} (h : RealInv s0 s)
    (hmin : c = .minUsedMemory → (s.loc .currentUsedMemory).Had v ∧ v ≤ usizeMax)
    (hmax : c = .maxUsedMemory → (s.loc .currentUsedMemory).Had v)
    (hp : pcHolds s.HadOf (s.Real (s0 .minUsedMemory)) (s.Real (s0 .maxUsedMemory)) pc) :
    RealInv s0 ((s.write t c v).goto t pc) := by
  have hH : ∀ c' x, s.HadOf c' x → ((s.write t c v).goto t pc).HadOf c' x := by
    intro c' x hx
    unfold AConc.HadOf at hx ⊢
    rw [goto_loc, write_loc]; split
    · rename_i hc; rw [← hc]; exact hx.push v
    · exact hx
  have hR : ∀ x0 x, s.Real x0 x → ((s.write t c v).goto t pc).Real x0 x := by
    intro x0 x hx; exact hx.imp id (hH _ x)
  refine ⟨?_, ?_, ?_, ?_, ?_, ?_, ?_⟩
  · intro i hi
    simp only [goto_loc] at hi ⊢
    by_cases hc : c = .minUsedMemory
    · rw [write_loc, if_pos hc.symm] at hi ⊢
      rw [push_val]
      split
      · exact Or.inr (hH .currentUsedMemory v (hmin hc).1)
      · rw [push_top] at hi; subst hc; exact hR _ _ (h.mn i (by omega))
    · rw [write_loc, if_neg (Ne.symm hc)] at hi ⊢
      exact hR _ _ (h.mn i hi)
  · intro i hi
    simp only [goto_loc] at hi ⊢
    by_cases hc : c = .maxUsedMemory
    · rw [write_loc, if_pos hc.symm] at hi ⊢
      rw [push_val]
      split
      · exact Or.inr (hH .currentUsedMemory v (hmax hc))
      · rw [push_top] at hi; subst hc; exact hR _ _ (h.mx i (by omega))
    · rw [write_loc, if_neg (Ne.symm hc)] at hi ⊢
      exact hR _ _ (h.mx i hi)
  · intro u
    rw [goto_pc]
    split
    · exact hp.mono hH (hR _) (hR _)
    · rw [write_pc]; exact (h.pcs u).mono hH (hR _) (hR _)
  · intro x hx; exact ⟨hR _ _ (h.slots x hx).1, hR _ _ (h.slots x hx).2⟩
  · intro x hx; exact (h.saved x hx).imp hH
  · intro k l hx
    obtain ⟨nine, u, mn, mx, e, h1, h2, h3⟩ := h.results k l hx
    exact ⟨nine, u, mn, mx, e, hH .currentUsedMemory u h1, hR _ _ h2, hR _ _ h3⟩
  · intro i hi
    simp only [goto_loc] at hi ⊢
    by_cases hc : c = .minUsedMemory
    · rw [write_loc, if_pos hc.symm] at hi ⊢
      rw [push_val]
      split
      · exact (hmin hc).2
      · rw [push_top] at hi; subst hc; exact h.small i (by omega)
    · rw [write_loc, if_neg (Ne.symm hc)] at hi ⊢
      exact h.small i hi

/-- a result is reported -/
theorem RealInv.reported {s0 : Stats} {s s' : AConc} {t k : Nat} {r : DRes} (h : RealInv s0 s) (hloc : s'.loc = s.loc)
    (hpcs : ∀ u, (s'.th u).pc = (s.th u).pc) (hsl : s'.slots = s.slots) (hsv : s'.saved = s.saved) (hrs : s'.results = s.results)
    (hr : ∀ l, r = .stats l → ∃ nine u mn mx, l = nine ++ [u, mn, mx] ∧
      (s.loc .currentUsedMemory).Had u ∧ s.Real (s0 .minUsedMemory) mn ∧ s.Real (s0 .maxUsedMemory) mx) :
    RealInv s0 (s'.result t k r) := by
  have h2 : RealInv s0 { s with results := s.results ++ [(k, r)] } := by
    refine ⟨h.mn, h.mx, h.pcs, h.slots, h.saved, ?_, h.small⟩
    intro k' l hx
    simp only [List.mem_append, List.mem_singleton, Prod.mk.injEq] at hx
    rcases hx with hx | ⟨-, hx⟩
    · exact h.results k' l hx
    · exact hr l hx.symm
  unfold AConc.result
  exact h2.quiet hloc hpcs hsl hsv (by simp only [hrs]) trivial

theorem holds_toMin {Hd : Ctr → Nat → Prop} {Mn Mx : Nat → Prop} {a b} (h : Hd .currentUsedMemory a) : pcHolds Hd Mn Mx (toMin a b) := by
  unfold toMin; split <;> exact h
theorem holds_toMax {Hd : Ctr → Nat → Prop} {Mn Mx : Nat → Prop} {a b} (h : Hd .currentUsedMemory a) : pcHolds Hd Mn Mx (toMax a b) := by
  unfold toMax; split
  · exact h
  · trivial
theorem holds_toRmw {Hd : Ctr → Nat → Prop} {Mn Mx : Nat → Prop} (ops) : pcHolds Hd Mn Mx (toRmw ops) := by
  cases ops <;> trivial

theorem extremes_real {P Q : Nat → Prop} : ∀ (l : List Slot) (a : Nat × Nat), (∀ x ∈ l, P x.min ∧ Q x.max) →
    (a.1 = usizeMax ∨ P a.1) → (a.2 = 0 ∨ Q a.2) →
    let r := l.foldl (fun acc x => (Nat.min acc.1 x.min, Nat.max acc.2 x.max)) a
    (r.1 = usizeMax ∨ P r.1) ∧ (r.2 = 0 ∨ Q r.2)
  | [], _, _, h1, h2 => ⟨h1, h2⟩
  | x :: l, a, h, h1, h2 => by
    have hx := h x (by simp)
    refine extremes_real l _ (fun y hy => h y (by simp [hy])) ?_ ?_
    · show (Nat.min a.1 x.min = usizeMax ∨ P (Nat.min a.1 x.min))
      rcases Nat.le_total a.1 x.min with e | e
      · rw [show Nat.min a.1 x.min = a.1 from Nat.min_eq_left e]; exact h1
      · rw [show Nat.min a.1 x.min = x.min from Nat.min_eq_right e]; exact Or.inr hx.1
    · show (Nat.max a.2 x.max = 0 ∨ Q (Nat.max a.2 x.max))
      rcases Nat.le_total a.2 x.max with e | e
      · rw [show Nat.max a.2 x.max = x.max from Nat.max_eq_right e]; exact Or.inr hx.2
      · rw [show Nat.max a.2 x.max = a.2 from Nat.max_eq_left e]; exact h2

/-- the used memory is a `usize` -/
def CurSmall (s : AConc) : Prop := ∀ i, i ≤ (s.loc .currentUsedMemory).top → (s.loc .currentUsedMemory).val i ≤ usizeMax

theorem CurSmall.had {s : AConc} (h : CurSmall s) {x} (hx : (s.loc .currentUsedMemory).Had x) : x ≤ usizeMax := by
  obtain ⟨i, hi, rfl⟩ := hx
  exact h i hi

theorem apply_small (op : Rmw) (v : Nat) : op.apply v ≤ usizeMax := by
  have : usizeMod = usizeMax + 1 := rfl
  have h : 0 < usizeMod := by decide
  cases op with
  | add c n =>
    simp only [Rmw.apply]
    have := Nat.mod_lt (v + n) h
    omega
  | sub c n =>
    simp only [Rmw.apply]
    have := Nat.mod_lt (v + (usizeMod - n)) h
    omega

theorem CurSmall.step {s s' : AConc} {t i ok} (h : CurSmall s) (hst : s.step t i ok = some s') : CurSmall s' := by
  by_cases hd : isDelta (s.th t).pc
  · obtain ⟨s1, pc, rfl, D⟩ := delta_step hd hst
    unfold CurSmall
    rw [goto_loc, D.loc]; exact h
  have hw : ∀ c v pc, (c = .currentUsedMemory → v ≤ usizeMax) → CurSmall ((s.write t c v).goto t pc) := by
    intro c v pc hv j hj
    rw [goto_loc, write_loc] at hj ⊢
    split at hj
    · rename_i hc
      rw [if_pos hc, push_val]
      split
      · exact hv hc.symm
      · rw [push_top] at hj; rw [← hc] at *; exact h j (by omega)
    · rename_i hc
      rw [if_neg hc]; exact h j hj
  unfold AConc.step at hst
  split at hst
  · simp at hst
  · simp at hst; subst hst; exact h
  · simp at hst; subst hst; exact hw _ _ _ fun _ => apply_small _ _
  · obtain ⟨rfl, _⟩ := load_some hst; exact h
  · obtain ⟨rfl, _⟩ := load_some hst; exact h
  · split at hst
    · split at hst
      · simp at hst; subst hst; exact hw _ _ _ (by simp)
      · simp at hst
    · obtain ⟨rfl, _⟩ := load_some hst; exact h
  · obtain ⟨rfl, _⟩ := load_some hst; exact h
  · split at hst
    · split at hst
      · simp at hst; subst hst; exact hw _ _ _ (by simp)
      · simp at hst
    · obtain ⟨rfl, _⟩ := load_some hst; exact h
  · obtain ⟨rfl, _⟩ := load_some hst; exact h
  · obtain ⟨rfl, _⟩ := load_some hst; exact h
  · simp at hst; subst hst; exact h
  · simp at hst; subst hst; exact h
  · obtain ⟨rfl, _⟩ := load_some hst; exact h
  · simp at hst; subst hst; exact hw _ _ _ (by simp)
  · obtain ⟨rfl, _⟩ := load_some hst; exact h
  · simp at hst; subst hst; exact hw _ _ _ (by simp)
  · simp at hst; subst hst; exact h
  · obtain ⟨rfl, _⟩ := load_some hst; exact h
  all_goals exact absurd (by rename_i hpc; rw [hpc]; trivial) hd

theorem RealInv.step {s0 : Stats} {s s' : AConc} {t i ok} (hwf : AllWf s) (hcs : CurSmall s) (h : RealInv s0 s)
    (hst : s.step t i ok = some s') : RealInv s0 s' := by
  have hwft := hwf t
  have hpt := h.pcs t
  unfold AConc.step at hst
  split at hst <;> rename_i hpc <;> rw [hpc] at hwft hpt
  · simp at hst
  · simp at hst; subst hst; exact h.quiet rfl (fun _ => rfl) rfl rfl rfl trivial
  · rename_i op ops
    simp at hst; subst hst
    have hc := hwft.1 op (by simp)
    exact h.wrote (fun e => absurd e hc.2.1) (fun e => absurd e hc.2.2) (holds_toRmw _)
  · obtain ⟨rfl, _, hi⟩ := load_some hst
    exact h.quiet rfl (by simp) rfl rfl rfl ⟨i, hi, rfl⟩
  · obtain ⟨rfl, _, hi⟩ := load_some hst
    exact h.quiet rfl (by simp) rfl rfl rfl (holds_toMin hpt)
  · split at hst
    · split at hst
      · simp at hst; subst hst; exact h.wrote (fun _ => ⟨hpt, hcs.had hpt⟩) (by simp) hpt
      · simp at hst
    · obtain ⟨rfl, _⟩ := load_some hst; exact h.quiet rfl (by simp) rfl rfl rfl (holds_toMin hpt)
  · obtain ⟨rfl, _, hi⟩ := load_some hst
    exact h.quiet rfl (by simp) rfl rfl rfl (holds_toMax hpt)
  · split at hst
    · split at hst
      · simp at hst; subst hst; exact h.wrote (by simp) (fun _ => hpt) trivial
      · simp at hst
    · obtain ⟨rfl, _⟩ := load_some hst; exact h.quiet rfl (by simp) rfl rfl rfl (holds_toMax hpt)
  · obtain ⟨rfl, _, hi⟩ := load_some hst; exact h.quiet rfl (by simp) rfl rfl rfl (h.mn i hi)
  · obtain ⟨rfl, _, hi⟩ := load_some hst; exact h.quiet rfl (by simp) rfl rfl rfl ⟨hpt, h.mx i hi⟩
  · rename_i mn mx
    simp at hst; subst hst
    have h2 : RealInv s0 { s with slots := s.slots ++ [⟨mn, mx⟩] } := by
      refine ⟨h.mn, h.mx, h.pcs, ?_, h.saved, h.results, h.small⟩
      intro x hx
      simp only [List.mem_append, List.mem_singleton] at hx
      rcases hx with hx | rfl
      · exact h.slots x hx
      · exact hpt
    exact h2.quiet rfl (fun _ => rfl) rfl rfl rfl trivial
  · simp at hst; subst hst; exact h.quiet rfl (fun _ => rfl) rfl rfl rfl trivial
  · obtain ⟨rfl, _, hi⟩ := load_some hst; exact h.quiet rfl (by simp) rfl rfl rfl ⟨i, hi, rfl⟩
  · simp at hst; subst hst; exact h.wrote (fun _ => ⟨hpt, hcs.had hpt⟩) (by simp) trivial
  · obtain ⟨rfl, _, hi⟩ := load_some hst; exact h.quiet rfl (by simp) rfl rfl rfl ⟨i, hi, rfl⟩
  · simp at hst; subst hst
    exact h.wrote (by simp) (fun _ => hpt) ⟨[], rfl, List.Forall₂.nil⟩
  · rename_i hd got
    simp at hst; subst hst
    obtain ⟨done, e, hf⟩ := hpt
    rw [List.append_nil] at e
    have h2 : RealInv s0 { s with saved := s.saved ++ [⟨got, hd, (s.th t).view⟩] } := by
      refine ⟨h.mn, h.mx, h.pcs, h.slots, ?_, h.results, h.small⟩
      intro x hx
      simp only [List.mem_append, List.mem_singleton] at hx
      rcases hx with hx | rfl
      · exact h.saved x hx
      · rw [e]; exact hf
    exact h2.quiet rfl (fun _ => rfl) rfl rfl rfl trivial
  · rename_i hd c rest got
    obtain ⟨rfl, _, hi⟩ := load_some hst
    obtain ⟨done, e, hf⟩ := hpt
    refine h.quiet rfl (by simp) rfl rfl rfl ?_
    exact ⟨done ++ [c], by rw [e]; simp, List.rel_append hf (List.Forall₂.cons ⟨i, hi, rfl⟩ List.Forall₂.nil)⟩
  · split at hst
    · simp at hst
    · rename_i sp _
      split at hst
      · simp at hst; subst hst
        exact h.reported rfl (fun _ => rfl) rfl rfl rfl (by simp)
      · simp at hst; subst hst
        refine h.quiet rfl (fun _ => rfl) rfl rfl rfl ?_
        exact extremes_real _ _ (fun x hx => h.slots x (List.mem_of_mem_drop hx)) (Or.inl rfl) (Or.inl rfl)
  · rename_i k mn mx
    obtain ⟨rfl, _, hi⟩ := load_some hst
    refine h.quiet rfl (by simp) rfl rfl rfl ⟨?_, hpt.2⟩
    rcases Nat.le_total mn ((s.loc .minUsedMemory).val i) with e | e
    · rw [show Nat.min mn ((s.loc .minUsedMemory).val i) = mn from Nat.min_eq_left e]
      rcases hpt.1 with h1 | h1
      · have := h.small i hi
        rw [show mn = (s.loc .minUsedMemory).val i by omega]
        exact h.mn i hi
      · exact h1
    · rw [show Nat.min mn ((s.loc .minUsedMemory).val i) = _ from Nat.min_eq_right e]
      exact h.mn i hi
  · rename_i k mn mx
    split at hst
    · simp at hst
    · obtain ⟨rfl, _, hi⟩ := load_some hst
      refine h.quiet rfl (by simp) rfl rfl rfl ⟨hpt.1, ?_⟩
      rcases Nat.le_total mx ((s.loc .maxUsedMemory).val i) with e | e
      · rw [show Nat.max mx ((s.loc .maxUsedMemory).val i) = _ from Nat.max_eq_right e]
        exact h.mx i hi
      · rw [show Nat.max mx ((s.loc .maxUsedMemory).val i) = _ from Nat.max_eq_left e]
        rcases hpt.2 with h1 | h1
        · rw [show mx = (s.loc .maxUsedMemory).val i by omega]
          exact h.mx i hi
        · exact h1
  · simp at hst; subst hst; exact h.quiet rfl (fun _ => rfl) rfl rfl rfl hpt
  · split at hst
    · split at hst
      · simp at hst; subst hst
        exact h.reported rfl (by simp) rfl rfl rfl (by simp)
      · simp at hst; subst hst
        exact h.quiet rfl (by simp) rfl rfl rfl hpt
    · simp at hst
  · rename_i k mn mx got
    split at hst
    · rename_i hr
      simp [AConc.readable] at hr
      simp at hst; subst hst
      refine h.reported rfl (by simp) rfl rfl rfl ?_
      intro l hl
      simp only [DRes.stats.injEq] at hl
      exact ⟨got, _, mn, mx, hl.symm, ⟨i, hr.2, rfl⟩, hpt.1, hpt.2⟩
    · simp at hst

theorem RealInv.act {s0 : Stats} {s s' : AConc} {a : AAct} (hwf : AllWf s) (hcs : CurSmall s) (h : RealInv s0 s) (ha : s.act a = some s') :
    RealInv s0 s' := by
  cases a with
  | call t c =>
    simp only [AConc.act] at ha
    split at ha
    · simp at ha; subst ha
      have h2 : RealInv s0 { s with started := s.started ++ [c] } := ⟨h.mn, h.mx, h.pcs, h.slots, h.saved, h.results, h.small⟩
      exact h2.quiet rfl (fun _ => rfl) rfl rfl rfl (holds_toRmw _)
    · simp at ha
  | save t =>
    simp only [AConc.act] at ha
    split at ha
    · simp at ha; subst ha; exact h.quiet rfl (fun _ => rfl) rfl rfl rfl trivial
    · simp at ha
  | delta t k =>
    simp only [AConc.act] at ha
    split at ha
    · split at ha
      · simp at ha
      · simp at ha; subst ha; exact h.quiet rfl (by simp) rfl rfl rfl trivial
    · simp at ha
  | sync t u =>
    simp only [AConc.act] at ha
    split at ha
    · simp at ha; subst ha
      exact ⟨h.mn, h.mx, fun w => by rw [learn_pc]; exact h.pcs w, h.slots, h.saved, h.results, h.small⟩
    · simp at ha
  | step t i ok => exact h.step hwf hcs ha

theorem CurSmall.act {s s' : AConc} {a : AAct} (h : CurSmall s) (ha : s.act a = some s') : CurSmall s' := by
  cases a with
  | call t c =>
    simp only [AConc.act] at ha
    split at ha
    · simp at ha; subst ha; exact h
    · simp at ha
  | save t =>
    simp only [AConc.act] at ha
    split at ha
    · simp at ha; subst ha; exact h
    · simp at ha
  | delta t k =>
    simp only [AConc.act] at ha
    split at ha
    · split at ha
      · simp at ha
      · simp at ha; subst ha; exact h
    · simp at ha
  | sync t u =>
    simp only [AConc.act] at ha
    split at ha
    · simp at ha; subst ha; exact h
    · simp at ha
  | step t i ok => exact h.step ha

theorem real_sched {pr : Profile} {N : Nat} {s0 : Stats} (h0 : s0 .minUsedMemory < 2 ^ 64) (h1 : s0 .currentUsedMemory < 2 ^ 64)
    {as : List AAct} {s : AConc} (h : (AConc.init pr N s0).sched as = some s) : RealInv s0 s :=
  (sched_induct (P := fun s => AllWf s ∧ CurSmall s ∧ RealInv s0 s)
    (fun _ _ _ hp ha => ⟨hp.1.act ha, hp.2.1.act ha, hp.2.2.act hp.1 hp.2.1 ha⟩) as _ s
    ⟨allWf_init pr N s0, fun _ _ => Nat.le_pred_of_lt h1, realInv_init pr N s0 h0⟩ h).2.2

/-! ### the extremes enclose the used memory, if no save point is taken -/

/-- not in `save_point` -/
def noSp : APc → Prop
  | .spMin => False
  | .spMax _ => False
  | .spEnqueue _ _ => False
  | .spConsumer => False
  | .spCur1 _ => False
  | .spStoreMin _ _ => False
  | .spCur2 _ => False
  | .spStoreMax _ _ => False
  | .spLoad _ _ _ => False
  | _ => True

/-- thread `t` has yet to compare the newest used memory with the minimum -/
def PendMin (s : AConc) (t : Nat) : Prop :=
  ((s.th t).pc = .loadCur ∧ (s.th t).view .currentUsedMemory = (s.loc .currentUsedMemory).top) ∨
  (s.th t).pc = .loadMin (s.loc .currentUsedMemory).last ∨ ∃ mn, (s.th t).pc = .casMin (s.loc .currentUsedMemory).last mn

/-- thread `t` has yet to compare the newest used memory with the maximum -/
def PendMax (s : AConc) (t : Nat) : Prop :=
  PendMin s t ∨ (s.th t).pc = .loadMax (s.loc .currentUsedMemory).last ∨
    ∃ mx, (s.th t).pc = .casMax (s.loc .currentUsedMemory).last mx

/-- the extremes enclose the newest used memory, or some thread will see to it -/
structure OrdInv (s : AConc) : Prop where
  nosp : ∀ t, noSp (s.th t).pc
  mnLow : ∀ i, i ≤ (s.loc .minUsedMemory).top → (s.loc .minUsedMemory).last ≤ (s.loc .minUsedMemory).val i
  mxHigh : ∀ i, i ≤ (s.loc .maxUsedMemory).top → (s.loc .maxUsedMemory).val i ≤ (s.loc .maxUsedMemory).last
  mn : (s.loc .minUsedMemory).last ≤ (s.loc .currentUsedMemory).last ∨ ∃ t, PendMin s t
  mx : (s.loc .currentUsedMemory).last ≤ (s.loc .maxUsedMemory).last ∨ ∃ t, PendMax s t

theorem ordInv_init {pr : Profile} {N : Nat} {s0 : Stats} (h1 : s0 .minUsedMemory ≤ s0 .currentUsedMemory)
    (h2 : s0 .currentUsedMemory ≤ s0 .maxUsedMemory) : OrdInv (AConc.init pr N s0) :=
  ⟨fun _ => trivial, fun _ _ => Nat.le_refl _, fun _ _ => Nat.le_refl _, Or.inl h1, Or.inl h2⟩

/-- a thread other than the one that moved is still pending if the used memory was not written -/
theorem PendMin.frame {s s' : AConc} {u : Nat} (h : PendMin s u) (hth : s'.th u = s.th u)
    (hcur : s'.loc .currentUsedMemory = s.loc .currentUsedMemory) : PendMin s' u := by
  unfold PendMin at h ⊢; rw [hth, hcur]; exact h

theorem PendMax.frame {s s' : AConc} {u : Nat} (h : PendMax s u) (hth : s'.th u = s.th u)
    (hcur : s'.loc .currentUsedMemory = s.loc .currentUsedMemory) : PendMax s' u := by
  unfold PendMax at h ⊢; rw [hth, hcur]; exact h.imp (fun h => h.frame hth hcur) id

theorem th_load {s : AConc} {t u c i pc} (h : u ≠ t) : ((s.see t c i).goto t pc).th u = s.th u := by
  simp [AConc.goto, AConc.see, h]
theorem th_write {s : AConc} {t u c v pc} (h : u ≠ t) : ((s.write t c v).goto t pc).th u = s.th u := by
  simp [AConc.goto, AConc.write, AConc.see, h]

/-- a load, by a thread that keeps its own obligation -/
theorem OrdInv.loaded {s : AConc} {t c i pc} (h : OrdInv s) (hp : noSp pc)
    (hmn : PendMin s t → (s.loc .minUsedMemory).last ≤ (s.loc .currentUsedMemory).last ∨ PendMin ((s.see t c i).goto t pc) t)
    (hmx : PendMax s t → (s.loc .currentUsedMemory).last ≤ (s.loc .maxUsedMemory).last ∨ PendMax ((s.see t c i).goto t pc) t) :
    OrdInv ((s.see t c i).goto t pc) := by
  refine ⟨?_, h.mnLow, h.mxHigh, ?_, ?_⟩
  · intro u; rw [goto_pc]; split
    · exact hp
    · rw [see_pc]; exact h.nosp u
  · rcases h.mn with h1 | ⟨u, hu⟩
    · exact Or.inl h1
    · by_cases hut : u = t
      · subst hut; exact (hmn hu).imp id (fun h => ⟨u, h⟩)
      · exact Or.inr ⟨u, hu.frame (th_load hut) rfl⟩
  · rcases h.mx with h1 | ⟨u, hu⟩
    · exact Or.inl h1
    · by_cases hut : u = t
      · subst hut; exact (hmx hu).imp id (fun h => ⟨u, h⟩)
      · exact Or.inr ⟨u, hu.frame (th_load hut) rfl⟩

theorem noSp_toMin (a b) : noSp (toMin a b) := by unfold toMin; split <;> trivial
theorem noSp_toMax (a b) : noSp (toMax a b) := by unfold toMax; split <;> trivial
theorem noSp_toRmw (ops) : noSp (toRmw ops) := by cases ops <;> trivial

theorem pc_load (s : AConc) (t c i pc) : (((s.see t c i).goto t pc).th t).pc = pc := by rw [goto_pc, if_pos rfl]

theorem pendMin_pc {s : AConc} {t : Nat} (h : PendMin s t) :
    (s.th t).pc = .loadCur ∨ (∃ c, (s.th t).pc = .loadMin c) ∨ ∃ c m, (s.th t).pc = .casMin c m := by
  rcases h with h | h | ⟨m, h⟩
  · exact Or.inl h.1
  · exact Or.inr (Or.inl ⟨_, h⟩)
  · exact Or.inr (Or.inr ⟨_, _, h⟩)

/-- the comparison with the minimum: read a value of it, go on -/
theorem OrdInv.minRead {s : AConc} {t cur i} (h : OrdInv s) (hi : i ≤ (s.loc .minUsedMemory).top)
    (hpc : (s.th t).pc = .loadMin cur ∨ ∃ mn, (s.th t).pc = .casMin cur mn) :
    OrdInv ((s.see t .minUsedMemory i).goto t (toMin cur ((s.loc .minUsedMemory).val i))) := by
  have hlow := h.mnLow i hi
  have hcur : PendMin s t → cur = (s.loc .currentUsedMemory).last := by
    intro hp
    rcases hp with ⟨hp, _⟩ | hp | ⟨m, hp⟩ <;> rcases hpc with hpc | ⟨mn, hpc⟩ <;> rw [hpc] at hp <;> simp at hp
    · exact hp
    · exact hp.1
  have hmx : PendMax s t → PendMin s t := by
    rintro (hp | hp | ⟨mx, hp⟩)
    · exact hp
    · rcases hpc with hpc | ⟨mn, hpc⟩ <;> rw [hpc] at hp <;> simp at hp
    · rcases hpc with hpc | ⟨mn, hpc⟩ <;> rw [hpc] at hp <;> simp at hp
  apply h.loaded (noSp_toMin _ _)
  · intro hp
    have hc := hcur hp
    by_cases hlt : cur < (s.loc .minUsedMemory).val i
    · right; right; right
      refine ⟨(s.loc .minUsedMemory).val i, ?_⟩
      rw [pc_load]; unfold toMin; rw [if_pos hlt, hc]; rfl
    · left; omega
  · intro hp
    have hc := hcur (hmx hp)
    right
    by_cases hlt : cur < (s.loc .minUsedMemory).val i
    · left; right; right
      refine ⟨(s.loc .minUsedMemory).val i, ?_⟩
      rw [pc_load]; unfold toMin; rw [if_pos hlt, hc]; rfl
    · right; left
      rw [pc_load]; unfold toMin; rw [if_neg hlt, hc]; rfl

/-- the comparison with the maximum: read a value of it, go on -/
theorem OrdInv.maxRead {s : AConc} {t cur i} (h : OrdInv s) (hi : i ≤ (s.loc .maxUsedMemory).top)
    (hpc : (s.th t).pc = .loadMax cur ∨ ∃ mx, (s.th t).pc = .casMax cur mx) :
    OrdInv ((s.see t .maxUsedMemory i).goto t (toMax cur ((s.loc .maxUsedMemory).val i))) := by
  have hhigh := h.mxHigh i hi
  apply h.loaded (noSp_toMax _ _)
  · intro hp
    rcases pendMin_pc hp with h1 | ⟨_, h1⟩ | ⟨_, _, h1⟩ <;> rcases hpc with hpc | ⟨mn, hpc⟩ <;> rw [hpc] at h1 <;> simp at h1
  · intro hp
    have hc : cur = (s.loc .currentUsedMemory).last := by
      rcases hp with hp | hp | ⟨m, hp⟩
      · rcases pendMin_pc hp with h1 | ⟨_, h1⟩ | ⟨_, _, h1⟩ <;> rcases hpc with hpc | ⟨mn, hpc⟩ <;> rw [hpc] at h1 <;> simp at h1
      · rcases hpc with hpc | ⟨mn, hpc⟩ <;> rw [hpc] at hp <;> simp at hp; exact hp
      · rcases hpc with hpc | ⟨mn, hpc⟩ <;> rw [hpc] at hp <;> simp at hp; exact hp.1
    by_cases hlt : cur > (s.loc .maxUsedMemory).val i
    · right; right; right
      refine ⟨(s.loc .maxUsedMemory).val i, ?_⟩
      rw [pc_load]; unfold toMax; rw [if_pos hlt, hc]; rfl
    · left; omega

theorem notPend_delta {s : AConc} {t : Nat} (h : (s.th t).pc = .idle ∨ isDelta (s.th t).pc) : ¬ PendMin s t ∧ ¬ PendMax s t := by
  have h1 : ¬ PendMin s t := by
    intro hp
    rcases pendMin_pc hp with h1 | ⟨_, h1⟩ | ⟨_, _, h1⟩ <;> rw [h1] at h <;> simp [isDelta] at h
  refine ⟨h1, ?_⟩
  rintro (hp | hp | ⟨_, hp⟩)
  · exact h1 hp
  · rw [hp] at h; simp [isDelta] at h
  · rw [hp] at h; simp [isDelta] at h

theorem noSp_delta {pc : APc} (h : pc = .idle ∨ isDelta pc) : noSp pc := by
  rcases h with rfl | h
  · trivial
  · cases pc <;> first | exact h.elim | trivial

/-- a thread with no obligation does something else -/
theorem OrdInv.frame {s s' : AConc} {t : Nat} (h : OrdInv s) (hno : ¬ PendMin s t ∧ ¬ PendMax s t) (hloc : s'.loc = s.loc)
    (hth : ∀ u, u ≠ t → s'.th u = s.th u) (hp : noSp (s'.th t).pc) : OrdInv s' := by
  refine ⟨?_, by rw [hloc]; exact h.mnLow, by rw [hloc]; exact h.mxHigh, ?_, ?_⟩
  · intro u
    by_cases hut : u = t
    · subst hut; exact hp
    · rw [hth u hut]; exact h.nosp u
  · rcases h.mn with h1 | ⟨u, hu⟩
    · exact Or.inl (by rw [hloc]; exact h1)
    · have hut : u ≠ t := by rintro rfl; exact hno.1 hu
      exact Or.inr ⟨u, hu.frame (hth u hut) (by rw [hloc])⟩
  · rcases h.mx with h1 | ⟨u, hu⟩
    · exact Or.inl (by rw [hloc]; exact h1)
    · have hut : u ≠ t := by rintro rfl; exact hno.2 hu
      exact Or.inr ⟨u, hu.frame (hth u hut) (by rw [hloc])⟩

theorem OrdInv.step {s s' : AConc} {t i ok} (hwf : AllWf s) (h : OrdInv s) (hst : s.step t i ok = some s') : OrdInv s' := by
  have hwft := hwf t
  have hnt := h.nosp t
  by_cases hd : isDelta (s.th t).pc
  · obtain ⟨s1, pc, rfl, D⟩ := delta_step hd hst
    refine h.frame (notPend_delta (Or.inr hd)) D.loc ?_ ?_
    · intro u hu; simp only [AConc.goto, if_neg hu]; exact D.others u hu
    · rw [goto_pc, if_pos rfl]; exact noSp_delta D.dest
  unfold AConc.step at hst
  split at hst <;> rename_i hpc <;> rw [hpc] at hwft hnt
  · simp at hst
  · -- no read-modify-write left
    simp at hst; subst hst
    have hno : ¬ PendMin s t := by
      intro hp; rcases pendMin_pc hp with h1 | ⟨_, h1⟩ | ⟨_, _, h1⟩ <;> rw [hpc] at h1 <;> simp at h1
    have hno2 : ¬ PendMax s t := by
      rintro (hp | hp | ⟨_, hp⟩)
      · exact hno hp
      · rw [hpc] at hp; simp at hp
      · rw [hpc] at hp; simp at hp
    refine ⟨?_, h.mnLow, h.mxHigh, ?_, ?_⟩
    · intro u; rw [goto_pc]; split
      · trivial
      · exact h.nosp u
    · rcases h.mn with h1 | ⟨u, hu⟩
      · exact Or.inl h1
      · have hut : u ≠ t := by rintro rfl; exact hno hu
        exact Or.inr ⟨u, hu.frame (by simp [AConc.goto, hut]) rfl⟩
    · rcases h.mx with h1 | ⟨u, hu⟩
      · exact Or.inl h1
      · have hut : u ≠ t := by rintro rfl; exact hno2 hu
        exact Or.inr ⟨u, hu.frame (by simp [AConc.goto, hut]) rfl⟩
  · -- a read-modify-write
    rename_i op ops
    simp at hst; subst hst
    obtain ⟨_, hcmin, hcmax⟩ := hwft.1 op (by simp)
    have hno : ¬ PendMin s t := by
      intro hp; rcases pendMin_pc hp with h1 | ⟨_, h1⟩ | ⟨_, _, h1⟩ <;> rw [hpc] at h1 <;> simp at h1
    have hno2 : ¬ PendMax s t := by
      rintro (hp | hp | ⟨_, hp⟩)
      · exact hno hp
      · rw [hpc] at hp; simp at hp
      · rw [hpc] at hp; simp at hp
    have hlmin : ((s.write t op.ctr (op.apply (s.loc op.ctr).last)).goto t (toRmw ops)).loc .minUsedMemory =
        s.loc .minUsedMemory := by rw [goto_loc, write_loc, if_neg (Ne.symm hcmin)]
    have hlmax : ((s.write t op.ctr (op.apply (s.loc op.ctr).last)).goto t (toRmw ops)).loc .maxUsedMemory =
        s.loc .maxUsedMemory := by rw [goto_loc, write_loc, if_neg (Ne.symm hcmax)]
    have hpend : op.ctr = .currentUsedMemory →
        PendMin ((s.write t op.ctr (op.apply (s.loc op.ctr).last)).goto t (toRmw ops)) t := by
      intro hc
      have : ops = [] := hwft.2 op ops [] rfl hc
      subst this
      left
      refine ⟨by rw [goto_pc, if_pos rfl]; rfl, ?_⟩
      rw [goto_view, write_view, if_pos ⟨rfl, hc.symm⟩, goto_loc, write_loc, if_pos hc.symm]
      rfl
    refine ⟨?_, ?_, ?_, ?_, ?_⟩
    · intro u; rw [goto_pc]; split
      · exact noSp_toRmw _
      · rw [write_pc]; exact h.nosp u
    · rw [hlmin]; exact h.mnLow
    · rw [hlmax]; exact h.mxHigh
    · by_cases hc : op.ctr = .currentUsedMemory
      · exact Or.inr ⟨t, hpend hc⟩
      · have hlcur : ((s.write t op.ctr (op.apply (s.loc op.ctr).last)).goto t (toRmw ops)).loc .currentUsedMemory =
            s.loc .currentUsedMemory := by rw [goto_loc, write_loc, if_neg (Ne.symm hc)]
        rw [hlmin, hlcur]
        rcases h.mn with h1 | ⟨u, hu⟩
        · exact Or.inl h1
        · have hut : u ≠ t := by rintro rfl; exact hno hu
          exact Or.inr ⟨u, hu.frame (th_write hut) hlcur⟩
    · by_cases hc : op.ctr = .currentUsedMemory
      · exact Or.inr ⟨t, Or.inl (hpend hc)⟩
      · have hlcur : ((s.write t op.ctr (op.apply (s.loc op.ctr).last)).goto t (toRmw ops)).loc .currentUsedMemory =
            s.loc .currentUsedMemory := by rw [goto_loc, write_loc, if_neg (Ne.symm hc)]
        rw [hlmax, hlcur]
        rcases h.mx with h1 | ⟨u, hu⟩
        · exact Or.inl h1
        · have hut : u ≠ t := by rintro rfl; exact hno2 hu
          exact Or.inr ⟨u, hu.frame (th_write hut) hlcur⟩
  · -- load of the used memory
    obtain ⟨rfl, hv, hi⟩ := load_some hst
    have hkey : PendMin s t → PendMin ((s.see t .currentUsedMemory i).goto t
        (.loadMin ((s.loc .currentUsedMemory).val i))) t := by
      intro hp
      right; left
      rcases hp with ⟨_, hp⟩ | hp | ⟨_, hp⟩
      · have : i = (s.loc .currentUsedMemory).top := by omega
        rw [pc_load, this]; rfl
      · rw [hpc] at hp; simp at hp
      · rw [hpc] at hp; simp at hp
    refine h.loaded (pc := .loadMin _) trivial ?_ ?_
    · intro hp; exact Or.inr (hkey hp)
    · rintro (hp | hp | ⟨_, hp⟩)
      · exact Or.inr (Or.inl (hkey hp))
      · rw [hpc] at hp; simp at hp
      · rw [hpc] at hp; simp at hp
  · obtain ⟨rfl, _, hi⟩ := load_some hst
    exact h.minRead hi (Or.inl hpc)
  · rename_i cur mn
    split at hst
    · split at hst
      · rename_i hlast
        simp at hst; subst hst
        have hlt : cur < mn := hwft
        have hlcur : ((s.write t .minUsedMemory cur).goto t (.loadMax cur)).loc .currentUsedMemory =
            s.loc .currentUsedMemory := rfl
        have hlmin : ((s.write t .minUsedMemory cur).goto t (.loadMax cur)).loc .minUsedMemory =
            (s.loc .minUsedMemory).push cur := rfl
        have hlmax : ((s.write t .minUsedMemory cur).goto t (.loadMax cur)).loc .maxUsedMemory =
            s.loc .maxUsedMemory := rfl
        refine ⟨?_, ?_, ?_, ?_, ?_⟩
        · intro u; rw [goto_pc]; split
          · trivial
          · rw [write_pc]; exact h.nosp u
        · rw [hlmin]; intro j hj
          rw [push_last, push_val]
          split
          · exact Nat.le_refl _
          · rw [push_top] at hj; have := h.mnLow j (by omega); omega
        · exact h.mxHigh
        · rw [hlmin, hlcur, push_last]
          rcases h.mn with h1 | ⟨u, hu⟩
          · left; omega
          · by_cases hut : u = t
            · subst hut
              left
              rcases hu with ⟨hu, _⟩ | hu | ⟨_, hu⟩ <;> rw [hpc] at hu <;> simp at hu
              omega
            · exact Or.inr ⟨u, hu.frame (th_write hut) hlcur⟩
        · rw [hlmax, hlcur]
          rcases h.mx with h1 | ⟨u, hu⟩
          · exact Or.inl h1
          · by_cases hut : u = t
            · subst hut
              refine Or.inr ⟨u, Or.inr (Or.inl ?_)⟩
              rw [goto_pc, if_pos rfl, hlcur]
              rcases hu with (⟨hu, _⟩ | hu | ⟨_, hu⟩) | hu | ⟨_, hu⟩ <;> rw [hpc] at hu <;> simp at hu
              rw [hu.1]
            · exact Or.inr ⟨u, hu.frame (th_write hut) hlcur⟩
      · simp at hst
    · obtain ⟨rfl, _, hi⟩ := load_some hst
      exact h.minRead hi (Or.inr ⟨mn, hpc⟩)
  · obtain ⟨rfl, _, hi⟩ := load_some hst
    exact h.maxRead hi (Or.inl hpc)
  · rename_i cur mx
    split at hst
    · split at hst
      · rename_i hlast
        simp at hst; subst hst
        have hlt : mx < cur := hwft
        have hlcur : ((s.write t .maxUsedMemory cur).goto t .idle).loc .currentUsedMemory =
            s.loc .currentUsedMemory := rfl
        have hlmin : ((s.write t .maxUsedMemory cur).goto t .idle).loc .minUsedMemory = s.loc .minUsedMemory := rfl
        have hlmax : ((s.write t .maxUsedMemory cur).goto t .idle).loc .maxUsedMemory =
            (s.loc .maxUsedMemory).push cur := rfl
        refine ⟨?_, ?_, ?_, ?_, ?_⟩
        · intro u; rw [goto_pc]; split
          · trivial
          · rw [write_pc]; exact h.nosp u
        · exact h.mnLow
        · rw [hlmax]; intro j hj
          rw [push_last, push_val]
          split
          · exact Nat.le_refl _
          · rw [push_top] at hj; have := h.mxHigh j (by omega); omega
        · rw [hlmin, hlcur]
          rcases h.mn with h1 | ⟨u, hu⟩
          · exact Or.inl h1
          · have hut : u ≠ t := by
              rintro rfl
              rcases pendMin_pc hu with h1 | ⟨_, h1⟩ | ⟨_, _, h1⟩ <;> rw [hpc] at h1 <;> simp at h1
            exact Or.inr ⟨u, hu.frame (th_write hut) hlcur⟩
        · rw [hlmax, hlcur, push_last]
          rcases h.mx with h1 | ⟨u, hu⟩
          · left; omega
          · by_cases hut : u = t
            · subst hut
              left
              rcases hu with (⟨hu, _⟩ | hu | ⟨_, hu⟩) | hu | ⟨_, hu⟩ <;> rw [hpc] at hu <;> simp at hu
              omega
            · exact Or.inr ⟨u, hu.frame (th_write hut) hlcur⟩
      · simp at hst
    · obtain ⟨rfl, _, hi⟩ := load_some hst
      exact h.maxRead hi (Or.inr ⟨mx, hpc⟩)
  all_goals first
    | exact hnt.elim
    | exact absurd (by rw [hpc]; trivial) hd

theorem OrdInv.act {s s' : AConc} {a : AAct} (hns : ∀ t, a ≠ .save t) (hwf : AllWf s) (h : OrdInv s)
    (ha : s.act a = some s') : OrdInv s' := by
  cases a with
  | call t c =>
    simp only [AConc.act] at ha
    split at ha
    · rename_i hc
      simp at ha; subst ha
      have hidle := hc.1
      refine ⟨?_, h.mnLow, h.mxHigh, ?_, ?_⟩
      · intro u; rw [goto_pc]; split
        · exact noSp_toRmw _
        · exact h.nosp u
      · rcases h.mn with h1 | ⟨u, hu⟩
        · exact Or.inl h1
        · have hut : u ≠ t := by
            rintro rfl
            rcases pendMin_pc hu with h1 | ⟨_, h1⟩ | ⟨_, _, h1⟩ <;> rw [hidle] at h1 <;> simp at h1
          exact Or.inr ⟨u, hu.frame (by simp [AConc.goto, hut]) rfl⟩
      · rcases h.mx with h1 | ⟨u, hu⟩
        · exact Or.inl h1
        · have hut : u ≠ t := by
            rintro rfl
            rcases hu with hu | hu | ⟨_, hu⟩
            · rcases pendMin_pc hu with h1 | ⟨_, h1⟩ | ⟨_, _, h1⟩ <;> rw [hidle] at h1 <;> simp at h1
            · rw [hidle] at hu; simp at hu
            · rw [hidle] at hu; simp at hu
          exact Or.inr ⟨u, hu.frame (by simp [AConc.goto, hut]) rfl⟩
    · simp at ha
  | save t => exact absurd rfl (hns t)
  | delta t k =>
    simp only [AConc.act] at ha
    split at ha
    · rename_i hc
      split at ha
      · simp at ha
      · simp at ha; subst ha
        refine h.frame (notPend_delta (Or.inl hc)) rfl ?_ ?_
        · intro u hu; simp [AConc.goto, AConc.learn, hu]
        · rw [goto_pc, if_pos rfl]; trivial
    · simp at ha
  | sync t u =>
    simp only [AConc.act] at ha
    split at ha
    · rename_i hc
      simp at ha; subst ha
      refine h.frame (notPend_delta (Or.inl hc)) rfl ?_ ?_
      · intro u hu; simp [AConc.learn, hu]
      · rw [learn_pc]; exact h.nosp t
    · simp at ha
  | step t i ok => exact h.step hwf ha

theorem ord_sched : ∀ (as : List AAct) (s s' : AConc), NoSave as → AllWf s → OrdInv s → s.sched as = some s' → OrdInv s' := by
  intro as
  induction as with
  | nil => intro s s' _ _ h hs; simp [AConc.sched] at hs; subst hs; exact h
  | cons a as ih =>
    intro s s' hn hw h hs
    simp only [AConc.sched] at hs
    split at hs
    · rename_i s1 h1
      refine ih s1 s' (fun t ht => hn t (by simp [ht])) (hw.act h1) (h.act ?_ hw h1) hs
      rintro t rfl; exact hn t (by simp)
    · simp at hs

theorem quiescent_ordered {s : AConc} (h : OrdInv s) (hq : s.Quiescent) :
    (s.loc .minUsedMemory).last ≤ (s.loc .currentUsedMemory).last ∧
    (s.loc .currentUsedMemory).last ≤ (s.loc .maxUsedMemory).last := by
  have hno : ∀ t, ¬ PendMin s t := by
    intro t hp
    rcases pendMin_pc hp with h1 | ⟨_, h1⟩ | ⟨_, _, h1⟩ <;> rw [hq t] at h1 <;> simp at h1
  have hno2 : ∀ t, ¬ PendMax s t := by
    rintro t (hp | hp | ⟨_, hp⟩)
    · exact hno t hp
    · rw [hq t] at hp; simp at hp
    · rw [hq t] at hp; simp at hp
  constructor
  · rcases h.mn with h1 | ⟨t, ht⟩
    · exact h1
    · exact absurd ht (hno t)
  · rcases h.mx with h1 | ⟨t, ht⟩
    · exact h1
    · exact absurd ht (hno2 t)

end BigO
