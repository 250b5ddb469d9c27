import Mathlib.Algebra.BigOperators.Group.Finset.Piecewise
import Mathlib.Algebra.BigOperators.Ring.Finset
import Mathlib.Algebra.Order.BigOperators.Group.Finset
import Mathlib.Data.Int.ModEq
import Verif.Spec.DisturbSpec
import Verif.Proofs.AllocViews
import Verif.Proofs.AllocMid
import Verif.Proofs.AllocSolo
import Verif.Props.AllocConc

/-!
# What the recorded maximum owes to one thread and what to the others
-/
namespace BigO

/-- where a thread in one of its calls can be: its read-modify-writes still to do are an end of those of its last call -/
def CallPc (cs : List HeapCall) : APc → Prop
  | .rmw ops => ops ≠ [] ∧ ∃ pr c, cs = pr ++ [c] ∧ ops <:+ rmws c
  | _ => True

/-- the value a thread has read of the used memory and is still to compare -/
def held : APc → Option Nat
  | .loadMin v => some v
  | .casMin v _ => some v
  | .loadMax v => some v
  | .casMax v _ => some v
  | _ => none

theorem held_toMin (a b) : held (toMin a b) = some a := by unfold toMin; split <;> rfl
theorem held_toMax (a b) : held (toMax a b) = some a ∨ (toMax a b = .idle ∧ a ≤ b) := by
  unfold toMax; split
  · exact Or.inl rfl
  · exact Or.inr ⟨rfl, by omega⟩

theorem netCalls_append (a b : List HeapCall) : netCalls (a ++ b) = netCalls a + netCalls b := by simp [netCalls]
theorem netCalls_one (c : HeapCall) : netCalls [c] = netBytes c := by simp [netCalls]

/-- the read-modify-writes of a call, as far as the used memory goes: only the last is on it -/
theorem pend_suffix {ops : List Rmw} {c : HeapCall} (h : ops <:+ rmws c) (hne : ops ≠ []) :
    (ops.map (Rmw.eff .currentUsedMemory)).sum = netBytes c := by
  have key : ∀ x y : Rmw, ∀ l : List Rmw, x.eff .currentUsedMemory = 0 → y.eff .currentUsedMemory = 0 → rmws c = x :: y :: l → (ops <:+ l → (ops.map (Rmw.eff .currentUsedMemory)).sum = netBytes c) →
      (ops.map (Rmw.eff .currentUsedMemory)).sum = netBytes c := by
    intro x y l hx hy e hl
    have hc := callEff_net c
    unfold callEff at hc
    rw [e] at h hc
    simp only [List.map_cons, List.sum_cons, hx, hy] at hc
    rcases List.suffix_cons_iff.1 h with rfl | h
    · simp only [List.map_cons, List.sum_cons, hx, hy]; omega
    · rcases List.suffix_cons_iff.1 h with rfl | h
      · simp only [List.map_cons, List.sum_cons, hy]; omega
      · exact hl h
  have single : ∀ x : Rmw, x.eff .currentUsedMemory = netBytes c → ops <:+ [x] → (ops.map (Rmw.eff .currentUsedMemory)).sum = netBytes c := by
    intro x hx hs
    rcases List.suffix_cons_iff.1 hs with rfl | hs
    · simp [hx]
    · exact absurd (List.suffix_nil.1 hs) hne
  cases c with
  | alloc m ok => exact key _ _ [.add .currentUsedMemory m] rfl rfl rfl fun hs => single _ rfl hs
  | dealloc m => exact key _ _ [.sub .currentUsedMemory m] rfl rfl rfl fun hs => single _ rfl hs
  | allocZeroed m ok => exact key _ _ [.add .currentUsedMemory m] rfl rfl rfl fun hs => single _ rfl hs
  | realloc x y ok =>
    refine key _ _ _ rfl rfl rfl fun hs => ?_
    rcases List.suffix_cons_iff.1 hs with rfl | hs
    · have hc := callEff_net (.realloc x y ok)
      unfold callEff rmws at hc
      simpa [Rmw.eff] using hc
    · split at hs
      · refine single _ ?_ hs
        simp only [Rmw.eff, netBytes]; simp; omega
      · split at hs
        · refine single _ ?_ hs
          simp only [Rmw.eff, netBytes]; simp; omega
        · exact absurd (List.suffix_nil.1 hs) hne

/-- the last read-modify-write of a call that is not a resize to the same size is on the used memory -/
theorem last_cur {op : Rmw} {c : HeapCall} (h : [op] <:+ rmws c) (hm : Moves c) : op.ctr = .currentUsedMemory := by
  obtain ⟨pre, e⟩ := h
  have hl : (rmws c).getLast? = some op := by rw [← e]; simp
  cases c with
  | alloc m ok => simp [rmws] at hl; subst hl; rfl
  | dealloc m => simp [rmws] at hl; subst hl; rfl
  | allocZeroed m ok => simp [rmws] at hl; subst hl; rfl
  | realloc x y ok =>
    simp only [rmws] at hl
    by_cases h1 : y > x
    · rw [if_pos h1] at hl; simp at hl; subst hl; rfl
    · rw [if_neg h1] at hl
      by_cases h2 : y < x
      · rw [if_pos h2] at hl; simp at hl; subst hl; rfl
      · have : x = y := by omega
        subst this
        exact absurd rfl (hm x ok)

section inv
variable (s0 : Stats) (S : List HeapCall) (n a base o oM : Nat)

/-- a value the used memory has after each thread has done some of its calls, `a` those that add `x` bytes -/
def ValsAt (n a base : Nat) (h : Nat → List HeapCall) (x : Int) (v : Nat) : Prop :=
  ∃ q : Nat → List HeapCall, (∀ u, q u <+: h u) ∧ netCalls (q a) = x ∧
    (v : Int) = (base + ∑ u ∈ Finset.range n, netCalls (q u)) % (2 ^ 64 : Int)

/-- what thread `u` has added to the used memory so far -/
def doneBy (h : Nat → List HeapCall) (s : AConc) (u : Nat) : Int := netCalls (h u) - pendEff .currentUsedMemory (s.th u).pc

/-- the invariant, from a moment when nothing is going on; `h`: the calls since -/
structure DInv (h : Nat → List HeapCall) (s : AConc) : Prop where
  wf : AllWf s
  sum : SumInv n s0 .currentUsedMemory s
  count : ∃ L, s.started = S ++ L ∧ netCalls L = ∑ u ∈ Finset.range n, netCalls (h u)
  views : ∀ u c, (s.th u).view c ≤ (s.loc c).top
  plain : ∀ u, BigO.plain (s.th u).pc
  calls : ∀ u, CallPc (h u) (s.th u).pc
  tops : o ≤ (s.loc .currentUsedMemory).top
  topM : oM ≤ (s.loc .maxUsedMemory).top
  awake : o ≤ (s.th a).view .currentUsedMemory
  awakeM : oM ≤ (s.th a).view .maxUsedMemory
  vals : ∀ i, o ≤ i → i ≤ (s.loc .currentUsedMemory).top → ∃ x, ValsAt n a base h x ((s.loc .currentUsedMemory).val i)
  own : ∀ i, (s.th a).view .currentUsedMemory ≤ i → i ≤ (s.loc .currentUsedMemory).top →
    ValsAt n a base h (doneBy h s a) ((s.loc .currentUsedMemory).val i)
  ready : ∀ u, (s.th u).pc = .loadCur → o ≤ (s.th u).view .currentUsedMemory
  seen : ∀ u v, held (s.th u).pc = some v → ∃ x, ValsAt n a base h x v
  ownSeen : ∀ v, held (s.th a).pc = some v → ValsAt n a base h (netCalls (h a)) v
  mono : ∀ i j, oM ≤ i → i ≤ j → j ≤ (s.loc .maxUsedMemory).top → (s.loc .maxUsedMemory).val i ≤ (s.loc .maxUsedMemory).val j
  maxes : ∀ i, oM ≤ i → i ≤ (s.loc .maxUsedMemory).top → ∃ x, ValsAt n a base h x ((s.loc .maxUsedMemory).val i)
  reached : ∀ pr, pr <+: h a → (pr ≠ h a ∨ (s.th a).pc = .idle) →
    ∃ v, ValsAt n a base h (netCalls pr) v ∧ v ≤ (s.loc .maxUsedMemory).val ((s.th a).view .maxUsedMemory)

variable {s0 S n a base o oM}

theorem ValsAt.mono {h h' : Nat → List HeapCall} {x : Int} {v : Nat} (H : ValsAt n a base h x v) (hh : ∀ u, h u <+: h' u) :
    ValsAt n a base h' x v := by
  obtain ⟨q, h1, h2, h3⟩ := H
  exact ⟨q, fun u => (h1 u).trans (hh u), h2, h3⟩

/-- the newest value of the used memory -/
theorem newest {h : Nat → List HeapCall} {s : AConc} (hbase : (base : Int) = (s0 .currentUsedMemory + (S.map (callEff .currentUsedMemory)).sum) % (2 ^ 64 : Int))
    (hsum : SumInv n s0 .currentUsedMemory s) (hcount : ∃ L, s.started = S ++ L ∧ netCalls L = ∑ u ∈ Finset.range n, netCalls (h u))
    (hcalls : ∀ u, CallPc (h u) (s.th u).pc) : ValsAt n a base h (doneBy h s a) (s.loc .currentUsedMemory).last := by
  have hq : ∀ u, ∃ q, q <+: h u ∧ netCalls q = doneBy h s u := by
    intro u
    have hc := hcalls u
    unfold doneBy
    generalize (s.th u).pc = pc at hc
    cases pc with
    | rmw ops =>
      obtain ⟨hne, pr, c, e, hs⟩ := hc
      refine ⟨pr, ⟨[c], e.symm⟩, ?_⟩
      show _ = netCalls (h u) - (ops.map (Rmw.eff .currentUsedMemory)).sum
      rw [pend_suffix hs hne, e, netCalls_append, netCalls_one]; omega
    | _ => exact ⟨h u, List.prefix_refl _, by simp [pendEff]⟩
  choose q hq1 hq2 using hq
  refine ⟨q, hq1, hq2 a, ?_⟩
  obtain ⟨L, e, hL⟩ := hcount
  unfold SumInv at hsum
  rw [hsum, e]
  have hs : ((S ++ L).map (callEff .currentUsedMemory)).sum = (S.map (callEff .currentUsedMemory)).sum + netCalls L := by
    rw [List.map_append, List.sum_append]
    congr 2
    exact List.map_congr_left fun c _ => callEff_net c
  rw [hs, hL, hbase]
  simp only [hq2, doneBy, Finset.sum_sub_distrib]
  omega

/-- a step of thread `u` keeps the invariant; what has to be seen of it -/
theorem DInv.move {h : Nat → List HeapCall} {s s' : AConc} {u : Nat}
    (hbase : (base : Int) = (s0 .currentUsedMemory + (S.map (callEff .currentUsedMemory)).sum) % (2 ^ 64 : Int))
    (I : DInv s0 S n a base o oM h s) (P : PlainStep s s' u) (hwf : AllWf s') (hsum : SumInv n s0 .currentUsedMemory s')
    (hst : s'.started = s.started) (hcalls : CallPc (h u) (s'.th u).pc)
    (hcur : (s'.loc .currentUsedMemory = s.loc .currentUsedMemory ∧ doneBy h s' u = doneBy h s u) ∨
      ((∃ v, s'.loc .currentUsedMemory = (s.loc .currentUsedMemory).push v) ∧ (s'.th u).view .currentUsedMemory = (s.loc .currentUsedMemory).top + 1))
    (hready : (s'.th u).pc = .loadCur → o ≤ (s'.th u).view .currentUsedMemory)
    (hseen : ∀ v, held (s'.th u).pc = some v → ∃ x, ValsAt n a base h x v)
    (hown : ∀ v, u = a → held (s'.th u).pc = some v → ValsAt n a base h (netCalls (h a)) v)
    (hmax : s'.loc .maxUsedMemory = s.loc .maxUsedMemory ∨ ∃ v x, s'.loc .maxUsedMemory = (s.loc .maxUsedMemory).push v ∧
      (s.loc .maxUsedMemory).last < v ∧ ValsAt n a base h x v)
    (hidle : u = a → (s'.th u).pc = .idle → ∃ v, ValsAt n a base h (netCalls (h a)) v ∧
      v ≤ (s'.loc .maxUsedMemory).val ((s'.th a).view .maxUsedMemory)) :
    DInv s0 S n a base o oM h s' := by
  have hth : ∀ w, w ≠ u → s'.th w = s.th w := P.others
  have hallcalls : ∀ w, CallPc (h w) (s'.th w).pc := fun w => by
    by_cases e : w = u
    · rw [e]; exact hcalls
    · rw [hth w e]; exact I.calls w
  have hcount : ∃ L, s'.started = S ++ L ∧ netCalls L = ∑ u ∈ Finset.range n, netCalls (h u) := by rw [hst]; exact I.count
  have hnew := newest (a := a) hbase hsum hcount hallcalls
  have hviews : ∀ w c, (s'.th w).view c ≤ (s'.loc c).top := fun w c => by
    by_cases e : w = u
    · rw [e]; exact P.bound c (I.views u c)
    · rw [hth w e]; exact (I.views w c).trans (P.later c).1
  have hgrow : ∀ w c, (s.th w).view c ≤ (s'.th w).view c := fun w c => by
    by_cases e : w = u
    · rw [e]; exact P.grew c (I.views u c)
    · rw [hth w e]
  have hmono : ∀ i j, oM ≤ i → i ≤ j → j ≤ (s'.loc .maxUsedMemory).top → (s'.loc .maxUsedMemory).val i ≤ (s'.loc .maxUsedMemory).val j := by
    rcases hmax with e | ⟨v, x, e, hlt, hv⟩
    · rw [e]; exact I.mono
    · rw [e]
      intro i j hi hij hj
      rw [push_top] at hj
      rw [push_val, push_val]
      by_cases hj' : j = (s.loc .maxUsedMemory).top + 1
      · rw [if_pos hj']
        split
        · exact le_refl _
        · have := I.mono i (s.loc .maxUsedMemory).top hi (by omega) (le_refl _)
          unfold Loc.last at hlt; omega
      · rw [if_neg hj', if_neg (by omega)]
        exact I.mono i j hi hij (by omega)
  refine ⟨hwf, hsum, hcount, hviews, ?_, hallcalls, I.tops.trans (P.later _).1, I.topM.trans (P.later _).1, I.awake.trans (hgrow _ _),
    I.awakeM.trans (hgrow _ _), ?_, ?_, ?_, ?_, ?_, hmono, ?_, ?_⟩
  · intro w
    by_cases e : w = u
    · rw [e]; exact P.dest
    · rw [hth w e]; exact I.plain w
  · intro i hi hit
    rcases hcur with ⟨e, -⟩ | ⟨⟨v, e⟩, -⟩
    · rw [e] at hit ⊢; exact I.vals i hi hit
    · by_cases hi' : i = (s.loc .currentUsedMemory).top + 1
      · refine ⟨doneBy h s' a, ?_⟩
        have := hnew
        rw [e, push_last] at this
        rw [e, push_val, if_pos hi']
        exact this
      · rw [e] at hit ⊢
        rw [push_top] at hit
        rw [push_val, if_neg hi']
        exact I.vals i hi (by omega)
  · intro i hi hit
    have hsame : (u = a → doneBy h s' u = doneBy h s u) → doneBy h s' a = doneBy h s a := fun hd => by
      by_cases e : a = u
      · rw [e]; exact hd e.symm
      · unfold doneBy; rw [hth a e]
    rcases hcur with ⟨e, hd⟩ | ⟨⟨v, e⟩, hv⟩
    · rw [hsame fun _ => hd]
      rw [e] at hit ⊢
      exact I.own i ((hgrow _ _).trans hi) hit
    · by_cases hi' : i = (s.loc .currentUsedMemory).top + 1
      · have := hnew
        rw [e, push_last] at this
        rw [e, push_val, if_pos hi']
        exact this
      · rw [e] at hit ⊢
        rw [push_top] at hit
        rw [push_val, if_neg hi']
        have hua : u ≠ a := by
          rintro rfl
          rw [hv] at hi
          omega
        rw [hsame fun e => absurd e hua]
        exact I.own i ((hgrow _ _).trans hi) (by omega)
  · intro w hw
    by_cases e : w = u
    · rw [e] at hw ⊢; exact hready hw
    · rw [hth w e] at hw ⊢; exact I.ready w hw
  · intro w v hw
    by_cases e : w = u
    · rw [e] at hw; exact hseen v hw
    · rw [hth w e] at hw; exact I.seen w v hw
  · intro v hw
    by_cases e : a = u
    · exact hown v e.symm (by rw [← e]; exact hw)
    · rw [hth a e] at hw; exact I.ownSeen v hw
  · intro i hi hit
    rcases hmax with e | ⟨v, x, e, hlt, hv⟩
    · rw [e] at hit ⊢; exact I.maxes i hi hit
    · rw [e] at hit ⊢
      rw [push_top] at hit
      rw [push_val]
      split
      · exact ⟨x, hv⟩
      · exact I.maxes i hi (by omega)
  · intro pr hpr hc
    have old : (pr ≠ h a ∨ (s.th a).pc = .idle) → ∃ v, ValsAt n a base h (netCalls pr) v ∧
        v ≤ (s'.loc .maxUsedMemory).val ((s'.th a).view .maxUsedMemory) := by
      intro hc
      obtain ⟨v, hv, hle⟩ := I.reached pr hpr hc
      refine ⟨v, hv, hle.trans ?_⟩
      rw [← (P.later .maxUsedMemory).2 _ (I.views a _)]
      exact hmono _ _ I.awakeM (hgrow _ _) (hviews _ _)
    by_cases hp : pr = h a
    · rcases hc with hc | hc
      · exact absurd hp hc
      · by_cases e : a = u
        · rw [hp]
          exact hidle e.symm (by rw [← e]; exact hc)
        · rw [hth a e] at hc
          exact old (Or.inr hc)
    · exact old (Or.inl hp)

/-- what is read of the used memory -/
theorem DInv.reads {h : Nat → List HeapCall} {s : AConc} (I : DInv s0 S n a base o oM h s) {u i : Nat} (hpc : (s.th u).pc = .loadCur)
    (h1 : (s.th u).view .currentUsedMemory ≤ i) (h2 : i ≤ (s.loc .currentUsedMemory).top) :
    (∃ x, ValsAt n a base h x ((s.loc .currentUsedMemory).val i)) ∧
      (u = a → ValsAt n a base h (netCalls (h a)) ((s.loc .currentUsedMemory).val i)) := by
  refine ⟨I.vals i ((I.ready u hpc).trans h1) h2, ?_⟩
  rintro rfl
  have := I.own i h1 h2
  unfold doneBy at this
  rw [hpc] at this
  simpa [pendEff] using this

/-- a step that leaves the used memory and its recorded maximum alone -/
theorem DInv.quiet {h : Nat → List HeapCall} {s s' : AConc} {u : Nat}
    (hbase : (base : Int) = (s0 .currentUsedMemory + (S.map (callEff .currentUsedMemory)).sum) % (2 ^ 64 : Int))
    (I : DInv s0 S n a base o oM h s) (P : PlainStep s s' u) (hwf : AllWf s') (hsum : SumInv n s0 .currentUsedMemory s')
    (hst : s'.started = s.started) (hl : s'.loc .currentUsedMemory = s.loc .currentUsedMemory) (hl' : s'.loc .maxUsedMemory = s.loc .maxUsedMemory)
    (h0 : pendEff .currentUsedMemory (s.th u).pc = 0) {pc' : APc} (hpc : (s'.th u).pc = pc') (h1 : pendEff .currentUsedMemory pc' = 0)
    (hc : CallPc (h u) pc') (hk : pc' ≠ .loadCur)
    (hv : ∀ v, held pc' = some v → (∃ x, ValsAt n a base h x v) ∧ (u = a → ValsAt n a base h (netCalls (h a)) v))
    (hi : pc' = .idle → ∃ v, held (s.th u).pc = some v ∧ v ≤ (s.loc .maxUsedMemory).val ((s'.th u).view .maxUsedMemory)) :
    DInv s0 S n a base o oM h s' := by
  subst hpc
  refine I.move hbase P hwf hsum hst hc (Or.inl ⟨hl, ?_⟩) (fun e => absurd e hk) (fun v e => (hv v e).1) (fun v e e' => (hv v e').2 e)
    (Or.inl hl') ?_
  · unfold doneBy; rw [h0, h1]
  · rintro rfl e
    obtain ⟨v, e', hle⟩ := hi e
    exact ⟨v, I.ownSeen v e', by rw [hl']; exact hle⟩

theorem callPc_of_held {cs : List HeapCall} {pc : APc} (h : ∀ ops, pc ≠ .rmw ops) : CallPc cs pc := by
  cases pc <;> first | trivial | exact absurd rfl (h _)

theorem toMin_ne (x y : Nat) : (∀ ops, toMin x y ≠ .rmw ops) ∧ toMin x y ≠ .loadCur ∧ toMin x y ≠ .idle := by
  unfold toMin; split <;> simp
theorem toMax_ne (x y : Nat) : (∀ ops, toMax x y ≠ .rmw ops) ∧ toMax x y ≠ .loadCur := by
  unfold toMax; split <;> simp

theorem DInv.step {h : Nat → List HeapCall} {s s' : AConc} {u i : Nat} {ok : Bool}
    (hbase : (base : Int) = (s0 .currentUsedMemory + (S.map (callEff .currentUsedMemory)).sum) % (2 ^ 64 : Int))
    (hu : u < n) (hm : ∀ u, u ≠ a → ∀ c ∈ h u, Moves c) (I : DInv s0 S n a base o oM h s) (hst : s.step u i ok = some s') :
    DInv s0 S n a base o oM h s' := by
  have P := plain_step (I.plain u) hst
  have hwf := AllWf.step I.wf hst
  have hsum := SumInv.step (by decide) (by decide) hu I.wf I.sum hst
  have hstd := started_step hst
  have hp := I.plain u
  have hcp := I.calls u
  have hwfu := I.wf u
  have hseen : ∀ v, held (s.th u).pc = some v → (∃ x, ValsAt n a base h x v) ∧ (u = a → ValsAt n a base h (netCalls (h a)) v) :=
    fun v e => ⟨I.seen u v e, by rintro rfl; exact I.ownSeen v e⟩
  unfold AConc.step at hst
  split at hst <;> rename_i hpc <;> rw [hpc] at hp hcp hwfu
  · simp at hst
  · exact absurd rfl hcp.1
  · rename_i op ops
    simp at hst; subst hst
    obtain ⟨-, pr, c, e, hs⟩ := hcp
    have hpc' : (((s.write u op.ctr (op.apply (s.loc op.ctr).last)).goto u (toRmw ops)).th u).pc = toRmw ops := by rw [goto_pc, if_pos rfl]
    have hmaxne : op.ctr ≠ .maxUsedMemory := (hwfu.1 op (by simp)).2.2
    have hheld : ∀ v, held (toRmw ops) ≠ some v := by cases ops <;> simp [toRmw, held]
    have hcall : CallPc (h u) (toRmw ops) := by
      cases ops with
      | nil => trivial
      | cons o os => exact ⟨by simp, pr, c, e, (List.suffix_cons op _).trans hs⟩
    have hready' : toRmw ops = .loadCur → op.ctr ≠ .currentUsedMemory → u = a := by
      intro e1 e2
      by_contra hua
      cases ops with
      | cons o os => simp [toRmw] at e1
      | nil => exact e2 (last_cur hs (hm u hua c (by rw [e]; simp)))
    refine I.move hbase P hwf hsum hstd (by rw [hpc']; exact hcall) ?_ ?_ (fun v e => absurd (by rw [← hpc']; exact e) (hheld v))
      (fun v _ e => absurd (by rw [← hpc']; exact e) (hheld v)) ?_ ?_
    · by_cases hc : op.ctr = .currentUsedMemory
      · right
        refine ⟨⟨op.apply (s.loc op.ctr).last, ?_⟩, ?_⟩
        · rw [goto_loc, write_loc, if_pos hc.symm, hc]
        · rw [goto_view, write_view, if_pos ⟨rfl, hc.symm⟩, hc]
      · left
        refine ⟨by rw [goto_loc, write_loc, if_neg (Ne.symm hc)], ?_⟩
        unfold doneBy
        rw [hpc', hpc, pendEff_toRmw]
        have : op.eff .currentUsedMemory = 0 := by cases op <;> simp_all [Rmw.eff, Rmw.ctr]
        simp only [pendEff, List.map_cons, List.sum_cons, this]; omega
    · intro e1
      rw [hpc'] at e1
      by_cases hc : op.ctr = .currentUsedMemory
      · rw [goto_view, write_view, if_pos ⟨rfl, hc.symm⟩, hc]
        have := I.tops
        omega
      · have hua := hready' e1 hc
        exact (by rw [hua]; exact I.awake : o ≤ (s.th u).view .currentUsedMemory).trans (P.grew _ (I.views u _))
    · left
      rw [goto_loc, write_loc, if_neg (Ne.symm hmaxne)]
    · intro _ e1
      rw [hpc'] at e1
      cases ops <;> simp [toRmw] at e1
  · obtain ⟨e, h1, h2⟩ := load_some hst
    subst e
    refine I.quiet (pc' := .loadMin ((s.loc .currentUsedMemory).val i)) hbase P hwf hsum hstd rfl rfl (by rw [hpc]; rfl) (by rw [goto_pc, if_pos rfl]) rfl trivial (by simp) ?_ (by simp)
    intro v hv
    cases hv
    exact I.reads hpc h1 h2
  · obtain ⟨e, h1, h2⟩ := load_some hst
    subst e
    refine I.quiet hbase P hwf hsum hstd rfl rfl (by rw [hpc]; rfl) (by rw [goto_pc, if_pos rfl]) (pendEff_toMin _ _ _)
      (callPc_of_held (toMin_ne _ _).1) (toMin_ne _ _).2.1 ?_ (fun e => absurd e (toMin_ne _ _).2.2)
    intro v hv
    rw [held_toMin] at hv
    exact hseen v (by rw [hpc]; exact hv)
  · split at hst
    · split at hst
      · simp at hst; subst hst
        refine I.quiet (pc' := .loadMax _) hbase P hwf hsum hstd (by rw [goto_loc, write_loc, if_neg (by decide)]) (by rw [goto_loc, write_loc, if_neg (by decide)])
          (by rw [hpc]; rfl) (by rw [goto_pc, if_pos rfl]) rfl trivial (by simp) ?_ (by simp)
        intro v hv
        exact hseen v (by rw [hpc]; exact hv)
      · simp at hst
    · obtain ⟨e, h1, h2⟩ := load_some hst
      subst e
      refine I.quiet hbase P hwf hsum hstd rfl rfl (by rw [hpc]; rfl) (by rw [goto_pc, if_pos rfl]) (pendEff_toMin _ _ _)
        (callPc_of_held (toMin_ne _ _).1) (toMin_ne _ _).2.1 ?_ (fun e => absurd e (toMin_ne _ _).2.2)
      intro v hv
      rw [held_toMin] at hv
      exact hseen v (by rw [hpc]; exact hv)
  · obtain ⟨e, h1, h2⟩ := load_some hst
    subst e
    refine I.quiet hbase P hwf hsum hstd rfl rfl (by rw [hpc]; rfl) (by rw [goto_pc, if_pos rfl]) (pendEff_toMax _ _ _)
      (callPc_of_held (toMax_ne _ _).1) (toMax_ne _ _).2 ?_ ?_
    · intro v hv
      rcases held_toMax _ _ with e | ⟨e, -⟩
      · rw [e] at hv
        exact hseen v (by rw [hpc]; exact hv)
      · rw [e] at hv; cases hv
    · intro e
      refine ⟨_, by rw [hpc]; rfl, ?_⟩
      rw [goto_view, see_view, if_pos ⟨rfl, rfl⟩]
      rcases held_toMax _ _ with e' | ⟨-, hle⟩
      · rw [e] at e'; cases e'
      · exact hle
  · rename_i cur mx
    split at hst
    · split at hst
      · rename_i hlast
        simp at hst; subst hst
        have hpc' : (((s.write u .maxUsedMemory cur).goto u .idle).th u).pc = .idle := by rw [goto_pc, if_pos rfl]
        refine I.move hbase P hwf hsum hstd (by rw [hpc']; trivial) (Or.inl ⟨by rw [goto_loc, write_loc, if_neg (by decide)], ?_⟩)
          (by rw [hpc']; simp) (by rw [hpc']; simp [held]) (by rw [hpc']; simp [held]) ?_ ?_
        · unfold doneBy; rw [hpc', hpc]; rfl
        · obtain ⟨x, hx⟩ := I.seen u cur (by rw [hpc]; rfl)
          exact Or.inr ⟨cur, x, by rw [goto_loc, write_loc, if_pos rfl], by rw [hlast]; exact hwfu, hx⟩
        · rintro rfl -
          refine ⟨cur, I.ownSeen cur (by rw [hpc]; rfl), ?_⟩
          rw [goto_view, write_view, if_pos ⟨rfl, rfl⟩, goto_loc, write_loc, if_pos rfl, push_val, if_pos rfl]
      · simp at hst
    · obtain ⟨e, h1, h2⟩ := load_some hst
      subst e
      refine I.quiet hbase P hwf hsum hstd rfl rfl (by rw [hpc]; rfl) (by rw [goto_pc, if_pos rfl]) (pendEff_toMax _ _ _)
        (callPc_of_held (toMax_ne _ _).1) (toMax_ne _ _).2 ?_ ?_
      · intro v hv
        rcases held_toMax _ _ with e | ⟨e, -⟩
        · rw [e] at hv
          exact hseen v (by rw [hpc]; exact hv)
        · rw [e] at hv; cases hv
      · intro e
        refine ⟨_, by rw [hpc]; rfl, ?_⟩
        rw [goto_view, see_view, if_pos ⟨rfl, rfl⟩]
        rcases held_toMax _ _ with e' | ⟨-, hle⟩
        · rw [e] at e'; cases e'
        · exact hle
  all_goals exact hp.elim

/-- the calls of thread `u` and one more -/
def oneMore (h : Nat → List HeapCall) (u : Nat) (c : HeapCall) : Nat → List HeapCall := fun w => if w = u then h w ++ [c] else h w

theorem oneMore_le (h : Nat → List HeapCall) (u : Nat) (c : HeapCall) (w : Nat) : h w <+: oneMore h u c w := by
  unfold oneMore; split
  · exact List.prefix_append _ _
  · exact List.prefix_refl _

theorem oneMore_sum (h : Nat → List HeapCall) {u : Nat} (hu : u < n) (c : HeapCall) :
    ∑ w ∈ Finset.range n, netCalls (oneMore h u c w) = ∑ w ∈ Finset.range n, netCalls (h w) + netBytes c := by
  have : ∀ w, netCalls (oneMore h u c w) = netCalls (h w) + if w = u then netBytes c else 0 := by
    intro w
    unfold oneMore; split
    · rw [netCalls_append, netCalls_one]
    · simp
  simp only [this, Finset.sum_add_distrib]
  rw [Finset.sum_ite_eq' (Finset.range n) u, if_pos (Finset.mem_range.2 hu)]

theorem rmws_ne (c : HeapCall) : rmws c ≠ [] := by cases c <;> simp [rmws]

theorem toRmw_rmws (c : HeapCall) : toRmw (rmws c) = .rmw (rmws c) := by
  have := rmws_ne c
  cases e : rmws c with
  | nil => exact absurd e this
  | cons o os => rfl

theorem DInv.call {h : Nat → List HeapCall} {s s' : AConc} {u : Nat} {c : HeapCall} (hu : u < n)
    (I : DInv s0 S n a base o oM h s) (hst : s.act (.call u c) = some s') : DInv s0 S n a base o oM (oneMore h u c) s' := by
  have hwf := AllWf.act I.wf hst
  have hsum := SumInv.act (by decide) (by decide) (a := .call u c) hu I.wf I.sum hst
  simp only [AConc.act] at hst
  split at hst
  swap
  · simp at hst
  rename_i hc
  simp only [Option.some.injEq] at hst
  subst hst
  rw [toRmw_rmws] at *
  have hloc : (({ s with started := s.started ++ [c] } : AConc).goto u (.rmw (rmws c))).loc = s.loc := rfl
  have hstd : (({ s with started := s.started ++ [c] } : AConc).goto u (.rmw (rmws c))).started = s.started ++ [c] := rfl
  have hpc : ∀ w, ((({ s with started := s.started ++ [c] } : AConc).goto u (.rmw (rmws c))).th w).pc = if w = u then .rmw (rmws c) else (s.th w).pc :=
    fun w => goto_pc _ _ _ _
  have hview : ∀ w, ((({ s with started := s.started ++ [c] } : AConc).goto u (.rmw (rmws c))).th w).view = (s.th w).view :=
    fun w => goto_view _ _ _ _
  generalize (({ s with started := s.started ++ [c] } : AConc).goto u (.rmw (rmws c))) = s' at *
  have mono : ∀ {x : Int} {v : Nat}, ValsAt n a base h x v → ValsAt n a base (oneMore h u c) x v := fun H => H.mono (oneMore_le h u c)
  refine ⟨hwf, hsum, ?_, ?_, ?_, ?_, ?_, ?_, ?_, ?_, ?_, ?_, ?_, ?_, ?_, ?_, ?_, ?_⟩
  · obtain ⟨L, e1, e2⟩ := I.count
    exact ⟨L ++ [c], by rw [hstd, e1, List.append_assoc], by rw [netCalls_append, netCalls_one, oneMore_sum h hu, e2]⟩
  · intro w k; rw [hview, hloc]; exact I.views w k
  · intro w; rw [hpc]; split
    · trivial
    · exact I.plain w
  · intro w; rw [hpc]
    unfold oneMore
    split
    · exact ⟨rmws_ne c, h w, c, rfl, List.suffix_refl _⟩
    · exact I.calls w
  · rw [hloc]; exact I.tops
  · rw [hloc]; exact I.topM
  · rw [hview]; exact I.awake
  · rw [hview]; exact I.awakeM
  · rw [hloc]
    intro i h1 h2
    obtain ⟨x, hx⟩ := I.vals i h1 h2
    exact ⟨x, mono hx⟩
  · rw [hloc, hview]
    intro i h1 h2
    have e : doneBy (oneMore h u c) s' a = doneBy h s a := by
      unfold doneBy oneMore
      rw [hpc]
      by_cases hau : a = u
      · subst hau
        rw [if_pos rfl, if_pos rfl, hc.1, netCalls_append, netCalls_one]
        have := callEff_net c
        unfold callEff at this
        simp only [pendEff, this]; omega
      · rw [if_neg hau, if_neg hau]
    rw [e]
    exact mono (I.own i h1 h2)
  · intro w hw
    rw [hpc] at hw
    rw [hview]
    split at hw
    · cases hw
    · exact I.ready w hw
  · intro w v hw
    rw [hpc] at hw
    split at hw
    · cases hw
    · obtain ⟨x, hx⟩ := I.seen w v hw
      exact ⟨x, mono hx⟩
  · intro v hw
    rw [hpc] at hw
    split at hw
    · cases hw
    · rename_i hau
      have e : oneMore h u c a = h a := if_neg hau
      rw [e]
      exact mono (I.ownSeen v hw)
  · rw [hloc]; exact I.mono
  · rw [hloc]
    intro i h1 h2
    obtain ⟨x, hx⟩ := I.maxes i h1 h2
    exact ⟨x, mono hx⟩
  · intro pr hpr hcc
    rw [hloc, hview]
    rw [hpc] at hcc
    have : pr <+: h a ∧ (pr ≠ h a ∨ (s.th a).pc = .idle) := by
      by_cases hau : a = u
      · subst hau
        unfold oneMore at hpr hcc
        rw [if_pos rfl] at hpr hcc
        refine ⟨?_, Or.inr hc.1⟩
        rcases hcc with hne | h'
        · rcases List.prefix_concat_iff.1 hpr with h | h
          · exact absurd h hne
          · exact h
        · rw [if_pos rfl] at h'; cases h'
      · unfold oneMore at hpr hcc
        rw [if_neg hau] at hpr hcc
        rw [if_neg hau] at hcc
        exact ⟨hpr, hcc⟩
    obtain ⟨v, hv, hle⟩ := I.reached pr this.1 this.2
    exact ⟨v, mono hv, hle⟩

theorem DInv.sync {h : Nat → List HeapCall} {s s' : AConc} {u w : Nat} (hu : u < n)
    (I : DInv s0 S n a base o oM h s) (hst : s.act (.sync u w) = some s') : DInv s0 S n a base o oM h s' := by
  have hwf := AllWf.act I.wf hst
  have hsum := SumInv.act (by decide) (by decide) (a := .sync u w) hu I.wf I.sum hst
  simp only [AConc.act] at hst
  split at hst
  swap
  · simp at hst
  simp only [Option.some.injEq] at hst
  subst hst
  have hloc : (s.learn u (s.th w).view).loc = s.loc := rfl
  have hstd : (s.learn u (s.th w).view).started = s.started := rfl
  have hpc : ∀ x, ((s.learn u (s.th w).view).th x).pc = (s.th x).pc := fun x => learn_pc _ _ _ _
  have hgrow : ∀ x k, (s.th x).view k ≤ ((s.learn u (s.th w).view).th x).view k := by
    intro x k; rw [learn_view]; split
    · rename_i e; subst e; exact Nat.le_max_left _ _
    · exact le_refl _
  have hviews : ∀ x k, ((s.learn u (s.th w).view).th x).view k ≤ (s.loc k).top := by
    intro x k; rw [learn_view]; split
    · exact Nat.max_le.2 ⟨I.views _ k, I.views w k⟩
    · exact I.views x k
  generalize (s.learn u (s.th w).view) = s' at *
  have hdone : doneBy h s' a = doneBy h s a := by unfold doneBy; rw [hpc]
  refine ⟨hwf, hsum, ?_, ?_, ?_, ?_, ?_, ?_, ?_, ?_, ?_, ?_, ?_, ?_, ?_, ?_, ?_, ?_⟩
  · rw [hstd]; exact I.count
  · rw [hloc]; exact hviews
  · intro x; rw [hpc]; exact I.plain x
  · intro x; rw [hpc]; exact I.calls x
  · rw [hloc]; exact I.tops
  · rw [hloc]; exact I.topM
  · exact I.awake.trans (hgrow _ _)
  · exact I.awakeM.trans (hgrow _ _)
  · rw [hloc]; exact I.vals
  · rw [hloc, hdone]; exact fun i h1 h2 => I.own i ((hgrow _ _).trans h1) h2
  · intro x hx; rw [hpc] at hx; exact (I.ready x hx).trans (hgrow _ _)
  · intro x v hx; rw [hpc] at hx; exact I.seen x v hx
  · intro v hx; rw [hpc] at hx; exact I.ownSeen v hx
  · rw [hloc]; exact I.mono
  · rw [hloc]; exact I.maxes
  · intro pr h1 h2
    rw [hpc] at h2
    obtain ⟨v, hv, hle⟩ := I.reached pr h1 h2
    rw [hloc]
    exact ⟨v, hv, hle.trans (I.mono _ _ I.awakeM (hgrow _ _) (hviews _ _))⟩

theorem heapCallsBy_call (u w : Nat) (c : HeapCall) (as : List AAct) (h : Nat → List HeapCall) :
    h w ++ heapCallsBy w (.call u c :: as) = oneMore h u c w ++ heapCallsBy w as := by
  show h w ++ (if u = w then c :: heapCallsBy w as else heapCallsBy w as) = _
  unfold oneMore
  by_cases e : w = u
  · rw [if_pos e, if_pos e.symm]; simp
  · rw [if_neg e, if_neg (Ne.symm e)]

/-- the invariant, along an execution of heap calls -/
theorem DInv.sched (hbase : (base : Int) = (s0 .currentUsedMemory + (S.map (callEff .currentUsedMemory)).sum) % (2 ^ 64 : Int)) :
    ∀ (as : List AAct) (h : Nat → List HeapCall) (s s' : AConc), (∀ x ∈ as, x.tid < n) → OnlyHeap as →
    (∀ u, u ≠ a → ∀ c ∈ h u ++ heapCallsBy u as, Moves c) → DInv s0 S n a base o oM h s → s.sched as = some s' →
    DInv s0 S n a base o oM (fun u => h u ++ heapCallsBy u as) s' ∧ s'.saved = s.saved ∧ s'.slots = s.slots := by
  intro as
  induction as with
  | nil =>
    intro h s s' _ _ _ I hs
    simp [AConc.sched] at hs; subst hs
    simpa [heapCallsBy] using I
  | cons x as ih =>
    intro h s s' hn ho hm I hs
    obtain ⟨s1, h1, h2⟩ := sched_cons_some hs
    have hx := hn x (by simp)
    have hn' : ∀ y ∈ as, y.tid < n := fun y hy => hn y (by simp [hy])
    have ho' : OnlyHeap as := fun y hy => ho y (by simp [hy])
    rcases ho x (by simp) with ⟨u, c, rfl⟩ | ⟨u, v, rfl⟩ | ⟨u, i, ok, rfl⟩
    · have I1 := I.call hx h1
      have hm' : ∀ w, w ≠ a → ∀ d ∈ oneMore h u c w ++ heapCallsBy w as, Moves d := fun w hw d hd => by
        rw [← heapCallsBy_call] at hd; exact hm w hw d hd
      obtain ⟨I2, e1, e2⟩ := ih _ _ _ hn' ho' hm' I1 h2
      have hfr : s1.saved = s.saved ∧ s1.slots = s.slots := by
        simp only [AConc.act] at h1
        split at h1
        · simp at h1; subst h1; exact ⟨rfl, rfl⟩
        · simp at h1
      refine ⟨?_, e1.trans hfr.1, e2.trans hfr.2⟩
      have : (fun w => h w ++ heapCallsBy w (.call u c :: as)) = fun w => oneMore h u c w ++ heapCallsBy w as := funext fun w => heapCallsBy_call u w c as h
      rw [this]; exact I2
    · have I1 := I.sync hx h1
      obtain ⟨I2, e1, e2⟩ := ih _ _ _ hn' ho' hm I1 h2
      have hfr : s1.saved = s.saved ∧ s1.slots = s.slots := by
        simp only [AConc.act] at h1
        split at h1
        · simp at h1; subst h1; exact ⟨rfl, rfl⟩
        · simp at h1
      exact ⟨I2, e1.trans hfr.1, e2.trans hfr.2⟩
    · have I1 := I.step hbase hx (fun w hw c hc => hm w hw c (List.mem_append_left _ hc)) h1
      have P := plain_step (I.plain u) h1
      obtain ⟨I2, e1, e2⟩ := ih _ _ _ hn' ho' hm I1 h2
      exact ⟨I2, e1.trans P.saved, e2.trans P.slots⟩

/-- the invariant holds when nothing is going on, `a` has seen everything and the recorded maximum is the memory in use -/
theorem DInv.start {s : AConc} (hS : s.started = S) (hbase : (base : Int) = (s0 .currentUsedMemory + (S.map (callEff .currentUsedMemory)).sum) % (2 ^ 64 : Int))
    (hlast : (s.loc .currentUsedMemory).last = base) (hmax : (s.loc .maxUsedMemory).last = base) (hq : s.Quiescent)
    (hf : s.UpToDate a) (hv : ∀ u c, (s.th u).view c ≤ (s.loc c).top) :
    DInv s0 S n a base (s.loc .currentUsedMemory).top (s.loc .maxUsedMemory).top (fun _ => []) s := by
  have hb : (base : Int) % (2 ^ 64 : Int) = base := by omega
  have H : ValsAt n a base (fun _ => []) 0 base := ⟨fun _ => [], fun _ => List.prefix_refl _, rfl, by simp [netCalls]; omega⟩
  refine ⟨fun u => by rw [hq u]; trivial, ?_, ⟨[], by simp [hS], by simp [netCalls]⟩, hv, fun u => by rw [hq u]; trivial,
    fun u => by rw [hq u]; trivial, le_refl _, le_refl _, (hf _).ge, (hf _).ge, ?_, ?_, ?_, ?_, ?_, ?_, ?_, ?_⟩
  · unfold SumInv
    rw [hlast, hS, hbase]
    have : ∑ t ∈ Finset.range n, pendEff .currentUsedMemory (s.th t).pc = 0 := Finset.sum_eq_zero fun t _ => by rw [hq t]; rfl
    rw [this]; simp
  · intro i h1 h2
    have : i = (s.loc .currentUsedMemory).top := by omega
    subst this
    exact ⟨0, by unfold Loc.last at hlast; rw [hlast]; exact H⟩
  · intro i h1 h2
    have : i = (s.loc .currentUsedMemory).top := by rw [hf _] at h1; omega
    subst this
    unfold doneBy Loc.last at *
    rw [hlast, hq a]
    simpa [pendEff, netCalls] using H
  · intro u hu; rw [hq u] at hu; cases hu
  · intro u v hu; rw [hq u] at hu; cases hu
  · intro v hu; rw [hq a] at hu; cases hu
  · intro i j h1 h2 h3
    have : i = j := by omega
    rw [this]
  · intro i h1 h2
    have : i = (s.loc .maxUsedMemory).top := by omega
    subst this
    exact ⟨0, by unfold Loc.last at hmax; rw [hmax]; exact H⟩
  · intro pr hpr _
    obtain rfl := List.prefix_nil.1 hpr
    refine ⟨base, by simpa [netCalls] using H, ?_⟩
    rw [hf _]
    unfold Loc.last at hmax; omega

/-- how far a value may be from what `a`'s calls give -/
theorem ValsAt.near {h : Nat → List HeapCall} {x : Int} {v : Nat} (H : ValsAt n a base h x v) (ha : a < n) {d : Nat → Nat}
    (hd : ∀ u, u < n → u ≠ a → CallsSwing (d u) (h u)) :
    ∃ y, (v : Int) = (base + x + y) % (2 ^ 64 : Int) ∧ |y| ≤ ((∑ u ∈ (Finset.range n).erase a, d u : Nat) : Int) := by
  obtain ⟨q, h1, rfl, h3⟩ := H
  refine ⟨∑ u ∈ (Finset.range n).erase a, netCalls (q u), ?_, ?_⟩
  · rw [h3, ← Finset.add_sum_erase _ _ (Finset.mem_range.2 ha), add_assoc]
  · have e1 : |∑ u ∈ (Finset.range n).erase a, netCalls (q u)| ≤ ∑ u ∈ (Finset.range n).erase a, |netCalls (q u)| :=
      Finset.abs_sum_le_sum_abs (fun u => netCalls (q u)) ((Finset.range n).erase a)
    refine e1.trans ?_
    rw [Nat.cast_sum]
    refine Finset.sum_le_sum fun u hu => ?_
    obtain ⟨h4, h5⟩ := Finset.mem_erase.1 hu
    exact hd u (Finset.mem_range.1 h5) h4 _ (h1 u)

/-- every value thread `a`, outside its calls, can read of the recorded maximum -/
theorem DInv.maximum {h : Nat → List HeapCall} {s : AConc} (I : DInv s0 S n a base o oM h s) (hi : (s.th a).pc = .idle) (ha : a < n)
    {d : Nat → Nat} (hd : ∀ u, u < n → u ≠ a → CallsSwing (d u) (h u)) {need D : Nat} (hD : ∑ u ∈ (Finset.range n).erase a, d u = D)
    (hp : CallsPeak need (h a)) (hlow : ∀ pr, pr <+: h a → (D : Int) ≤ base + netCalls pr) (hhigh : base + need + D < 2 ^ 64)
    {i : Nat} (h1 : (s.th a).view .maxUsedMemory ≤ i) (h2 : i ≤ (s.loc .maxUsedMemory).top) :
    |((s.loc .maxUsedMemory).val i : Int) - base - need| ≤ D := by
  have near : ∀ {x : Int} {v : Nat}, (∃ pr, pr <+: h a ∧ x = netCalls pr) → ValsAt n a base h x v → |(v : Int) - base - x| ≤ D := by
    rintro x v ⟨pr, hpr, rfl⟩ H
    obtain ⟨y, e, hy⟩ := H.near ha hd
    rw [hD] at hy
    have hl := hlow pr hpr
    have hh := hp.2 pr hpr
    obtain ⟨y1, y2⟩ := abs_le.1 hy
    rw [Int.emod_eq_of_lt (by omega) (by omega)] at e
    rw [abs_le]; constructor <;> omega
  obtain ⟨pr, hpr, e⟩ := hp.1
  rw [abs_le]
  constructor
  · obtain ⟨v, hv, hle⟩ := I.reached pr hpr (Or.inr hi)
    have hm := I.mono _ _ I.awakeM h1 h2
    have := (abs_le.1 (near ⟨pr, hpr, rfl⟩ hv)).1
    omega
  · obtain ⟨x, hx⟩ := I.maxes i (I.awakeM.trans h1) h2
    obtain ⟨q, q1, q2, q3⟩ := hx
    have := (abs_le.1 (near ⟨q a, q1 a, q2.symm⟩ ⟨q, q1, q2, q3⟩)).2
    have := hp.2 _ (q1 a)
    omega

end inv
/-! ## a request alone, by a thread that need not have seen everything -/

/-- where thread `t` is in the request for save point `k`, made in the state `s3`: what it has read of the maximum -/
def askAt (s3 s : AConc) (t k : Nat) : APc → Prop
  | .dPeek j => j = k ∧ s.results = s3.results
  | .dMin j _ mx => j = k ∧ s.results = s3.results ∧ mx = 0
  | .dMax j _ mx => j = k ∧ s.results = s3.results ∧ mx = 0
  | .dLoad j _ mx rest got => j = k ∧ s.results = s3.results ∧ got.length + rest.length = 9 ∧
      ∃ i, (s3.th t).view .maxUsedMemory ≤ i ∧ i ≤ (s3.loc .maxUsedMemory).top ∧ mx = (s3.loc .maxUsedMemory).val i
  | .dCur j _ mx got => j = k ∧ s.results = s3.results ∧ got.length = 9 ∧
      ∃ i, (s3.th t).view .maxUsedMemory ≤ i ∧ i ≤ (s3.loc .maxUsedMemory).top ∧ mx = (s3.loc .maxUsedMemory).val i
  | .idle => s.results = s3.results ++ [(k, .panicked)] ∨ ∃ got u mn i, got.length = 9 ∧
      (s3.th t).view .maxUsedMemory ≤ i ∧ i ≤ (s3.loc .maxUsedMemory).top ∧
      s.results = s3.results ++ [(k, .stats (got ++ [u, mn, (s3.loc .maxUsedMemory).val i]))]
  | _ => False

/-- what stays while it is in it -/
structure AskFrame (s3 : AConc) (t : Nat) (s : AConc) : Prop where
  loc : s.loc = s3.loc
  slots : s.slots = s3.slots
  saved : s.saved = s3.saved
  seen : (s3.th t).view .maxUsedMemory ≤ (s.th t).view .maxUsedMemory

theorem AskFrame.goto {s3 s : AConc} {t : Nat} {pc : APc} (h : AskFrame s3 t s) : AskFrame s3 t (s.goto t pc) :=
  ⟨h.loc, h.slots, h.saved, by rw [goto_view]; exact h.seen⟩

theorem AskFrame.see {s3 s : AConc} {t i : Nat} {c : Ctr} (h : AskFrame s3 t s) (h1 : (s.th t).view c ≤ i) : AskFrame s3 t (s.see t c i) := by
  refine ⟨h.loc, h.slots, h.saved, h.seen.trans ?_⟩
  rw [see_view]; split
  · rename_i e; rw [e.2]; exact h1
  · exact le_refl _

theorem ask_step {s3 s s' : AConc} {t i ok k} {sp : CSave} (hsp : s3.saved[k]? = some sp) (hhd : s3.slots.length = sp.head) (hlen : sp.got.length = 12)
    (hf : AskFrame s3 t s) (h : askAt s3 s t k (s.th t).pc) (hst : s.step t i ok = some s') : AskFrame s3 t s' ∧ askAt s3 s' t k (s'.th t).pc := by
  unfold AConc.step at hst
  split at hst <;> (rename_i hpc; rw [hpc] at h)
  · simp at hst
  iterate 17 exact h.elim
  · rename_i j
    obtain ⟨rfl, hr⟩ := h
    rw [hf.saved, hsp, hf.slots] at hst
    simp only at hst
    rw [if_neg (by omega)] at hst
    simp at hst; subst hst
    refine ⟨hf.goto, ?_⟩
    rw [goto_pc, if_pos rfl]
    have hdrop : s3.slots.drop sp.head = [] := List.drop_eq_nil_of_le (by omega)
    rw [hdrop]
    exact ⟨rfl, hr, rfl⟩
  · rename_i j mn mx
    obtain ⟨e, h1, h2⟩ := load_some hst
    subst e
    refine ⟨(hf.see h1).goto, ?_⟩
    rw [goto_pc, if_pos rfl]
    exact h
  · rename_i j mn mx
    obtain ⟨rfl, hr, rfl⟩ := h
    rw [hf.saved, hsp] at hst
    simp only at hst
    obtain ⟨e, h1, h2⟩ := load_some hst
    subst e
    refine ⟨(hf.see h1).goto, ?_⟩
    rw [goto_pc, if_pos rfl]
    rw [hf.loc] at h2
    refine ⟨rfl, hr, ?_, i, hf.seen.trans h1, h2, ?_⟩
    · simp [hlen, deltaCtrs]
    · rw [hf.loc]; exact Nat.zero_max _
  · rename_i j mn mx got
    simp at hst; subst hst
    refine ⟨hf.goto, ?_⟩
    rw [goto_pc, if_pos rfl]
    obtain ⟨e, hr, hl, hx⟩ := h
    exact ⟨e, hr, by simpa using hl, hx⟩
  · rename_i j mn mx c before rest got
    split at hst
    swap
    · simp at hst
    rename_i hrd
    have h1 : (s.th t).view c ≤ i := by
      simp only [AConc.readable, Bool.and_eq_true, decide_eq_true_eq] at hrd
      exact hrd.1
    obtain ⟨e, hr, hl, hx⟩ := h
    split at hst
    · simp at hst; subst hst
      refine ⟨⟨hf.loc, hf.slots, hf.saved, ((hf.see h1).goto (pc := .idle)).seen⟩, ?_⟩
      rw [AConc.result, goto_pc, if_pos rfl]
      left
      show s.results ++ _ = _
      rw [hr, e]
    · rename_i d hd
      simp at hst; subst hst
      refine ⟨(hf.see h1).goto, ?_⟩
      rw [goto_pc, if_pos rfl]
      refine ⟨e, hr, ?_, hx⟩
      simp only [List.length_append, List.length_cons, List.length_nil] at hl ⊢
      omega
  · rename_i j mn mx got
    split at hst
    swap
    · simp at hst
    rename_i hrd
    have h1 : (s.th t).view .currentUsedMemory ≤ i := by
      simp only [AConc.readable, Bool.and_eq_true, decide_eq_true_eq] at hrd
      exact hrd.1
    obtain ⟨e, hr, hl, x, hx1, hx2, rfl⟩ := h
    simp at hst; subst hst
    refine ⟨⟨hf.loc, hf.slots, hf.saved, ((hf.see h1).goto (pc := .idle)).seen⟩, ?_⟩
    rw [AConc.result, goto_pc, if_pos rfl]
    right
    refine ⟨got, (s.loc .currentUsedMemory).val i, mn, x, hl, hx1, hx2, ?_⟩
    show s.results ++ _ = _
    rw [hr, e]

theorem ask_steps {s3 : AConc} {t k} {sp : CSave} (hsp : s3.saved[k]? = some sp) (hhd : s3.slots.length = sp.head) (hlen : sp.got.length = 12) :
    ∀ (as : List AAct) (s s' : AConc), Alone t as → AskFrame s3 t s → askAt s3 s t k (s.th t).pc → s.sched as = some s' →
    AskFrame s3 t s' ∧ askAt s3 s' t k (s'.th t).pc := by
  intro as
  induction as with
  | nil => intro s s' _ hf h hs; simp [AConc.sched] at hs; subst hs; exact ⟨hf, h⟩
  | cons a as ih =>
    intro s s' hA hf h hs
    obtain ⟨s2, h1, h2⟩ := sched_cons_some hs
    obtain ⟨i, ok, rfl⟩ := hA a (by simp)
    obtain ⟨hf2, hp2⟩ := ask_step hsp hhd hlen hf h h1
    exact ih s2 s' (fun b hb => hA b (by simp [hb])) hf2 hp2 h2

/-- a request alone, no save point having been taken since: it panics, or reports a maximum the thread could read -/
theorem ask_alone {s3 s4 : AConc} {t k : Nat} {sp : CSave} {as : List AAct} (hA : Alone t as) (hsp : s3.saved[k]? = some sp)
    (hhd : s3.slots.length = sp.head) (hlen : sp.got.length = 12) (h : s3.sched (.delta t k :: as) = some s4) (hi : (s4.th t).pc = .idle) :
    s4.saved = s3.saved ∧ askAt s3 s4 t k .idle := by
  obtain ⟨s, h1, h2⟩ := sched_cons_some h
  simp only [AConc.act] at h1
  split at h1
  swap
  · simp at h1
  rw [hsp] at h1
  simp only [Option.some.injEq] at h1; subst h1
  have hf0 : AskFrame s3 t (s3.learn t sp.view) := by
    refine ⟨rfl, rfl, rfl, ?_⟩
    rw [learn_view, if_pos rfl]
    exact Nat.le_max_left _ _
  obtain ⟨a, b⟩ := ask_steps hsp hhd hlen as _ s4 hA hf0.goto (by rw [goto_pc, if_pos rfl]; exact ⟨rfl, rfl⟩) h2
  rw [hi] at b
  exact ⟨a.saved, b⟩

end BigO
