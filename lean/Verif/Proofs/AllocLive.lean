import Verif.Proofs.RingLive
import Verif.Props.AllocRing
import Verif.Spec.AllocLiveSpec
import Mathlib.Algebra.BigOperators.Group.Finset.Basic

/-! # Progress of the allocator's calls along infinite schedules -/
namespace BigO

/-- the action is a store of `save_point` to the minimum or maximum: metrics_allocator.rs 150 and 151 -/
def AFine.Resets (f : AFine) (a : AAct) : Prop :=
  ∃ t i ok, a = .step t i ok ∧ f.rpc t = .out ∧
    ((∃ hd cur, (f.core.th t).pc = .spStoreMin hd cur) ∨ ∃ hd cur, (f.core.th t).pc = .spStoreMax hd cur)

/-- how many turns a thread needs at most to leave the allocator, not counting repeated compare-exchanges -/
def APc.rank (N : Nat) : APc → Nat
  | .idle => 0
  | .rmw ops => 10 + ops.length
  | .loadCur => 6
  | .loadMin _ => 5
  | .casMin _ _ => 4
  | .loadMax _ => 3
  | .casMax _ _ => 2
  | .spMin => 40
  | .spMax _ => 39
  | .spEnqueue _ _ => 38
  | .spConsumer => 30
  | .spCur1 _ => 29
  | .spStoreMin _ _ => 28
  | .spCur2 _ => 27
  | .spStoreMax _ _ => 26
  | .spLoad _ rest _ => 1 + rest.length
  | .dPeek _ => 2 * N + 104
  | .dMin _ _ _ => 100
  | .dMax _ _ _ => 99
  | .dLoad _ _ _ rest _ => 20 + rest.length
  | .dCur _ _ _ _ => 1

/-- the same inside the ring operations -/
def AFine.rank (f : AFine) (t : Nat) : Nat :=
  match f.rpc t with
  | .out => (f.core.th t).pc.rank f.core.size
  | .reserved _ _ => 37
  | .written _ _ => 36
  | .peekHead _ _ => 2 * f.core.size + 103
  | .reading _ _ _ rest => 101 + rest.length
  | .panicked _ => 0

/-- thread `t` repeats the compare-exchange on the minimum -/
structure SpinMin (s s' : AConc) (t i cur : Nat) (ok : Bool) : Prop where
  here : ∃ mn, (s.th t).pc = .casMin cur mn
  next : (s'.th t).pc = .casMin cur ((s.loc .minUsedMemory).val i)
  failed : ok = false
  lo : (s.th t).view .minUsedMemory ≤ i
  hi : i ≤ (s.loc .minUsedMemory).top
  seen : (s'.th t).view .minUsedMemory = i

/-- thread `t` repeats the compare-exchange on the maximum -/
structure SpinMax (s s' : AConc) (t i cur : Nat) (ok : Bool) : Prop where
  here : ∃ mx, (s.th t).pc = .casMax cur mx
  next : (s'.th t).pc = .casMax cur ((s.loc .maxUsedMemory).val i)
  failed : ok = false
  lo : (s.th t).view .maxUsedMemory ≤ i
  hi : i ≤ (s.loc .maxUsedMemory).top
  seen : (s'.th t).view .maxUsedMemory = i

theorem pc_goto (s : AConc) (t pc) : ((s.goto t pc).th t).pc = pc := by rw [goto_pc, if_pos rfl]

theorem rank_toRmw (N : Nat) (ops : List Rmw) : (toRmw ops).rank N ≤ 10 + ops.length := by
  cases ops <;> simp [toRmw, APc.rank]

/-- a step outside the ring operations gets nearer to the end, or repeats a compare-exchange -/
theorem core_rank {s s' : AConc} {t i : Nat} {ok : Bool} (N : Nat) (hr : atRing (s.th t).pc = false) (h : s.step t i ok = some s') :
    (s'.th t).pc.rank N < (s.th t).pc.rank N ∨ (∃ cur, SpinMin s s' t i cur ok) ∨ ∃ cur, SpinMax s s' t i cur ok := by
  have hL : ∀ {c : Ctr} {i' : Nat} {k : Nat → APc}, s.load t c i' k = some s' → (∀ v, (k v).rank N < (s.th t).pc.rank N) →
      (s'.th t).pc.rank N < (s.th t).pc.rank N := by
    intro c i' k hl hk
    obtain ⟨rfl, _⟩ := load_some hl
    rw [pc_goto]
    exact hk _
  unfold AConc.step at h
  split at h <;> rename_i hpc <;> (try rw [hpc] at hr hL) <;> (try rw [hpc])
  · simp at h
  · simp at h; subst h; left; rw [pc_goto]; simp [APc.rank]
  · simp at h; subst h; left; rw [pc_goto]
    exact Nat.lt_of_le_of_lt (rank_toRmw N _) (by simp [APc.rank])
  · exact Or.inl (hL h (fun v => by simp [APc.rank]))
  · rename_i cur; exact Or.inl (hL h (fun v => by unfold toMin; split <;> simp [APc.rank]))
  · rename_i cur mn
    split at h
    · split at h
      · simp at h; subst h; left; rw [pc_goto]; simp [APc.rank]
      · simp at h
    · rename_i hok
      obtain ⟨rfl, h1, h2⟩ := load_some h
      by_cases hlt : cur < (s.loc .minUsedMemory).val i
      · right; left
        refine ⟨cur, ⟨⟨mn, hpc⟩, by rw [pc_goto, toMin, if_pos hlt], by simpa using hok, h1, h2, ?_⟩⟩
        rw [goto_view, see_view]; simp
      · left; rw [pc_goto, toMin, if_neg hlt]; simp [APc.rank]
  · rename_i cur; exact Or.inl (hL h (fun v => by unfold toMax; split <;> simp [APc.rank]))
  · rename_i cur mx
    split at h
    · split at h
      · simp at h; subst h; left; rw [pc_goto]; simp [APc.rank]
      · simp at h
    · rename_i hok
      obtain ⟨rfl, h1, h2⟩ := load_some h
      by_cases hlt : cur > (s.loc .maxUsedMemory).val i
      · right; right
        refine ⟨cur, ⟨⟨mx, hpc⟩, by rw [pc_goto, toMax, if_pos hlt], by simpa using hok, h1, h2, ?_⟩⟩
        rw [goto_view, see_view]; simp
      · left; rw [pc_goto, toMax, if_neg hlt]; simp [APc.rank]
  · exact Or.inl (hL h (fun v => by simp [APc.rank]))
  · exact Or.inl (hL h (fun v => by simp [APc.rank]))
  · simp [atRing] at hr
  · simp [atRing] at hr
  · exact Or.inl (hL h (fun v => by simp [APc.rank]))
  · simp at h; subst h; left; rw [pc_goto]; simp [APc.rank]
  · exact Or.inl (hL h (fun v => by simp [APc.rank]))
  · simp at h; subst h; left; rw [pc_goto]; simp [APc.rank, allCtrs, deltaCtrs]
  · simp at h; subst h; left; rw [pc_goto]; simp [APc.rank]
  · exact Or.inl (hL h (fun v => by simp [APc.rank]))
  · simp [atRing] at hr
  · exact Or.inl (hL h (fun v => by simp [APc.rank]))
  · split at h
    · simp at h
    · rename_i sp hsp
      refine Or.inl (hL h (fun v => ?_))
      have : (deltaCtrs.zip sp.got).length ≤ 9 := by
        rw [List.length_zip]; exact Nat.le_trans (Nat.min_le_left _ _) (by decide)
      simp only [APc.rank]; omega
  · simp at h; subst h; left; rw [pc_goto]; simp [APc.rank]
  · split at h
    · split at h
      · simp at h; subst h; left; rw [AConc.result, pc_goto]; simp [APc.rank]
      · simp at h; subst h; left; rw [pc_goto]; simp [APc.rank]
    · simp at h
  · split at h
    · simp at h; subst h; left; rw [AConc.result, pc_goto]; simp [APc.rank]
    · simp at h

/-- the ring hands out at most its size of slots -/
theorem peekIndices_length {p : Profile} {N h q : Nat} {js : List Nat} (hp : peekIndices p N h q = .ok (.ok js)) : js.length ≤ N := by
  unfold peekIndices at hp
  by_cases hN : N = 0
  · rw [if_pos hN] at hp; cases hp
  · rw [if_neg hN] at hp
    have h1 := Nat.mod_lt h (Nat.pos_of_ne_zero hN)
    have h2 := Nat.mod_lt q (Nat.pos_of_ne_zero hN)
    simp only at hp
    split at hp
    · injection hp with hp; injection hp with hp; subst hp; exact Nat.zero_le _
    · split at hp
      · cases hp
      · split at hp
        · injection hp with hp; cases hp
        · split at hp
          · injection hp with hp; injection hp with hp; subst hp; simp; omega
          · injection hp with hp; injection hp with hp; subst hp; simp; omega

theorem fieldLoads_length (js : List Nat) : (fieldLoads js).length = 2 * js.length := by
  induction js with
  | nil => rfl
  | cons j js ih =>
    have : fieldLoads (j :: js) = (j, .min) :: (j, .max) :: fieldLoads js := rfl
    rw [this]; simp [ih]; omega

/-- what a turn of a thread in the allocator does -/
theorem turn_rank {f f' : AFine} {t i : Nat} {ok : Bool} (hi : FInv f) (hs : FStep f t i ok f') :
    f'.rank t < f.rank t ∨ (∃ x r, f.rpc t = .written x r ∧ f'.rpc t = .written x r ∧ ok = false) ∨
    (f.rpc t = .out ∧ f'.rpc t = .out ∧ ((∃ cur, SpinMin f.core f'.core t i cur ok) ∨ ∃ cur, SpinMax f.core f'.core t i cur ok)) := by
  cases hs with
  | reserve mn mx hr hpc => left; simp only [AFine.rank, setRpc_same, hr, hpc]; simp [APc.rank]
  | consumer hr hpc => left; simp only [AFine.rank, hr, hpc, pc_goto]; simp [APc.rank]
  | enterPeek k sp hr hpc hsp => left; simp only [AFine.rank, hr, hpc, AFine.setRpc]; simp [APc.rank]
  | core c hr hpc hc =>
    rcases core_rank f.core.size hpc hc with h | h
    · left
      have hsz := (core_step hpc hc).size
      simp only [AFine.rank, hr, hsz]; exact h
    · exact Or.inr (Or.inr ⟨hr, hr, h⟩)
  | store x r hr hN => left; simp only [AFine.rank, setRpc_same, hr]; omega
  | storePanic x r hr hN => exact absurd hN (Nat.pos_iff_ne_zero.1 hi.size)
  | publish x r next hr hn hok hp =>
    left
    simp only [AFine.rank, setRpc_same, hr]
    show (((f.core.goto t .spConsumer).th t).pc).rank _ < 36
    rw [pc_goto]; simp [APc.rank]
  | retry x r hr hok hp => exact Or.inr (Or.inl ⟨x, r, hr, setRpc_same _ _ _, hok⟩)
  | publishPanic x r e hr hp => left; simp only [AFine.rank, setRpc_same, hr]; omega
  | peekPanic k h e hr hp => left; simp only [AFine.rank, setRpc_same, hr]; omega
  | peekErr k h e hr hp =>
    left
    simp only [AFine.rank, setRpc_same, hr]
    show (((f.core.result t k .overflow).th t).pc).rank _ < _
    rw [AConc.result, pc_goto]; simp [APc.rank]
  | peekOk k h js hr hp =>
    left
    have := peekIndices_length hp
    simp only [AFine.rank, setRpc_same, hr, fieldLoads_length]; omega
  | readDone k mn mx hr =>
    left
    simp only [AFine.rank, setRpc_same, hr]
    show (((f.core.goto t (.dMin k mn mx)).th t).pc).rank _ < _
    rw [pc_goto]; simp [APc.rank]
  | readPanic k mn mx j fd rest e hr hp => left; simp only [AFine.rank, setRpc_same, hr]; omega
  | read k mn mx j fd rest x hr hp => left; simp only [AFine.rank, setRpc_same, hr]; simp

/-- thread `t` is inside the allocator and the action is not one of its turns: nothing about it changes -/
theorem others_keep {f f' : AFine} {a : AAct} {t : Nat} (ha : f.act a = some f') (hbusy : (f.core.th t).pc ≠ .idle)
    (hno : ∀ i ok, a ≠ .step t i ok) : f'.core.th t = f.core.th t ∧ f'.rpc t = f.rpc t := by
  have hne : t ≠ a.tid := by
    rcases act_cases ha with ⟨u, i, ok, rfl, _⟩ | ⟨_, c, hc, _, _⟩
    · rintro rfl; exact hno i ok rfl
    · rintro rfl; exact hbusy hc.idle
  exact ⟨fine_others ha hne, rpc_act ha hne⟩

/-- stores to the extremes a thread in `save_point` has still to make, once its save point is published -/
def APc.owes : APc → Nat
  | .spConsumer => 2
  | .spCur1 _ => 2
  | .spStoreMin _ _ => 2
  | .spCur2 _ => 1
  | .spStoreMax _ _ => 1
  | _ => 0

/-- the thread is about to make one of them -/
def APc.stores : APc → Bool
  | .spStoreMin _ _ => true
  | .spStoreMax _ _ => true
  | _ => false

/-- a step outside the ring operations: what is still owed, and which call the thread is in -/
theorem core_class {s s' : AConc} {t i : Nat} {ok : Bool} (hr : atRing (s.th t).pc = false) (h : s.step t i ok = some s') :
    (s'.th t).pc.owes + (if (s.th t).pc.stores = true then 1 else 0) ≤ (s.th t).pc.owes ∧
    (inSave (s.th t).pc = true → (s'.th t).pc = .idle ∨ inSave (s'.th t).pc = true) := by
  have hL : ∀ {c : Ctr} {i' : Nat} {k : Nat → APc}, s.load t c i' k = some s' → (∀ v, (k v).owes ≤ (s.th t).pc.owes) → (s.th t).pc.stores = false →
      (∀ v, inSave (s.th t).pc = true → inSave (k v) = true) →
      (s'.th t).pc.owes + (if (s.th t).pc.stores = true then 1 else 0) ≤ (s.th t).pc.owes ∧
      (inSave (s.th t).pc = true → (s'.th t).pc = .idle ∨ inSave (s'.th t).pc = true) := by
    intro c i' k hl hk hst hsv
    obtain ⟨rfl, _⟩ := load_some hl
    rw [pc_goto, hst]
    exact ⟨by simpa using hk _, fun h => Or.inr (hsv _ h)⟩
  unfold AConc.step at h
  split at h <;> rename_i hpc <;> (try rw [hpc] at hr hL) <;> (try rw [hpc])
  · simp at h
  · simp at h; subst h; rw [pc_goto]; simp [APc.owes, APc.stores, inSave]
  · rename_i op ops; simp at h; subst h; rw [pc_goto]; cases ops <;> simp [APc.owes, APc.stores, inSave, toRmw]
  · exact hL h (fun v => by simp [APc.owes]) rfl (by simp [inSave])
  · exact hL h (fun v => by unfold toMin; split <;> simp [APc.owes]) rfl (by simp [inSave])
  · split at h
    · split at h
      · simp at h; subst h; rw [pc_goto]; simp [APc.owes, APc.stores, inSave]
      · simp at h
    · exact hL h (fun v => by unfold toMin; split <;> simp [APc.owes]) rfl (by simp [inSave])
  · exact hL h (fun v => by unfold toMax; split <;> simp [APc.owes]) rfl (by simp [inSave])
  · split at h
    · split at h
      · simp at h; subst h; rw [pc_goto]; simp [APc.owes, APc.stores, inSave]
      · simp at h
    · exact hL h (fun v => by unfold toMax; split <;> simp [APc.owes]) rfl (by simp [inSave])
  · exact hL h (fun v => by simp [APc.owes]) rfl (by simp [inSave])
  · exact hL h (fun v => by simp [APc.owes]) rfl (by simp [inSave])
  · simp [atRing] at hr
  · simp [atRing] at hr
  · exact hL h (fun v => by simp [APc.owes]) rfl (by simp [inSave])
  · simp at h; subst h; rw [pc_goto]; simp [APc.owes, APc.stores, inSave]
  · exact hL h (fun v => by simp [APc.owes]) rfl (by simp [inSave])
  · simp at h; subst h; rw [pc_goto]; simp [APc.owes, APc.stores, inSave]
  · simp at h; subst h; rw [pc_goto]; simp [APc.owes, APc.stores]
  · exact hL h (fun v => by simp [APc.owes]) rfl (by simp [inSave])
  · simp [atRing] at hr
  · exact hL h (fun v => by simp [APc.owes]) rfl (by simp [inSave])
  · split at h
    · simp at h
    · exact hL h (fun v => by simp [APc.owes]) rfl (by simp [inSave])
  · simp at h; subst h; rw [pc_goto]; simp [APc.owes, APc.stores, inSave]
  · split at h
    · split at h
      · simp at h; subst h; rw [AConc.result, pc_goto]; simp [APc.owes, APc.stores, inSave]
      · simp at h; subst h; rw [pc_goto]; simp [APc.owes, APc.stores, inSave]
    · simp at h
  · split at h
    · simp at h; subst h; rw [AConc.result, pc_goto]; simp [APc.owes, APc.stores, inSave]
    · simp at h

theorem enter_owes {s s' : AConc} {a : AAct} (ha : ∀ t i ok, a ≠ .step t i ok) (h : s.act a = some s') : (s'.th a.tid).pc.owes = 0 := by
  cases a with
  | step t i ok => exact absurd rfl (ha t i ok)
  | call t c =>
    simp only [AConc.act] at h; split at h <;> simp at h; subst h
    show ((AConc.goto _ t _).th t).pc.owes = 0
    rw [pc_goto]; cases rmws c <;> rfl
  | save t =>
    simp only [AConc.act] at h; split at h <;> simp at h; subst h
    show ((AConc.goto _ t _).th t).pc.owes = 0
    rw [pc_goto]; rfl
  | sync t u =>
    simp only [AConc.act] at h; split at h <;> simp at h; subst h
    rename_i hc
    show ((AConc.learn _ t _).th t).pc.owes = 0
    rw [learn_pc, hc]; rfl
  | delta t k =>
    simp only [AConc.act] at h
    split at h
    · split at h <;> simp at h; subst h
      show ((AConc.goto _ t _).th t).pc.owes = 0
      rw [pc_goto]; rfl
    · simp at h

section run

variable {p : Profile} {N : Nat} {s0 : Stats} {σ : Nat → AAct} {st : Nat → AFine}

theorem run_inv (hN : 0 < N) (hN32 : N < 2 ^ 32) (hrun : FRun p N s0 σ st) (hfew : ∀ n, (st n).begun < 2 ^ 32) (n : Nat) :
    FInv (st n) ∧ (st n).core.size = N := by
  induction n with
  | zero => rw [hrun.start]; exact ⟨finv_init hN hN32 s0, rfl⟩
  | succ n ih => exact ⟨ih.1.act (hrun.acts n) (hfew (n + 1)), (size_act (hrun.acts n)).trans ih.2⟩

/-- a thread that never leaves the allocator ends up repeating one compare-exchange for ever -/
theorem stuck_spins (hN : 0 < N) (hN32 : N < 2 ^ 32) (hrun : FRun p N s0 σ st) (hfew : ∀ n, (st n).begun < 2 ^ 32) (t n : Nat)
    (hstuck : ∀ m, n ≤ m → ((st m).core.th t).pc ≠ .idle) :
    ∃ n0, n ≤ n0 ∧ ∀ m, n0 ≤ m → ∀ i ok, σ m = .step t i ok →
      (∃ x r, (st m).rpc t = .written x r ∧ (st (m + 1)).rpc t = .written x r ∧ ok = false) ∨
      ((st m).rpc t = .out ∧ (st (m + 1)).rpc t = .out ∧
        ((∃ cur, SpinMin (st m).core (st (m + 1)).core t i cur ok) ∨ ∃ cur, SpinMax (st m).core (st (m + 1)).core t i cur ok)) := by
  have step : ∀ m, n ≤ m → (st (m + 1)).rank t ≤ (st m).rank t ∧ ((st (m + 1)).rank t = (st m).rank t → ∀ i ok, σ m = .step t i ok →
      (∃ x r, (st m).rpc t = .written x r ∧ (st (m + 1)).rpc t = .written x r ∧ ok = false) ∨
      ((st m).rpc t = .out ∧ (st (m + 1)).rpc t = .out ∧
        ((∃ cur, SpinMin (st m).core (st (m + 1)).core t i cur ok) ∨ ∃ cur, SpinMax (st m).core (st (m + 1)).core t i cur ok))) := by
    intro m hm
    have hi := run_inv hN hN32 hrun hfew m
    have hi' := run_inv hN hN32 hrun hfew (m + 1)
    by_cases htu : ∃ i ok, σ m = .step t i ok
    · obtain ⟨i, ok, hσ⟩ := htu
      have ha := hrun.acts m
      rw [hσ] at ha
      have hs := fstep_of (show (st m).step t i ok = some (st (m + 1)) from ha)
      rcases turn_rank hi.1 hs with h | h
      · exact ⟨by omega, fun e => by omega⟩
      · refine ⟨?_, fun _ i' ok' e => ?_⟩
        · rcases h with ⟨x, r, h1, h2, _⟩ | ⟨h1, h2, h3⟩
          · simp only [AFine.rank, h1, h2]; exact Nat.le_refl _
          · simp only [AFine.rank, h1, h2]
            rcases h3 with ⟨cur, h3⟩ | ⟨cur, h3⟩
            · obtain ⟨mn, e⟩ := h3.here
              rw [e, h3.next]; simp [APc.rank]
            · obtain ⟨mn, e⟩ := h3.here
              rw [e, h3.next]; simp [APc.rank]
        · rw [hσ] at e
          injection e with _ e2 e3
          subst e2 e3
          exact h
    · obtain ⟨h1, h2⟩ := others_keep (hrun.acts m) (hstuck m hm) (fun i ok h => htu ⟨i, ok, h⟩)
      refine ⟨?_, fun _ i ok h => (htu ⟨i, ok, h⟩).elim⟩
      simp only [AFine.rank, h1, h2, hi.2, hi'.2]; exact Nat.le_refl _
  have mono : ∀ a b, n ≤ a → a ≤ b → (st b).rank t ≤ (st a).rank t := by
    intro a b ha hab
    induction b, hab using Nat.le_induction with
    | base => exact Nat.le_refl _
    | succ b hb ih => exact Nat.le_trans (step b (by omega)).1 ih
  obtain ⟨n0, hn0, hc⟩ := eventually_constant (fun m => (st n).rank t - (st m).rank t) ((st n).rank t) n
    (fun a b ha hab => by have := mono a b ha hab; show _ - _ ≤ _ - _; omega) (fun a _ => Nat.sub_le _ _)
  refine ⟨n0, hn0, fun m hm => (step m (by omega)).2 ?_⟩
  have h1 := hc m hm
  have h2 := hc (m + 1) (by omega)
  have h3 := mono n m (Nat.le_refl _) (by omega)
  have h4 := mono n (m + 1) (Nat.le_refl _) (by omega)
  omega

/-- the extremes change only downwards, or upwards, except by a save point -/
theorem loc_step {s s' : AConc} {t i : Nat} {ok : Bool} (hwf : pcWf (s.th t).pc) (h : s.step t i ok = some s') :
    ((∀ hd cur, (s.th t).pc ≠ .spStoreMin hd cur) →
      s'.loc .minUsedMemory = s.loc .minUsedMemory ∨ (s'.loc .minUsedMemory).last < (s.loc .minUsedMemory).last) ∧
    ((∀ hd cur, (s.th t).pc ≠ .spStoreMax hd cur) →
      s'.loc .maxUsedMemory = s.loc .maxUsedMemory ∨ (s.loc .maxUsedMemory).last < (s'.loc .maxUsedMemory).last) := by
  have same : s'.loc = s.loc → _ := fun e => (⟨fun _ => Or.inl (by rw [e]), fun _ => Or.inl (by rw [e])⟩ :
    ((∀ hd cur, (s.th t).pc ≠ .spStoreMin hd cur) →
      s'.loc .minUsedMemory = s.loc .minUsedMemory ∨ (s'.loc .minUsedMemory).last < (s.loc .minUsedMemory).last) ∧
    ((∀ hd cur, (s.th t).pc ≠ .spStoreMax hd cur) →
      s'.loc .maxUsedMemory = s.loc .maxUsedMemory ∨ (s.loc .maxUsedMemory).last < (s'.loc .maxUsedMemory).last))
  have hL : ∀ {c : Ctr} {i' : Nat} {k : Nat → APc}, s.load t c i' k = some s' → s'.loc = s.loc := by
    intro c i' k hl
    obtain ⟨rfl, _⟩ := load_some hl
    rfl
  by_cases hd : isDelta (s.th t).pc
  · obtain ⟨s1, pc, rfl, D⟩ := delta_step hd h
    exact same D.loc
  unfold AConc.step at h
  split at h <;> rename_i hpc
  · simp at h
  · simp at h; subst h; exact same rfl
  · rename_i op ops
    simp at h; subst h
    rw [hpc] at hwf
    obtain ⟨_, h1, h2⟩ := hwf.1 op (by simp)
    exact ⟨fun _ => Or.inl (by rw [goto_loc, write_loc, if_neg (Ne.symm h1)]), fun _ => Or.inl (by rw [goto_loc, write_loc, if_neg (Ne.symm h2)])⟩
  · exact same (hL h)
  · exact same (hL h)
  · rename_i cur mn
    split at h
    · split at h
      · rename_i hlast
        simp at h; subst h
        rw [hpc] at hwf
        refine ⟨fun _ => Or.inr ?_, fun _ => Or.inl (by rw [goto_loc, write_loc, if_neg (by simp)])⟩
        rw [goto_loc, write_loc, if_pos rfl, push_last, hlast]; exact hwf
      · simp at h
    · exact same (hL h)
  · exact same (hL h)
  · rename_i cur mn
    split at h
    · split at h
      · rename_i hlast
        simp at h; subst h
        rw [hpc] at hwf
        refine ⟨fun _ => Or.inl (by rw [goto_loc, write_loc, if_neg (by simp)]), fun _ => Or.inr ?_⟩
        rw [goto_loc, write_loc, if_pos rfl, push_last, hlast]; exact hwf
      · simp at h
    · exact same (hL h)
  · exact same (hL h)
  · exact same (hL h)
  · simp at h; subst h; exact same rfl
  · simp at h; subst h; exact same rfl
  · exact same (hL h)
  · simp at h; subst h
    exact ⟨fun hn => (hn _ _ hpc).elim, fun _ => Or.inl (by rw [goto_loc, write_loc, if_neg (by simp)])⟩
  · exact same (hL h)
  · simp at h; subst h
    exact ⟨fun _ => Or.inl (by rw [goto_loc, write_loc, if_neg (by simp)]), fun hn => (hn _ _ hpc).elim⟩
  · simp at h; subst h; exact same rfl
  · exact same (hL h)
  all_goals exact absurd (by rw [hpc]; trivial) hd

theorem enter_loc {s s' : AConc} {a : AAct} (ha : ∀ t i ok, a ≠ .step t i ok) (h : s.act a = some s') : s'.loc = s.loc := by
  cases a with
  | step t i ok => exact absurd rfl (ha t i ok)
  | call t c => simp only [AConc.act] at h; split at h <;> simp at h; subst h; rfl
  | save t => simp only [AConc.act] at h; split at h <;> simp at h; subst h; rfl
  | sync t u => simp only [AConc.act] at h; split at h <;> simp at h; subst h; rfl
  | delta t k =>
    simp only [AConc.act] at h
    split at h
    · split at h <;> simp at h; subst h; rfl
    · simp at h

theorem wf_act {f f' : AFine} {a : AAct} (hwf : AllWf f.core) (ha : f.act a = some f') : AllWf f'.core := by
  rcases act_cases ha with ⟨t, i, ok, rfl, hs⟩ | ⟨_, c, _, hc, rfl⟩
  · cases hs with
    | core c hr hpc hc => exact hwf.step hc
    | consumer hr hpc => exact hwf.goto trivial (fun _ => rfl)
    | publish x r next hr hn hok hp => exact hwf.goto (pc := .spConsumer) trivial (fun _ => rfl)
    | peekErr k h e hr hp => exact hwf.goto (pc := .idle) trivial (fun _ => rfl)
    | readDone k mn mx hr => exact hwf.goto (pc := .dMin k mn mx) trivial (fun _ => rfl)
    | _ => exact hwf
  · exact hwf.act hc

theorem loc_act {f f' : AFine} {a : AAct} (hwf : AllWf f.core) (ha : f.act a = some f') (hr : ¬ f.Resets a) :
    (f'.core.loc .minUsedMemory = f.core.loc .minUsedMemory ∨
      (f'.core.loc .minUsedMemory).last < (f.core.loc .minUsedMemory).last) ∧
    (f'.core.loc .maxUsedMemory = f.core.loc .maxUsedMemory ∨
      (f.core.loc .maxUsedMemory).last < (f'.core.loc .maxUsedMemory).last) := by
  rcases act_cases ha with ⟨t, i, ok, rfl, hs⟩ | ⟨hns, c, _, hc, rfl⟩
  · cases hs with
    | core c ho hpc hc =>
      obtain ⟨h1, h2⟩ := loc_step (hwf t) hc
      exact ⟨h1 (fun hd cur e => hr ⟨t, i, ok, rfl, ho, Or.inl ⟨hd, cur, e⟩⟩), h2 (fun hd cur e => hr ⟨t, i, ok, rfl, ho, Or.inr ⟨hd, cur, e⟩⟩)⟩
    | _ => exact ⟨Or.inl rfl, Or.inl rfl⟩
  · have := enter_loc hns hc
    exact ⟨Or.inl (by show c.loc _ = _; rw [this]), Or.inl (by show c.loc _ = _; rw [this])⟩

theorem run_wf (hrun : FRun p N s0 σ st) (n : Nat) : AllWf (st n).core := by
  induction n with
  | zero => rw [hrun.start]; exact allWf_init p N s0
  | succ n ih => exact wf_act ih (hrun.acts n)

/-- nobody repeats the compare-exchange on the minimum for ever -/
theorem not_spinMin (hrun : FRun p N s0 σ st) (t n : Nat) (hk : KeepsGoing σ st t) (hreset : ∀ m, n ≤ m → ¬ (st m).Resets (σ m)) (cur : Nat)
    (hin : ∀ m, n ≤ m → (st m).rpc t = .out ∧ ∃ mn, ((st m).core.th t).pc = .casMin cur mn)
    (hspin : ∀ m, n ≤ m → ∀ i ok, σ m = .step t i ok → SpinMin (st m).core (st (m + 1)).core t i cur ok) : False := by
  have hstep : ∀ m, n ≤ m → (st (m + 1)).core.loc .minUsedMemory = (st m).core.loc .minUsedMemory ∨
      ((st (m + 1)).core.loc .minUsedMemory).last < ((st m).core.loc .minUsedMemory).last :=
    fun m hm => (loc_act (run_wf hrun m) (hrun.acts m) (hreset m hm)).1
  have mono : ∀ a b, n ≤ a → a ≤ b → ((st b).core.loc .minUsedMemory).last ≤ ((st a).core.loc .minUsedMemory).last := by
    intro a b ha hab
    induction b, hab using Nat.le_induction with
    | base => exact Nat.le_refl _
    | succ b hb ih =>
      rcases hstep b (by omega) with h | h
      · rw [h]; exact ih
      · omega
  obtain ⟨n1, hn1, hc⟩ := eventually_constant
    (fun m => ((st n).core.loc .minUsedMemory).last - ((st m).core.loc .minUsedMemory).last) ((st n).core.loc .minUsedMemory).last n
    (fun a b ha hab => by have := mono a b ha hab; show _ - _ ≤ _ - _; omega) (fun a _ => Nat.sub_le _ _)
  have hloc : ∀ m, n1 ≤ m → (st m).core.loc .minUsedMemory = (st n1).core.loc .minUsedMemory := by
    intro m hm
    induction m, hm using Nat.le_induction with
    | base => rfl
    | succ m hm ih =>
      rcases hstep m (by omega) with h | h
      · rw [h, ih]
      · have h1 := hc m hm
        have h2 := hc (m + 1) (by omega)
        have h3 := mono n m (Nat.le_refl _) (by omega)
        omega
  have often : ∀ k, ∃ m, k ≤ m ∧ (st m).AtCas t ∧ ∃ i ok, σ m = .step t i ok := by
    intro k
    obtain ⟨m, hm, h⟩ := hk.turns (max k n)
    obtain ⟨h1, mn, h2⟩ := hin m (by omega)
    refine ⟨m, by omega, Or.inr ⟨h1, Or.inl ⟨cur, mn, h2⟩⟩, ?_⟩
    rcases h with h | h
    · rw [h2] at h; cases h
    · exact h
  have gen : ∀ k, n1 ≤ k → ∃ m, k ≤ m ∧ ∃ i mn, σ m = .step t i false ∧ ((st m).core.th t).pc = .casMin cur mn ∧
      i = ((st n1).core.loc .minUsedMemory).top ∧ ((st n1).core.loc .minUsedMemory).last ≠ mn := by
    intro k hk1
    obtain ⟨m, hm, _, i, ok, hσ, hg⟩ := hk.genuine often k
    have hsp := hspin m (by omega) i ok hσ
    have hok := hsp.failed
    subst hok
    obtain ⟨h1, mn, h2⟩ := hin m (by omega)
    rcases hg with h | ⟨x, r, h, _⟩ | ⟨c, mn', _, h, hi, hl⟩ | ⟨c, mx, _, h, _⟩
    · cases h
    · rw [h1] at h; cases h
    · rw [h2] at h
      obtain ⟨_, rfl⟩ := APc.casMin.inj h
      rw [hloc m (by omega)] at hi hl
      exact ⟨m, hm, i, mn, hσ, h2, hi, hl⟩
    · rw [h2] at h; cases h
  obtain ⟨m1, hm1, i1, mn1, hσ1, _, hi1, _⟩ := gen n1 (Nat.le_refl _)
  have fresh : ∀ m, m1 + 1 ≤ m → ((st m).core.th t).pc = .casMin cur ((st n1).core.loc .minUsedMemory).last ∧
      ((st m).core.th t).view .minUsedMemory = ((st n1).core.loc .minUsedMemory).top := by
    intro m hm
    induction m, hm using Nat.le_induction with
    | base =>
      have hsp := hspin m1 (by omega) i1 false hσ1
      refine ⟨?_, hsp.seen.trans hi1⟩
      rw [hsp.next, hloc m1 hm1, hi1]; rfl
    | succ m hm ih =>
      by_cases htu : ∃ i ok, σ m = .step t i ok
      · obtain ⟨i, ok, hσ⟩ := htu
        have hsp := hspin m (by omega) i ok hσ
        have h1 := hsp.lo
        have h2 := hsp.hi
        rw [ih.2] at h1
        rw [hloc m (by omega)] at h2
        have hi : i = ((st n1).core.loc .minUsedMemory).top := by omega
        refine ⟨?_, hsp.seen.trans hi⟩
        rw [hsp.next, hloc m (by omega), hi]; rfl
      · obtain ⟨h1, _⟩ := others_keep (hrun.acts m) (by rw [ih.1]; simp) (fun i ok h => htu ⟨i, ok, h⟩)
        rw [h1]; exact ih
  obtain ⟨m2, hm2, i2, mn2, _, hpc2, _, hne⟩ := gen (m1 + 1) (by omega)
  rw [(fresh m2 hm2).1] at hpc2
  exact hne (APc.casMin.inj hpc2).2

/-- nobody repeats the compare-exchange on the maximum for ever -/
theorem not_spinMax (hrun : FRun p N s0 σ st) (t n : Nat) (hk : KeepsGoing σ st t) (hreset : ∀ m, n ≤ m → ¬ (st m).Resets (σ m)) (cur : Nat)
    (hin : ∀ m, n ≤ m → (st m).rpc t = .out ∧ ∃ mn, ((st m).core.th t).pc = .casMax cur mn)
    (hspin : ∀ m, n ≤ m → ∀ i ok, σ m = .step t i ok → SpinMax (st m).core (st (m + 1)).core t i cur ok) : False := by
  have hstep : ∀ m, n ≤ m → (st (m + 1)).core.loc .maxUsedMemory = (st m).core.loc .maxUsedMemory ∨
      ((st m).core.loc .maxUsedMemory).last < ((st (m + 1)).core.loc .maxUsedMemory).last :=
    fun m hm => (loc_act (run_wf hrun m) (hrun.acts m) (hreset m hm)).2
  have mono : ∀ a b, n ≤ a → a ≤ b → ((st a).core.loc .maxUsedMemory).last ≤ ((st b).core.loc .maxUsedMemory).last := by
    intro a b ha hab
    induction b, hab using Nat.le_induction with
    | base => exact Nat.le_refl _
    | succ b hb ih =>
      rcases hstep b (by omega) with h | h
      · rw [h]; exact ih
      · omega
  have often : ∀ k, ∃ m, k ≤ m ∧ (st m).AtCas t ∧ ∃ i ok, σ m = .step t i ok := by
    intro k
    obtain ⟨m, hm, h⟩ := hk.turns (max k n)
    obtain ⟨h1, mn, h2⟩ := hin m (by omega)
    refine ⟨m, by omega, Or.inr ⟨h1, Or.inr ⟨cur, mn, h2⟩⟩, ?_⟩
    rcases h with h | h
    · rw [h2] at h; cases h
    · exact h
  have gen0 : ∀ k, n ≤ k → ∃ m, k ≤ m ∧ ∃ i mn, σ m = .step t i false ∧ ((st m).core.th t).pc = .casMax cur mn ∧
      i = ((st m).core.loc .maxUsedMemory).top ∧ ((st m).core.loc .maxUsedMemory).last ≠ mn := by
    intro k hk1
    obtain ⟨m, hm, _, i, ok, hσ, hg⟩ := hk.genuine often k
    have hsp := hspin m (by omega) i ok hσ
    have hok := hsp.failed
    subst hok
    obtain ⟨h1, mn, h2⟩ := hin m (by omega)
    rcases hg with h | ⟨x, r, h, _⟩ | ⟨c, mx, _, h, _⟩ | ⟨c, mn', _, h, hi, hl⟩
    · cases h
    · rw [h1] at h; cases h
    · rw [h2] at h; cases h
    · rw [h2] at h
      obtain ⟨_, rfl⟩ := APc.casMax.inj h
      exact ⟨m, hm, i, mn, hσ, h2, hi, hl⟩
  have bound : ∀ a, n ≤ a → ((st a).core.loc .maxUsedMemory).last ≤ cur := by
    intro a ha
    obtain ⟨m, hm, i, mn, hσ, _, hi, _⟩ := gen0 a ha
    have hsp := hspin m (by omega) i false hσ
    have hwf := run_wf hrun (m + 1) t
    rw [hsp.next, hi] at hwf
    have h1 : ((st m).core.loc .maxUsedMemory).last < cur := hwf
    have h2 := mono a m ha hm
    omega
  obtain ⟨n1, hn1, hc⟩ := eventually_constant (fun m => ((st m).core.loc .maxUsedMemory).last) cur n mono bound
  have hloc : ∀ m, n1 ≤ m → (st m).core.loc .maxUsedMemory = (st n1).core.loc .maxUsedMemory := by
    intro m hm
    induction m, hm using Nat.le_induction with
    | base => rfl
    | succ m hm ih =>
      rcases hstep m (by omega) with h | h
      · rw [h, ih]
      · have h1 := hc m hm
        have h2 := hc (m + 1) (by omega)
        omega
  have gen : ∀ k, n1 ≤ k → ∃ m, k ≤ m ∧ ∃ i mn, σ m = .step t i false ∧ ((st m).core.th t).pc = .casMax cur mn ∧
      i = ((st n1).core.loc .maxUsedMemory).top ∧ ((st n1).core.loc .maxUsedMemory).last ≠ mn := by
    intro k hk1
    obtain ⟨m, hm, i, mn, h1, h2, h3, h4⟩ := gen0 k (by omega)
    rw [hloc m (by omega)] at h3 h4
    exact ⟨m, hm, i, mn, h1, h2, h3, h4⟩
  obtain ⟨m1, hm1, i1, mn1, hσ1, _, hi1, _⟩ := gen n1 (Nat.le_refl _)
  have fresh : ∀ m, m1 + 1 ≤ m → ((st m).core.th t).pc = .casMax cur ((st n1).core.loc .maxUsedMemory).last ∧
      ((st m).core.th t).view .maxUsedMemory = ((st n1).core.loc .maxUsedMemory).top := by
    intro m hm
    induction m, hm using Nat.le_induction with
    | base =>
      have hsp := hspin m1 (by omega) i1 false hσ1
      refine ⟨?_, hsp.seen.trans hi1⟩
      rw [hsp.next, hloc m1 hm1, hi1]; rfl
    | succ m hm ih =>
      by_cases htu : ∃ i ok, σ m = .step t i ok
      · obtain ⟨i, ok, hσ⟩ := htu
        have hsp := hspin m (by omega) i ok hσ
        have h1 := hsp.lo
        have h2 := hsp.hi
        rw [ih.2] at h1
        rw [hloc m (by omega)] at h2
        have hi : i = ((st n1).core.loc .maxUsedMemory).top := by omega
        refine ⟨?_, hsp.seen.trans hi⟩
        rw [hsp.next, hloc m (by omega), hi]; rfl
      · obtain ⟨h1, _⟩ := others_keep (hrun.acts m) (by rw [ih.1]; simp) (fun i ok h => htu ⟨i, ok, h⟩)
        rw [h1]; exact ih
  obtain ⟨m2, hm2, i2, mn2, _, hpc2, _, hne⟩ := gen (m1 + 1) (by omega)
  rw [(fresh m2 hm2).1] at hpc2
  exact hne (APc.casMax.inj hpc2).2

/-- nobody repeats the compare-exchange that publishes a save point for ever -/
theorem not_spinWritten (hN : 0 < N) (hN32 : N < 2 ^ 32) (hrun : FRun p N s0 σ st) (hfew : ∀ n, (st n).begun < 2 ^ 32)
    (hk : ∀ u, KeepsGoing σ st u) (t n : Nat) (x : Slot) (r : Nat) (hin : ∀ m, n ≤ m → (st m).rpc t = .written x r) : False := by
  -- `published_tail` never decreases
  have mono1 : ∀ m, (st m).ring.published ≤ (st (m + 1)).ring.published := by
    intro m
    have hi := (run_inv hN hN32 hrun hfew m).1
    rcases act_cases (hrun.acts m) with ⟨u, i, ok, _, hs⟩ | ⟨_, c, _, _, e⟩
    · generalize st (m + 1) = f' at hs
      cases hs with
      | publish y q next hr hn hok hp =>
        obtain ⟨a1, a2, _⟩ := hi.pend u y q (Or.inr hr)
        have := hi.small
        unfold u32Add at hn; rw [if_pos (by omega)] at hn
        injection hn with hn
        show (st m).ring.published ≤ next
        omega
      | _ => exact Nat.le_refl _
    · rw [e]
  have mono : ∀ a b, a ≤ b → (st a).ring.published ≤ (st b).ring.published := by
    intro a b hab
    induction b, hab using Nat.le_induction with
    | base => exact Nat.le_refl _
    | succ b hb ih => exact Nat.le_trans ih (mono1 b)
  have hle : ∀ m, (st m).ring.published ≤ r := by
    intro m
    have h1 := mono m (max m n) (by omega)
    have h2 := ((run_inv hN hN32 hrun hfew (max m n)).1.pend t x r (Or.inr (hin _ (by omega)))).1
    omega
  obtain ⟨n1, hn1, hc⟩ := eventually_constant (fun m => (st m).ring.published) r n (fun a b _ hab => mono a b hab) (fun a _ => hle a)
  have hc' : ∀ m, n1 ≤ m → (st m).ring.published = (st n1).ring.published := hc
  -- the thread that holds the position to be published next
  have hi1 := (run_inv hN hN32 hrun hfew n1).1
  obtain ⟨u, y, hu⟩ := hi1.cover (st n1).ring.published (Nat.le_refl _)
    (Nat.lt_of_le_of_lt (hle n1) (hi1.pend t x r (Or.inr (hin n1 hn1))).2.1)
  generalize hq : (st n1).ring.published = q at *
  have turn : ∀ m, n1 ≤ m → Pending ((st m).rpc u) y q → ∀ i ok, σ m = .step u i ok → (st (m + 1)).rpc u = .written y q ∧
      ((st m).rpc u = .written y q → ok = false) := by
    intro m hm hp i ok hσ
    have hi := (run_inv hN hN32 hrun hfew m).1
    have ha := hrun.acts m
    rw [hσ] at ha
    have hs := fstep_of (show (st m).step u i ok = some (st (m + 1)) from ha)
    have hpub := hc' (m + 1) (by omega)
    generalize st (m + 1) = f' at hs hpub
    cases hs with
    | store z k hr hN =>
      rw [hr] at hp
      rcases hp with e | e
      · injection e with e1 e2; subst e1 e2; exact ⟨setRpc_same _ _ _, fun h => by rw [hr] at h; cases h⟩
      · cases e
    | publish z k next hr hn hok hp' =>
      exfalso
      rw [hr] at hp
      obtain ⟨a1, a2, _⟩ := hi.pend u z k (Or.inr hr)
      have := hi.small
      unfold u32Add at hn; rw [if_pos (by omega)] at hn
      injection hn with hn
      have h3 : next = q := hpub
      have h4 := hc' m hm
      omega
    | retry z k hr hok hp' =>
      rw [hr] at hp
      rcases hp with e | e
      · cases e
      · injection e with e1 e2; subst e1 e2; exact ⟨setRpc_same _ _ _, fun _ => hok⟩
    | storePanic z k hr hN => exact absurd hN (Nat.pos_iff_ne_zero.1 hi.size)
    | publishPanic z k e hr hp' =>
      exfalso
      obtain ⟨a1, a2, _⟩ := hi.pend u z k (Or.inr hr)
      have := hi.small
      rcases hp' with ⟨e', he⟩ | hp'
      · unfold u32Add at he; rw [if_pos (by omega)] at he; cases he
      · omega
    | reserve mn mx hr hpc => rw [hr] at hp; exact absurd hp (not_pending_out _ _)
    | consumer hr hpc => rw [hr] at hp; exact absurd hp (not_pending_out _ _)
    | enterPeek k sp hr hpc hsp => rw [hr] at hp; exact absurd hp (not_pending_out _ _)
    | core c hr hpc hc => rw [hr] at hp; exact absurd hp (not_pending_out _ _)
    | peekPanic k hh e hr hp' => rw [hr] at hp; exact absurd hp (not_pending_peek _ _ _ _)
    | peekErr k hh e hr hp' => rw [hr] at hp; exact absurd hp (not_pending_peek _ _ _ _)
    | peekOk k hh js hr hp' => rw [hr] at hp; exact absurd hp (not_pending_peek _ _ _ _)
    | readDone k mn mx hr => rw [hr] at hp; exact absurd hp (not_pending_reading _ _ _ _ _ _)
    | readPanic k mn mx j fd rest e hr hp' => rw [hr] at hp; exact absurd hp (not_pending_reading _ _ _ _ _ _)
    | read k mn mx j fd rest z hr hp' => rw [hr] at hp; exact absurd hp (not_pending_reading _ _ _ _ _ _)
  have busy : ∀ m, Pending ((st m).rpc u) y q → ((st m).core.th u).pc ≠ .idle := by
    intro m hp e
    have := ((run_inv hN hN32 hrun hfew m).1.pend u y q hp).2.2
    rw [e] at this; cases this
  have stays : ∀ m, n1 ≤ m → Pending ((st m).rpc u) y q := by
    intro m hm
    induction m, hm using Nat.le_induction with
    | base => exact hu
    | succ m hm ih =>
      by_cases htu : ∃ i ok, σ m = .step u i ok
      · obtain ⟨i, ok, hσ⟩ := htu
        exact Or.inr (turn m hm ih i ok hσ).1
      · obtain ⟨_, h2⟩ := others_keep (hrun.acts m) (busy m ih) (fun i ok h => htu ⟨i, ok, h⟩)
        rw [h2]; exact ih
  have turns : ∀ k, ∃ m, k ≤ m ∧ n1 ≤ m ∧ ∃ i ok, σ m = .step u i ok := by
    intro k
    obtain ⟨m, hm, h⟩ := (hk u).turns (max k n1)
    refine ⟨m, by omega, by omega, ?_⟩
    rcases h with h | h
    · exact (busy m (stays m (by omega)) h).elim
    · exact h
  obtain ⟨m0, _, hm0, i0, ok0, hσ0⟩ := turns n1
  have written : ∀ m, m0 + 1 ≤ m → (st m).rpc u = .written y q := by
    intro m hm
    induction m, hm using Nat.le_induction with
    | base => exact (turn m0 hm0 (stays m0 hm0) i0 ok0 hσ0).1
    | succ m hm ih =>
      by_cases htu : ∃ i ok, σ m = .step u i ok
      · obtain ⟨i, ok, hσ⟩ := htu
        exact (turn m (by omega) (Or.inr ih) i ok hσ).1
      · obtain ⟨_, h2⟩ := others_keep (hrun.acts m) (busy m (Or.inr ih)) (fun i ok h => htu ⟨i, ok, h⟩)
        rw [h2]; exact ih
  obtain ⟨m, hm, _, i, ok, hσ, hg⟩ := (hk u).genuine (fun k => by
    obtain ⟨m, h1, h2, h3⟩ := turns (max k (m0 + 1))
    exact ⟨m, by omega, Or.inl ⟨y, q, written m (by omega)⟩, h3⟩) (m0 + 1)
  have hw := written m hm
  have hok := (turn m (by omega) (Or.inr hw) i ok hσ).2 hw
  subst hok
  rcases hg with h | ⟨z, k, h, hne⟩ | ⟨_, _, h, _⟩ | ⟨_, _, h, _⟩
  · cases h
  · rw [hw] at h
    injection h with h1 h2
    subst h2
    exact hne (hc' m (by omega))
  · rw [hw] at h; cases h
  · rw [hw] at h; cases h

/-- a thread that keeps running and never leaves the allocator would repeat one and the same compare-exchange for ever -/
theorem stuck_kinds (hN : 0 < N) (hN32 : N < 2 ^ 32) (hrun : FRun p N s0 σ st) (hfew : ∀ n, (st n).begun < 2 ^ 32) (t n : Nat)
    (hk : KeepsGoing σ st t) (hstuck : ∀ m, n ≤ m → ((st m).core.th t).pc ≠ .idle) :
    ∃ n0, n ≤ n0 ∧
      ((∃ x r, ∀ m, n0 ≤ m → (st m).rpc t = .written x r) ∨
       (∃ cur, (∀ m, n0 ≤ m → (st m).rpc t = .out ∧ ∃ mn, ((st m).core.th t).pc = .casMin cur mn) ∧
          ∀ m, n0 ≤ m → ∀ i ok, σ m = .step t i ok → SpinMin (st m).core (st (m + 1)).core t i cur ok) ∨
       (∃ cur, (∀ m, n0 ≤ m → (st m).rpc t = .out ∧ ∃ mx, ((st m).core.th t).pc = .casMax cur mx) ∧
          ∀ m, n0 ≤ m → ∀ i ok, σ m = .step t i ok → SpinMax (st m).core (st (m + 1)).core t i cur ok)) := by
  obtain ⟨n1, hn1, hall⟩ := stuck_spins hN hN32 hrun hfew t n hstuck
  obtain ⟨n0, hn0, h⟩ := hk.turns n1
  obtain ⟨i, ok, hσ⟩ : ∃ i ok, σ n0 = .step t i ok := by
    rcases h with h | h
    · exact (hstuck n0 (by omega) h).elim
    · exact h
  refine ⟨n0, by omega, ?_⟩
  rcases hall n0 hn0 i ok hσ with ⟨x, r, hx, _⟩ | ⟨ho, _, ⟨cur, hsp⟩ | ⟨cur, hsp⟩⟩
  · left
    refine ⟨x, r, fun m hm => ?_⟩
    induction m, hm using Nat.le_induction with
    | base => exact hx
    | succ m hm ih =>
      by_cases htu : ∃ i ok, σ m = .step t i ok
      · obtain ⟨i, ok, hσ⟩ := htu
        rcases hall m (by omega) i ok hσ with ⟨x', r', h1, h2, _⟩ | ⟨h1, _⟩
        · rw [ih] at h1; rw [h2, ← h1]
        · rw [ih] at h1; cases h1
      · obtain ⟨_, h2⟩ := others_keep (hrun.acts m) (hstuck m (by omega)) (fun i ok h => htu ⟨i, ok, h⟩)
        rw [h2]; exact ih
  · right; left
    have turn : ∀ m, n0 ≤ m → ((st m).rpc t = .out ∧ ∃ mn, ((st m).core.th t).pc = .casMin cur mn) → ∀ i ok, σ m = .step t i ok →
        (st (m + 1)).rpc t = .out ∧ SpinMin (st m).core (st (m + 1)).core t i cur ok := by
      intro m hm hin i ok hσ
      rcases hall m (by omega) i ok hσ with ⟨x', r', h1, _⟩ | ⟨h1, h2, ⟨c, h3⟩ | ⟨c, h3⟩⟩
      · rw [hin.1] at h1; cases h1
      · obtain ⟨mn, e⟩ := h3.here
        obtain ⟨mn', e'⟩ := hin.2
        rw [e] at e'
        obtain ⟨rfl, _⟩ := APc.casMin.inj e'
        exact ⟨h2, h3⟩
      · obtain ⟨mn, e⟩ := h3.here
        obtain ⟨mn', e'⟩ := hin.2
        rw [e] at e'; cases e'
    have hin : ∀ m, n0 ≤ m → ((st m).rpc t = .out ∧ ∃ mn, ((st m).core.th t).pc = .casMin cur mn) := by
      intro m hm
      induction m, hm using Nat.le_induction with
      | base => exact ⟨ho, hsp.here⟩
      | succ m hm ih =>
        by_cases htu : ∃ i ok, σ m = .step t i ok
        · obtain ⟨i, ok, hσ⟩ := htu
          obtain ⟨h1, h2⟩ := turn m hm ih i ok hσ
          exact ⟨h1, _, h2.next⟩
        · obtain ⟨h1, h2⟩ := others_keep (hrun.acts m) (hstuck m (by omega)) (fun i ok h => htu ⟨i, ok, h⟩)
          rw [h1, h2]; exact ih
    exact ⟨cur, hin, fun m hm i ok hσ => (turn m hm (hin m hm) i ok hσ).2⟩
  · right; right
    have turn : ∀ m, n0 ≤ m → ((st m).rpc t = .out ∧ ∃ mn, ((st m).core.th t).pc = .casMax cur mn) → ∀ i ok, σ m = .step t i ok →
        (st (m + 1)).rpc t = .out ∧ SpinMax (st m).core (st (m + 1)).core t i cur ok := by
      intro m hm hin i ok hσ
      rcases hall m (by omega) i ok hσ with ⟨x', r', h1, _⟩ | ⟨h1, h2, ⟨c, h3⟩ | ⟨c, h3⟩⟩
      · rw [hin.1] at h1; cases h1
      · obtain ⟨mn, e⟩ := h3.here
        obtain ⟨mn', e'⟩ := hin.2
        rw [e] at e'; cases e'
      · obtain ⟨mn, e⟩ := h3.here
        obtain ⟨mn', e'⟩ := hin.2
        rw [e] at e'
        obtain ⟨rfl, _⟩ := APc.casMax.inj e'
        exact ⟨h2, h3⟩
    have hin : ∀ m, n0 ≤ m → ((st m).rpc t = .out ∧ ∃ mn, ((st m).core.th t).pc = .casMax cur mn) := by
      intro m hm
      induction m, hm using Nat.le_induction with
      | base => exact ⟨ho, hsp.here⟩
      | succ m hm ih =>
        by_cases htu : ∃ i ok, σ m = .step t i ok
        · obtain ⟨i, ok, hσ⟩ := htu
          obtain ⟨h1, h2⟩ := turn m hm ih i ok hσ
          exact ⟨h1, _, h2.next⟩
        · obtain ⟨h1, h2⟩ := others_keep (hrun.acts m) (hstuck m (by omega)) (fun i ok h => htu ⟨i, ok, h⟩)
          rw [h1, h2]; exact ih
    exact ⟨cur, hin, fun m hm i ok hσ => (turn m hm (hin m hm) i ok hσ).2⟩

/-- what thread `u` owes, if its save point is published -/
def AFine.owes (f : AFine) (u : Nat) : Nat := match f.rpc u with | .out => (f.core.th u).pc.owes | _ => 0

open Classical in
/-- what an action does to the debts -/
theorem owes_act {f f' : AFine} {a : AAct} (hi : FInv f) (ha : f.act a = some f') :
    (∀ u, u ≠ a.tid → f'.owes u = f.owes u) ∧ f.ring.published ≤ f'.ring.published ∧
    f'.owes a.tid + (if f.Resets a then 1 else 0) ≤ f.owes a.tid + 2 * (f'.ring.published - f.ring.published) := by
  have hoth : ∀ u, u ≠ a.tid → f'.owes u = f.owes u := by
    intro u hu
    simp only [AFine.owes, fine_others ha hu, rpc_act ha hu]
  refine ⟨hoth, ?_⟩
  rcases act_cases ha with ⟨t, i, ok, rfl, hs⟩ | ⟨hns, c, hc, hact, rfl⟩
  · have hnot : f.rpc t ≠ .out → ¬ f.Resets (.step t i ok) := by
      rintro h ⟨t', i', ok', e, ho, _⟩
      injection e with e1; subst e1; exact h ho
    have hnotpc : (f.core.th t).pc.stores = false → ¬ f.Resets (.step t i ok) := by
      rintro h ⟨t', i', ok', e, ho, ⟨a, b, hp⟩ | ⟨a, b, hp⟩⟩ <;> injection e with e1 <;> subst e1 <;> rw [hp] at h <;> cases h
    show f.ring.published ≤ f'.ring.published ∧
      f'.owes t + (if f.Resets (.step t i ok) then 1 else 0) ≤ f.owes t + 2 * (f'.ring.published - f.ring.published)
    cases hs with
    | core c ho hpc hc =>
      obtain ⟨h1, _⟩ := core_class hpc hc
      refine ⟨Nat.le_refl _, ?_⟩
      have e1 : AFine.owes { f with core := c } t = (c.th t).pc.owes := by simp only [AFine.owes, ho]
      have e2 : f.owes t = (f.core.th t).pc.owes := by simp only [AFine.owes, ho]
      rw [e1, e2]
      by_cases hst : (f.core.th t).pc.stores = true
      · rw [if_pos hst] at h1
        have : (if f.Resets (.step t i ok) then 1 else 0) ≤ 1 := by split <;> omega
        omega
      · rw [if_neg (hnotpc (by simpa using hst))]
        rw [if_neg hst] at h1
        omega
    | publish x r next hr hn hok hp =>
      obtain ⟨a1, a2, _⟩ := hi.pend t x r (Or.inr hr)
      have := hi.small
      unfold u32Add at hn; rw [if_pos (by omega)] at hn
      injection hn with hn
      rw [if_neg (hnot (by rw [hr]; simp))]
      have e1 : (({ f with ring := { f.ring with published := next }, core := f.core.goto t .spConsumer } : AFine).setRpc t .out).owes t = 2 := by
        simp only [AFine.owes, setRpc_same]
        show ((f.core.goto t .spConsumer).th t).pc.owes = 2
        rw [pc_goto]; rfl
      have e2 : (({ f with ring := { f.ring with published := next }, core := f.core.goto t .spConsumer } : AFine).setRpc t .out).ring.published = next := rfl
      rw [e1, e2]
      omega
    | consumer hr hpc =>
      rw [if_neg (hnotpc (by rw [hpc]; rfl))]
      simp only [AFine.owes, hr, pc_goto, hpc, APc.owes]
      exact ⟨Nat.le_refl _, by omega⟩
    | reserve mn mx hr hpc =>
      rw [if_neg (hnotpc (by rw [hpc]; rfl))]
      simp only [AFine.owes, setRpc_same]
      exact ⟨Nat.le_refl _, by omega⟩
    | enterPeek k sp hr hpc hsp =>
      rw [if_neg (hnotpc (by rw [hpc]; rfl))]
      simp only [AFine.owes, setRpc_same]
      exact ⟨Nat.le_refl _, by omega⟩
    | peekErr k h e hr hp =>
      rw [if_neg (hnot (by rw [hr]; simp))]
      simp only [AFine.owes, setRpc_same]
      refine ⟨Nat.le_refl _, ?_⟩
      show ((f.core.result t k .overflow).th t).pc.owes + 0 ≤ _
      rw [AConc.result, pc_goto]; simp [APc.owes]
    | readDone k mn mx hr =>
      rw [if_neg (hnot (by rw [hr]; simp))]
      simp only [AFine.owes, setRpc_same]
      refine ⟨Nat.le_refl _, ?_⟩
      show ((f.core.goto t (.dMin k mn mx)).th t).pc.owes + 0 ≤ _
      rw [pc_goto]; simp [APc.owes]
    | store x r hr hN => rw [if_neg (hnot (by rw [hr]; simp))]; simp only [AFine.owes, setRpc_same]; exact ⟨Nat.le_refl _, by omega⟩
    | storePanic x r hr hN => rw [if_neg (hnot (by rw [hr]; simp))]; simp only [AFine.owes, setRpc_same]; exact ⟨Nat.le_refl _, by omega⟩
    | retry x r hr hok hp => rw [if_neg (hnot (by rw [hr]; simp))]; simp only [AFine.owes, setRpc_same]; exact ⟨Nat.le_refl _, by omega⟩
    | publishPanic x r e hr hp => rw [if_neg (hnot (by rw [hr]; simp))]; simp only [AFine.owes, setRpc_same]; exact ⟨Nat.le_refl _, by omega⟩
    | peekPanic k h e hr hp => rw [if_neg (hnot (by rw [hr]; simp))]; simp only [AFine.owes, setRpc_same]; exact ⟨Nat.le_refl _, by omega⟩
    | peekOk k h js hr hp => rw [if_neg (hnot (by rw [hr]; simp))]; simp only [AFine.owes, setRpc_same]; exact ⟨Nat.le_refl _, by omega⟩
    | readPanic k mn mx j fd rest e hr hp =>
      rw [if_neg (hnot (by rw [hr]; simp))]; simp only [AFine.owes, setRpc_same]; exact ⟨Nat.le_refl _, by omega⟩
    | read k mn mx j fd rest x hr hp =>
      rw [if_neg (hnot (by rw [hr]; simp))]; simp only [AFine.owes, setRpc_same]; exact ⟨Nat.le_refl _, by omega⟩
  · refine ⟨Nat.le_refl _, ?_⟩
    rw [if_neg (by rintro ⟨t, i, ok, e, _⟩; exact hns t i ok e)]
    have e1 : AFine.owes { f with core := c } a.tid = 0 := by
      simp only [AFine.owes, hi.out_of_idle hc.idle]
      exact enter_owes hns hact
    rw [e1]; omega

open Classical in
/-- save points reset the extremes at most twice each -/
theorem resets_le (hN : 0 < N) (hN32 : N < 2 ^ 32) (hrun : FRun p N s0 σ st) (hfew : ∀ n, (st n).begun < 2 ^ 32) (K : Nat) :
    ((Finset.range K).filter fun m => (st m).Resets (σ m)).card ≤ 2 * (st K).ring.published := by
  obtain ⟨B, hB⟩ := exists_bound ((List.range K).map σ)
  have hB' : ∀ m, m < K → (σ m).tid < B := fun m hm => hB _ (List.mem_map.2 ⟨m, List.mem_range.2 hm, rfl⟩)
  have main : ∀ n, n ≤ K → ((Finset.range n).filter fun m => (st m).Resets (σ m)).card + ∑ u ∈ Finset.range B, (st n).owes u
      ≤ 2 * (st n).ring.published := by
    intro n
    induction n with
    | zero =>
      intro _
      rw [hrun.start]
      simp [AFine.init, AFine.owes, AConc.init, APc.owes]
    | succ n ih =>
      intro hn
      have ih := ih (by omega)
      obtain ⟨h1, h2, h3⟩ := owes_act (run_inv hN hN32 hrun hfew n).1 (hrun.acts n)
      have ht : (σ n).tid ∈ Finset.range B := Finset.mem_range.2 (hB' n (by omega))
      have hsum : ∑ u ∈ Finset.range B, (st (n + 1)).owes u + (st n).owes (σ n).tid =
          ∑ u ∈ Finset.range B, (st n).owes u + (st (n + 1)).owes (σ n).tid := by
        rw [← Finset.add_sum_erase _ _ ht, ← Finset.add_sum_erase _ (fun u => (st n).owes u) ht]
        have : ∑ u ∈ (Finset.range B).erase (σ n).tid, (st (n + 1)).owes u = ∑ u ∈ (Finset.range B).erase (σ n).tid, (st n).owes u :=
          Finset.sum_congr rfl (fun u hu => h1 u (Finset.ne_of_mem_erase hu))
        rw [this]; omega
      have hcard : ((Finset.range (n + 1)).filter fun m => (st m).Resets (σ m)).card =
          ((Finset.range n).filter fun m => (st m).Resets (σ m)).card + (if (st n).Resets (σ n) then 1 else 0) := by
        rw [Finset.range_add_one, Finset.filter_insert]
        split
        · rw [Finset.card_insert_of_notMem (by simp)]
        · rfl
      rw [hcard]
      omega
  have := main K (Nat.le_refl _)
  omega

open Classical in
/-- so save points reset the extremes finitely often -/
theorem resets_end (hN : 0 < N) (hN32 : N < 2 ^ 32) (hrun : FRun p N s0 σ st) (hfew : ∀ n, (st n).begun < 2 ^ 32) :
    ∃ n0, ∀ m, n0 ≤ m → ¬ (st m).Resets (σ m) := by
  obtain ⟨n0, _, hc⟩ := eventually_constant (fun n => ((Finset.range n).filter fun m => (st m).Resets (σ m)).card) (2 * 2 ^ 32) 0
    (fun a b _ hab => Finset.card_le_card (Finset.filter_subset_filter _ (Finset.range_mono hab)))
    (fun a _ => by
      have h1 := resets_le hN hN32 hrun hfew a
      have h2 := (run_inv hN hN32 hrun hfew a).1.le
      have h3 := hfew a
      show ((Finset.range a).filter fun m => (st m).Resets (σ m)).card ≤ 2 * 2 ^ 32
      omega)
  refine ⟨n0, fun m hm hr => ?_⟩
  have h1 := hc m hm
  have h2 := hc (m + 1) (by omega)
  have h3 : ((Finset.range (m + 1)).filter fun m => (st m).Resets (σ m)).card =
      ((Finset.range m).filter fun m => (st m).Resets (σ m)).card + 1 := by
    rw [Finset.range_add_one, Finset.filter_insert, if_pos hr, Finset.card_insert_of_notMem (by simp)]
  omega

/-- a turn of a busy thread: `save_point` is left only by returning, and entered only by calling it; likewise `delta_statistics` -/
theorem class_turn {f f' : AFine} {t i : Nat} {ok : Bool} (hi : FInv f) (hs : FStep f t i ok f') :
    (inSave (f.core.th t).pc = true → (f'.core.th t).pc = .idle ∨ inSave (f'.core.th t).pc = true) ∧
    (inSave (f'.core.th t).pc = true → inSave (f.core.th t).pc = true) ∧
    (isDelta (f.core.th t).pc → (f'.core.th t).pc = .idle ∨ isDelta (f'.core.th t).pc) := by
  have same : f'.core = f.core → (inSave (f.core.th t).pc = true → (f'.core.th t).pc = .idle ∨ inSave (f'.core.th t).pc = true) ∧
      (inSave (f'.core.th t).pc = true → inSave (f.core.th t).pc = true) ∧
      (isDelta (f.core.th t).pc → (f'.core.th t).pc = .idle ∨ isDelta (f'.core.th t).pc) := by
    intro e; rw [e]; exact ⟨Or.inr, id, Or.inr⟩
  cases hs with
  | core c ho hpc hc =>
    refine ⟨(core_class hpc hc).2, (core_step hpc hc).save, fun hd => ?_⟩
    obtain ⟨s1, pc, rfl, D⟩ := delta_step hd hc
    show ((s1.goto t pc).th t).pc = _ ∨ isDelta ((s1.goto t pc).th t).pc
    rw [pc_goto]; exact D.dest
  | consumer hr hpc => rw [hpc]; simp only [pc_goto]; simp [inSave, isDelta]
  | publish x r next hr hn hok hp =>
    rw [(hi.pend t x r (Or.inr hr)).2.2]
    have : (({ f with ring := { f.ring with published := next }, core := f.core.goto t .spConsumer } : AFine).setRpc t .out).core =
      f.core.goto t .spConsumer := rfl
    rw [this, pc_goto]; simp [inSave, isDelta]
  | peekErr k h e hr hp =>
    rw [(hi.peek t k h hr).1]
    have : (({ f with core := f.core.result t k .overflow } : AFine).setRpc t .out).core = f.core.result t k .overflow := rfl
    rw [this, AConc.result, pc_goto]; simp [inSave]
  | readDone k mn mx hr =>
    rw [(hi.reading t k mn mx [] hr).1]
    have : (({ f with core := f.core.goto t (.dMin k mn mx) } : AFine).setRpc t .out).core = f.core.goto t (.dMin k mn mx) := rfl
    rw [this, pc_goto]; simp [inSave, isDelta]
  | _ => exact same rfl

/-- along an execution in which `t` never leaves the allocator it stays in the same kind of call -/
theorem class_stays (hN : 0 < N) (hN32 : N < 2 ^ 32) (hrun : FRun p N s0 σ st) (hfew : ∀ n, (st n).begun < 2 ^ 32) (t n : Nat)
    (hstuck : ∀ m, n ≤ m → ((st m).core.th t).pc ≠ .idle) :
    (inSave ((st n).core.th t).pc = true → ∀ m, n ≤ m → inSave ((st m).core.th t).pc = true) ∧
    (inSave ((st n).core.th t).pc = false → ∀ m, n ≤ m → inSave ((st m).core.th t).pc = false) ∧
    (isDelta ((st n).core.th t).pc → ∀ m, n ≤ m → isDelta ((st m).core.th t).pc) := by
  have key : ∀ m, n ≤ m → (inSave ((st m).core.th t).pc = true → inSave ((st (m + 1)).core.th t).pc = true) ∧
      (inSave ((st m).core.th t).pc = false → inSave ((st (m + 1)).core.th t).pc = false) ∧
      (isDelta ((st m).core.th t).pc → isDelta ((st (m + 1)).core.th t).pc) := by
    intro m hm
    by_cases htu : ∃ i ok, σ m = .step t i ok
    · obtain ⟨i, ok, hσ⟩ := htu
      have ha := hrun.acts m
      rw [hσ] at ha
      obtain ⟨c1, c2, c3⟩ := class_turn (run_inv hN hN32 hrun hfew m).1 (fstep_of (show (st m).step t i ok = some (st (m + 1)) from ha))
      have hb := hstuck (m + 1) (by omega)
      refine ⟨fun h => (c1 h).resolve_left hb, fun h => ?_, fun h => (c3 h).resolve_left hb⟩
      by_contra hne
      rw [c2 (by simpa using hne)] at h; cases h
    · obtain ⟨h1, _⟩ := others_keep (hrun.acts m) (hstuck m hm) (fun i ok h => htu ⟨i, ok, h⟩)
      rw [h1]; exact ⟨id, id, id⟩
  refine ⟨fun h m hm => ?_, fun h m hm => ?_, fun h m hm => ?_⟩ <;> induction m, hm using Nat.le_induction with
  | base => exact h
  | succ m hm ih => first | exact (key m hm).1 ih | exact (key m hm).2.1 ih | exact (key m hm).2.2 ih

end run

end BigO
