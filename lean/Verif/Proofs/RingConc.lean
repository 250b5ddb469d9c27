import Verif.Spec.RingConcSpec
import Verif.Proofs.Ring
import Mathlib.Data.Fintype.Card
import Mathlib.Data.Fintype.EquivFin

/-! # Invariants of the concurrent ring buffer -/
set_option linter.unusedSimpArgs false
set_option linter.unusedVariables false
namespace BigO

variable {α : Type} {T : Nat}

/-- producer side invariant -/
structure PInv (N : Nat) (s : RState α T) : Prop where
  res : s.ring.reserved = s.log.length
  pub : s.ring.published ≤ s.log.length
  hold : ∀ t e r, (s.pc t).enq? = some (e, r) → s.ring.published ≤ r ∧ s.log[r]? = some e
  uniq : ∀ t t' e e' r, (s.pc t).enq? = some (e, r) → (s.pc t').enq? = some (e', r) → t = t'
  cover : ∀ r, s.ring.published ≤ r → r < s.log.length → ∃ t e, (s.pc t).enq? = some (e, r)
  slots : ∀ q, q < s.log.length → s.log.length ≤ q + N →
    (q < s.ring.published ∨ ∃ t e, s.pc t = .enqWritten e q) → s.ring.slot (q % N) = s.log[q]?

theorem pinv_init (N : Nat) : PInv N (RState.init α T) := by
  refine ⟨rfl, Nat.le_refl _, ?_, ?_, ?_, ?_⟩ <;> simp [RState.init, RPc.enq?, Ring.new]

/-- the unpublished positions belong to enqueues in flight -/
theorem inflight_le {N : Nat} {s : RState α T} (h : PInv N s) : s.log.length ≤ s.ring.published + s.inFlight := by
  have hc : ∀ i : Fin (s.log.length - s.ring.published), ∃ t e, (s.pc t).enq? = some (e, s.ring.published + i.1) := by
    intro i
    exact h.cover _ (by omega) (by omega)
  have hinj : Function.Injective (fun i => (hc i).choose) := by
    intro i j hij
    obtain ⟨e, he⟩ := (hc i).choose_spec
    obtain ⟨e', he'⟩ := (hc j).choose_spec
    simp only at hij
    rw [hij, he'] at he
    have := (Prod.mk.inj (Option.some.inj he)).2
    exact Fin.ext (by omega)
  have hmem : ∀ i ∈ (Finset.univ : Finset (Fin (s.log.length - s.ring.published))),
      (hc i).choose ∈ (Finset.univ.filter fun t => (s.pc t).enq?.isSome = true) := by
    intro i _
    obtain ⟨e, he⟩ := (hc i).choose_spec
    simp [he]
  have := Finset.card_le_card_of_injOn (fun i => (hc i).choose) hmem hinj.injOn
  simp at this
  unfold RState.inFlight
  omega

theorem inFlight_le_threads (s : RState α T) : s.inFlight ≤ T := by
  have := Finset.card_le_univ (Finset.univ.filter fun t => (s.pc t).enq?.isSome = true)
  simpa [RState.inFlight] using this

theorem setPc_pc (s : RState α T) (t t' : Fin T) (x : RPc α) :
    (s.setPc t x).pc t' = if t' = t then x else s.pc t' := rfl

/-- a change of a thread between program counters that hold no reservation, leaving ring and log alone -/
theorem pinv_pc {N : Nat} {s s' : RState α T} (h : PInv N s) (t : Fin T) (x : RPc α)
    (hr : s'.ring = s.ring) (hl : s'.log = s.log) (hpc : s'.pc = (s.setPc t x).pc)
    (h1 : (s.pc t).enq? = none) (h2 : x.enq? = none) : PInv N s' := by
  have hq : ∀ t', (s'.pc t').enq? = (s.pc t').enq? := by
    intro t'
    rw [hpc, setPc_pc]
    split
    · rename_i he; subst he; rw [h1, h2]
    · rfl
  have hw : ∀ t' e q, s'.pc t' = .enqWritten e q → s.pc t' = .enqWritten e q := by
    intro t' e q hh
    rw [hpc, setPc_pc] at hh
    split at hh
    · rw [hh] at h2; simp [RPc.enq?] at h2
    · exact hh
  refine ⟨by rw [hr, hl]; exact h.res, by rw [hr, hl]; exact h.pub, ?_, ?_, ?_, ?_⟩
  · intro t' e r; rw [hq, hr, hl]; exact h.hold t' e r
  · intro t' t'' e e' r; rw [hq, hq]; exact h.uniq t' t'' e e' r
  · intro r; rw [hr, hl]
    intro a b
    obtain ⟨t', e, he⟩ := h.cover r a b
    exact ⟨t', e, by rw [hq]; exact he⟩
  · intro q; rw [hr, hl]
    intro a b c
    apply h.slots q a b
    rcases c with c | ⟨t', e, c⟩
    · exact Or.inl c
    · exact Or.inr ⟨t', e, hw _ _ _ c⟩

theorem pinv_reserve {N : Nat} {s : RState α T} (h : PInv N s) (t : Fin T) (e : α) (hidle : s.pc t = .idle)
    (hs : s.log.length + 1 < 2 ^ 32) :
    PInv N ({ s with ring := { s.ring with reserved := (s.ring.reserved + 1) % 2 ^ 32 }, log := s.log ++ [e] }.setPc t
        (.enqReserved e s.ring.reserved)) := by
  have hnone : (s.pc t).enq? = none := by rw [hidle]; rfl
  refine ⟨?_, ?_, ?_, ?_, ?_, ?_⟩
  · simp [RState.setPc, h.res]; omega
  · have := h.pub; simp [RState.setPc]; omega
  · intro t' e' r
    simp only [RState.setPc]
    split
    · intro hh
      simp only [RPc.enq?, Option.some.injEq, Prod.mk.injEq] at hh
      obtain ⟨rfl, rfl⟩ := hh
      rw [h.res]
      exact ⟨h.pub, by simp⟩
    · intro hh
      obtain ⟨a, b⟩ := h.hold t' e' r hh
      refine ⟨a, ?_⟩
      rw [List.getElem?_append_left (List.getElem?_eq_some_iff.1 b).1]; exact b
  · intro t1 t2 e1 e2 r
    simp only [RState.setPc]
    have key : ∀ t' e', (s.pc t').enq? = some (e', s.log.length) → False := by
      intro t' e' hh
      have := (List.getElem?_eq_some_iff.1 (h.hold t' e' _ hh).2).1
      omega
    split <;> split
    · intros; simp_all
    · intro h1 h2
      simp only [RPc.enq?, Option.some.injEq, Prod.mk.injEq] at h1
      obtain ⟨rfl, rfl⟩ := h1
      rw [h.res] at h2
      exact (key _ _ h2).elim
    · intro h1 h2
      simp only [RPc.enq?, Option.some.injEq, Prod.mk.injEq] at h2
      obtain ⟨rfl, rfl⟩ := h2
      rw [h.res] at h1
      exact (key _ _ h1).elim
    · exact h.uniq t1 t2 e1 e2 r
  · intro r h1 h2
    simp only [RState.setPc, List.length_append, List.length_singleton] at h1 h2
    by_cases hr : r = s.log.length
    · exact ⟨t, e, by simp [RState.setPc, RPc.enq?, h.res, hr]⟩
    · obtain ⟨t', e', he⟩ := h.cover r h1 (by omega)
      refine ⟨t', e', ?_⟩
      simp only [RState.setPc]
      split
      · rename_i hh; subst hh; rw [hnone] at he; cases he
      · exact he
  · intro q h1 h2 h3
    simp only [RState.setPc, List.length_append, List.length_singleton] at h1 h2 h3 ⊢
    have hlt : q < s.log.length := by
      rcases h3 with h3 | ⟨t', e', h3⟩
      · have := h.pub; omega
      · split at h3
        · cases h3
        · exact (List.getElem?_eq_some_iff.1 (h.hold t' e' q (by rw [h3]; rfl)).2).1
    rw [List.getElem?_append_left hlt]
    apply h.slots q hlt (by omega)
    rcases h3 with h3 | ⟨t', e', h3⟩
    · exact Or.inl h3
    · split at h3
      · cases h3
      · exact Or.inr ⟨t', e', h3⟩

theorem pinv_write {N : Nat} {s : RState α T} (hT : s.inFlight ≤ N) (h : PInv N s) (t : Fin T) (e : α) (r : Nat)
    (hpc : s.pc t = .enqReserved e r) :
    PInv N ({ s with ring := s.ring.write (r % N) e }.setPc t (.enqWritten e r)) := by
  have hfl := inflight_le h
  have hr := h.hold t e r (by rw [hpc]; rfl)
  have hrl := (List.getElem?_eq_some_iff.1 hr.2).1
  have hq : ∀ t', (({ s with ring := s.ring.write (r % N) e }.setPc t (.enqWritten e r)).pc t').enq? = (s.pc t').enq? := by
    intro t'
    rw [setPc_pc]
    split
    · rename_i he; subst he; rw [hpc]; rfl
    · rfl
  refine ⟨h.res, h.pub, ?_, ?_, ?_, ?_⟩
  · intro t' e' r'; rw [hq]; exact h.hold t' e' r'
  · intro t' t'' e' e'' r'; rw [hq, hq]; exact h.uniq t' t'' e' e'' r'
  · intro r' a b
    obtain ⟨t', e', he⟩ := h.cover r' a b
    exact ⟨t', e', by rw [hq]; exact he⟩
  · intro q h1 h2 h3
    simp only [RState.setPc, Ring.write] at h1 h2 h3 ⊢
    by_cases hqr : q = r
    · subst hqr; simp [hr.2]
    · have hne : ¬ q % N = r % N := by
        intro hm
        rcases Nat.lt_or_ge q r with hlt | hge
        · exact hqr (mod_inj_window hm (by omega) (by omega))
        · exact hqr (mod_inj_window hm.symm (by omega) (by omega)).symm
      simp only [hne, if_false]
      apply h.slots q h1 h2
      rcases h3 with h3 | ⟨t', e', h3⟩
      · exact Or.inl h3
      · split at h3
        · simp only [RPc.enqWritten.injEq] at h3; exact (hqr h3.2.symm).elim
        · exact Or.inr ⟨t', e', h3⟩

theorem pinv_publish {N : Nat} {s s' : RState α T} (h : PInv N s) (t : Fin T) (e : α)
    (hpc : s.pc t = .enqWritten e s.ring.published)
    (hr : s'.ring = { s.ring with published := s.ring.published + 1 }) (hl : s'.log = s.log)
    (hp : s'.pc = (s.setPc t .idle).pc) : PInv N s' := by
  have hh := h.hold t e _ (by rw [hpc]; rfl)
  have hlt := (List.getElem?_eq_some_iff.1 hh.2).1
  have hpc' : ∀ t', s'.pc t' = if t' = t then .idle else s.pc t' := by intro t'; rw [hp]; rfl
  refine ⟨?_, ?_, ?_, ?_, ?_, ?_⟩
  · rw [hr, hl]; exact h.res
  · rw [hr, hl]; exact hlt
  · intro t' e' r; rw [hpc', hr, hl]
    split
    · intro hc; cases hc
    · rename_i hne
      intro hc
      have hb := h.hold t' e' r hc
      refine ⟨?_, hb.2⟩
      have : r ≠ s.ring.published := by
        rintro rfl
        exact hne (h.uniq t' t e' e _ hc (by rw [hpc]; rfl))
      have := hb.1
      show s.ring.published + 1 ≤ r
      omega
  · intro t' t'' e' e'' r; rw [hpc', hpc']
    split <;> split
    · intro hc; cases hc
    · intro hc; cases hc
    · intro _ hc; cases hc
    · exact h.uniq t' t'' e' e'' r
  · intro r; rw [hr, hl]
    intro a b
    have a' : s.ring.published + 1 ≤ r := a
    obtain ⟨t', e', he⟩ := h.cover r (by omega) b
    refine ⟨t', e', ?_⟩
    rw [hpc']
    split
    · rename_i hx; subst hx
      rw [hpc] at he
      simp only [RPc.enq?, Option.some.injEq, Prod.mk.injEq] at he
      omega
    · exact he
  · intro q; rw [hr, hl]
    intro a b c
    apply h.slots q a b
    rcases c with c | ⟨t', e', c⟩
    · have c' : q < s.ring.published + 1 := c
      by_cases hq : q = s.ring.published
      · subst hq; exact Or.inr ⟨t, e, hpc⟩
      · exact Or.inl (by omega)
    · rw [hpc'] at c
      split at c
      · cases c
      · exact Or.inr ⟨t', e', c⟩

theorem claimsOf_append (c : Nat) (a b : List (REv α)) : claimsOf c (a ++ b) = claimsOf c a ++ claimsOf c b := by
  induction a with
  | nil => rfl
  | cons x a ih => cases x <;> simp [claimsOf, ih]; split <;> simp

theorem resultsOf_append (c : Nat) (a b : List (REv α)) : resultsOf c (a ++ b) = resultsOf c a ++ resultsOf c b := by
  induction a with
  | nil => rfl
  | cons x a ih => cases x <;> simp [resultsOf, ih] <;> split <;> simp

theorem doneOf_append (a b : List (REv α)) : doneOf (a ++ b) = doneOf a ++ doneOf b := by
  induction a with
  | nil => rfl
  | cons x a ih => cases x <;> simp [doneOf, ih]

/-- thread is outside `dequeue`/`peek_all` and has not panicked -/
def RPc.outside : RPc α → Prop
  | .idle => True
  | .enqReserved _ _ => True
  | .enqWritten _ _ => True
  | _ => False

/-- what a thread inside `dequeue`/`peek_all` knows; `b`: loads are of newest values -/
def RPc.ok (b : Prop) (s : RState α T) : RPc α → Prop
  | .deqHead c h => ∃ hh, s.heads[c]? = some hh ∧ h ≤ hh
  | .deqReload _ => ¬ b
  | .deqTail c h tl => h < tl ∧ tl ≤ s.ring.published ∧ ∃ hh, s.heads[c]? = some hh ∧ h ≤ hh
  | .deqClaimed c h tl => h < tl ∧ tl ≤ s.ring.published ∧ (∃ hh, s.heads[c]? = some hh ∧ h < hh) ∧
      (∀ st, s.starts[c]? = some st → st ≤ h) ∧ h ∉ resultsOf c s.events
  | .peekHead c h => ∃ hh, s.heads[c]? = some hh ∧ h ≤ hh
  | .panicked _ => ¬ b
  | _ => True

/-- consumer side invariant -/
structure KInv (b : Prop) (s : RState α T) : Prop where
  pcs : ∀ t, (s.pc t).ok b s
  len : s.starts.length = s.heads.length
  headLe : ∀ (c h : Nat), s.heads[c]? = some h → h ≤ s.ring.published
  startLe : ∀ (c st h : Nat), s.starts[c]? = some st → s.heads[c]? = some h → st ≤ h
  claimUniq : ∀ t t' c h tl tl', s.pc t = .deqClaimed c h tl → s.pc t' = .deqClaimed c h tl' → t = t'
  claims : ∀ (c st h : Nat), s.starts[c]? = some st → s.heads[c]? = some h → claimsOf c s.events = List.range' st (h - st)
  results : ∀ (c x : Nat), x ∈ resultsOf c s.events → ∃ st h, s.starts[c]? = some st ∧ s.heads[c]? = some h ∧ st ≤ x ∧ x < h
  resNodup : ∀ c, (resultsOf c s.events).Nodup
  resCover : b → ∀ (c st h x : Nat), s.starts[c]? = some st → s.heads[c]? = some h → st ≤ x → x < h →
    x ∈ resultsOf c s.events ∨ ∃ t tl, s.pc t = .deqClaimed c x tl
  vals : b → ∀ c h v, REv.deqSome c h v ∈ s.events → ∃ e, v = some e ∧ s.log[h]? = some e
  done : ∀ e r, REv.enqDone e r ∈ s.events → r < s.ring.published ∧ s.log[r]? = some e
  doneAll : doneOf s.events = List.range s.ring.published
  noClaims : ∀ c : Nat, s.heads[c]? = none → claimsOf c s.events = []

theorem kinv_init {b : Prop} : KInv b (RState.init α T) := by
  constructor <;> simp [RState.init, RPc.ok, resultsOf, claimsOf, doneOf, Ring.new]


/-- frame: nothing of the consumer side changes except the program counter of `t`, which leaves no claim behind -/
theorem kinv_frame {b : Prop} {s s' : RState α T} (h : KInv b s) (t : Fin T) (x : RPc α)
    (hh : s'.heads = s.heads) (hst : s'.starts = s.starts) (hev : s'.events = s.events)
    (hpub : s'.ring.published = s.ring.published) (hlog : s.log <+: s'.log)
    (hpc : s'.pc = (s.setPc t x).pc) (hx : x.ok b s') (hx' : ∀ c a b, x ≠ .deqClaimed c a b)
    (ht : b → ∀ c a d, s.pc t ≠ .deqClaimed c a d) : KInv b s' := by
  have hpc' : ∀ t', s'.pc t' = if t' = t then x else s.pc t' := by intro t'; rw [hpc]; rfl
  have hlog' : ∀ (i : Nat) (e : α), s.log[i]? = some e → s'.log[i]? = some e := by
    intro i e he
    obtain ⟨l, hl⟩ := hlog
    rw [← hl, List.getElem?_append_left (List.getElem?_eq_some_iff.1 he).1]; exact he
  obtain ⟨k1, k2, k3, k4, k5, k6, k7, k8, k9, k10, k11, k12, k13⟩ := h
  refine ⟨?_, ?_, ?_, ?_, ?_, ?_, ?_, ?_, ?_, ?_, ?_, ?_, ?_⟩
  · intro t'
    rw [hpc']
    split
    · exact hx
    · have := k1 t'
      revert this
      cases s.pc t' <;> simp [RPc.ok, hh, hst, hev, hpub]
  · rw [hh, hst]; exact k2
  · rw [hh, hpub]; exact k3
  · rw [hh, hst]; exact k4
  · intro t1 t2 c a b b'
    rw [hpc', hpc']
    split
    · intro hc; exact (hx' _ _ _ hc).elim
    · split
      · intro _ hc; exact (hx' _ _ _ hc).elim
      · exact k5 t1 t2 c a b b'
  · rw [hh, hst, hev]; exact k6
  · rw [hh, hst, hev]; exact k7
  · rw [hev]; exact k8
  · rw [hh, hst, hev]
    intro hb c st a y h1 h2 h3 h4
    rcases k9 hb c st a y h1 h2 h3 h4 with h5 | ⟨t', tl, h5⟩
    · exact Or.inl h5
    · refine Or.inr ⟨t', tl, ?_⟩
      rw [hpc', if_neg]
      · exact h5
      · rintro rfl; exact ht hb _ _ _ h5
  · rw [hev]
    intro hb c a v hm
    obtain ⟨e, h1, h2⟩ := k10 hb c a v hm
    exact ⟨e, h1, hlog' _ _ h2⟩
  · rw [hev, hpub]
    intro e r hm
    exact ⟨(k11 e r hm).1, hlog' _ _ (k11 e r hm).2⟩
  · rw [hev, hpub]; exact k12
  · rw [hh, hev]; exact k13

/-- an event that is neither a claim, a dequeue result, nor a completed enqueue can be recorded freely -/
theorem kinv_emit {b : Prop} {s : RState α T} (h : KInv b s) (e : REv α) (h1 : ∀ c, claimsOf c [e] = []) (h2 : ∀ c, resultsOf c [e] = [])
    (h3 : doneOf [e] = []) (h4 : ∀ c a v, e ≠ .deqSome c a v) (h5 : ∀ a r, e ≠ .enqDone a r) : KInv b (s.emit e) := by
  have a1 : ∀ c, claimsOf c (s.events ++ [e]) = claimsOf c s.events := by intro c; rw [claimsOf_append, h1]; simp
  have a2 : ∀ c, resultsOf c (s.events ++ [e]) = resultsOf c s.events := by intro c; rw [resultsOf_append, h2]; simp
  have a3 : doneOf (s.events ++ [e]) = doneOf s.events := by rw [doneOf_append, h3]; simp
  obtain ⟨k1, k2, k3, k4, k5, k6, k7, k8, k9, k10, k11, k12, k13⟩ := h
  refine ⟨?_, k2, k3, k4, k5, ?_, ?_, ?_, ?_, ?_, ?_, ?_, ?_⟩
  · intro t
    have := k1 t
    revert this
    simp only [RState.emit]
    cases s.pc t <;> simp [RPc.ok, a2]
  · simp only [RState.emit, a1]; exact k6
  · simp only [RState.emit, a2]; exact k7
  · simp only [RState.emit, a2]; exact k8
  · simp only [RState.emit, a2]; exact k9
  · intro hb c a v hm
    simp only [RState.emit, List.mem_append, List.mem_singleton] at hm
    rcases hm with hm | hm
    · exact k10 hb c a v hm
    · exact (h4 c a v hm.symm).elim
  · intro x r hm
    simp only [RState.emit, List.mem_append, List.mem_singleton] at hm
    rcases hm with hm | hm
    · exact k11 x r hm
    · exact (h5 x r hm.symm).elim
  · simp only [RState.emit, a3]; exact k12
  · simp only [RState.emit, a1]; exact k13

/-- publication of the next element -/
theorem kinv_publish {b : Prop} {s : RState α T} (h : KInv b s) (t : Fin T) (e : α) (hpc : s.pc t = .enqWritten e s.ring.published)
    (hlog : s.log[s.ring.published]? = some e) :
    KInv b (({ s with ring := { s.ring with published := s.ring.published + 1 } }.setPc t .idle).emit
      (.enqDone e s.ring.published)) := by
  have a1 : ∀ c, claimsOf c (s.events ++ [REv.enqDone e s.ring.published]) = claimsOf c s.events := by
    intro c; rw [claimsOf_append]; simp [claimsOf]
  have a2 : ∀ c, resultsOf c (s.events ++ [REv.enqDone e s.ring.published]) = resultsOf c s.events := by
    intro c; rw [resultsOf_append]; simp [resultsOf]
  obtain ⟨k1, k2, k3, k4, k5, k6, k7, k8, k9, k10, k11, k12, k13⟩ := h
  refine ⟨?_, k2, ?_, k4, ?_, ?_, ?_, ?_, ?_, ?_, ?_, ?_, ?_⟩
  · intro t'
    have := k1 t'
    revert this
    simp only [RState.emit, RState.setPc]
    split
    · simp [RPc.ok]
    · cases s.pc t' <;> simp [RPc.ok, a2] <;> intros <;> refine ⟨by assumption, by omega, ?_⟩ <;> simp_all
  · intro c a ha
    have := k3 c a ha
    simp only [RState.emit, RState.setPc]; omega
  · intro t1 t2 c a b b'
    simp only [RState.emit, RState.setPc]
    split
    · intro hc; cases hc
    · split
      · intro _ hc; cases hc
      · exact k5 t1 t2 c a b b'
  · simp only [RState.emit, RState.setPc, a1]; exact k6
  · simp only [RState.emit, RState.setPc, a2]; exact k7
  · simp only [RState.emit, RState.setPc, a2]; exact k8
  · simp only [RState.emit, RState.setPc, a2]
    intro hb c st a y h1 h2 h3 h4
    rcases k9 hb c st a y h1 h2 h3 h4 with h5 | ⟨t', tl, h5⟩
    · exact Or.inl h5
    · refine Or.inr ⟨t', tl, ?_⟩
      rw [if_neg]
      · exact h5
      · rintro rfl; rw [hpc] at h5; cases h5
  · intro hb c a v hm
    simp only [RState.emit, RState.setPc, List.mem_append, List.mem_singleton, reduceCtorEq, or_false] at hm
    exact k10 hb c a v hm
  · intro x r hm
    simp only [RState.emit, RState.setPc, List.mem_append, List.mem_singleton, REv.enqDone.injEq] at hm ⊢
    rcases hm with hm | ⟨rfl, rfl⟩
    · exact ⟨Nat.lt_succ_of_lt (k11 x r hm).1, (k11 x r hm).2⟩
    · exact ⟨Nat.lt_succ_self _, hlog⟩
  · simp only [RState.emit, RState.setPc, doneOf_append, k12, List.range_succ, doneOf]
  · simp only [RState.emit, RState.setPc, a1]; exact k13

/-- a successful claim -/
theorem kinv_claim {b : Prop} {s : RState α T} (h : KInv b s) (t : Fin T) (c hd tl : Nat) (hpc : s.pc t = .deqTail c hd tl)
    (hhd : s.heads[c]? = some hd) :
    KInv b (({ s with heads := s.heads.set c (hd + 1) }.setPc t (.deqClaimed c hd tl)).emit (.claim c hd)) := by
  have a2 : ∀ c', resultsOf c' (s.events ++ [REv.claim c hd]) = resultsOf c' s.events := by
    intro c'; rw [resultsOf_append]; simp [resultsOf]
  have a3 : doneOf (s.events ++ [REv.claim c hd]) = doneOf s.events := by
    rw [doneOf_append]; simp [doneOf]
  have hcl : c < s.heads.length := (List.getElem?_eq_some_iff.1 hhd).1
  have hset : ∀ c' : Nat, (s.heads.set c (hd + 1))[c']? = if c' = c then some (hd + 1) else s.heads[c']? := by
    intro c'
    by_cases hc : c' = c
    · subst hc; simp [hcl]
    · rw [if_neg hc, List.getElem?_set_ne (fun h => hc h.symm)]
  obtain ⟨k1, k2, k3, k4, k5, k6, k7, k8, k9, k10, k11, k12, k13⟩ := h
  have htl := k1 t
  rw [hpc] at htl
  simp only [RPc.ok] at htl
  have hnoclaim : ∀ t' b, s.pc t' ≠ .deqClaimed c hd b := by
    intro t' b hx
    have := k1 t'
    rw [hx] at this
    simp only [RPc.ok] at this
    obtain ⟨_, _, ⟨x, hx1, hx2⟩, _⟩ := this
    rw [hhd] at hx1
    have := Option.some.inj hx1
    omega
  refine ⟨?_, ?_, ?_, ?_, ?_, ?_, ?_, ?_, ?_, ?_, ?_, ?_, ?_⟩
  · intro t'
    simp only [RState.emit, RState.setPc]
    split
    · simp only [RPc.ok, a2]
      refine ⟨htl.1, htl.2.1, ⟨hd + 1, by rw [hset, if_pos rfl], Nat.lt_succ_self _⟩, fun st hst => k4 c st hd hst hhd, ?_⟩
      intro hm
      obtain ⟨st, a, _, b, _, d⟩ := k7 c hd hm
      rw [hhd] at b
      have := Option.some.inj b
      omega
    · have := k1 t'
      revert this
      have mono : ∀ (c' a : Nat), (∃ hh, s.heads[c']? = some hh ∧ a ≤ hh) →
          ∃ hh, (s.heads.set c (hd + 1))[c']? = some hh ∧ a ≤ hh := by
        rintro c' a ⟨b, b1, b2⟩
        rw [hset]
        by_cases hc : c' = c
        · subst hc; rw [hhd] at b1; exact ⟨hd + 1, by simp, by have := Option.some.inj b1; omega⟩
        · exact ⟨b, by rw [if_neg hc]; exact b1, b2⟩
      cases s.pc t' with
      | deqHead c' a => exact mono c' a
      | deqTail c' a b => rintro ⟨x, y, z⟩; exact ⟨x, y, mono c' a z⟩
      | deqClaimed c' a b =>
        rintro ⟨x, y, z, w, u⟩
        refine ⟨x, y, ?_, w, ?_⟩
        · exact mono c' (a + 1) z
        · simpa only [a2] using u
      | peekHead c' a => exact mono c' a
      | _ => exact fun h => h
  · simp [RState.emit, RState.setPc, k2]
  · intro c' a
    simp only [RState.emit, RState.setPc, hset]
    split
    · intro hx; have := Option.some.inj hx; omega
    · exact k3 c' a
  · intro c' st a
    simp only [RState.emit, RState.setPc, hset]
    split
    · rename_i hc; subst hc
      intro h1 h2
      have := Option.some.inj h2
      have := k4 _ st hd h1 hhd
      omega
    · exact k4 c' st a
  · intro t1 t2 c' a b b'
    simp only [RState.emit, RState.setPc]
    split <;> split
    · intros; simp_all
    · intro h1 h2
      simp only [RPc.deqClaimed.injEq] at h1
      obtain ⟨rfl, rfl, rfl⟩ := h1
      exact (hnoclaim _ _ h2).elim
    · intro h1 h2
      simp only [RPc.deqClaimed.injEq] at h2
      obtain ⟨rfl, rfl, rfl⟩ := h2
      exact (hnoclaim _ _ h1).elim
    · exact k5 t1 t2 c' a b b'
  · intro c' st a
    simp only [RState.emit, RState.setPc, hset, claimsOf_append, claimsOf]
    split
    · rename_i hc; subst hc
      intro h1 h2
      have hle := k4 _ st hd h1 hhd
      rw [k6 _ st hd h1 hhd]
      have := Option.some.inj h2
      subst this
      rw [show hd + 1 - st = (hd - st) + 1 by omega, List.range'_1_concat]
      simp; omega
    · rename_i hc
      intro h1 h2
      rw [k6 c' st a h1 h2, if_neg (fun h => hc h.symm)]; simp
  · intro c' x
    simp only [RState.emit, RState.setPc, hset, a2]
    intro hm
    obtain ⟨st, a, h1, h2, h3, h4⟩ := k7 c' x hm
    by_cases hc : c' = c
    · subst hc
      rw [hhd] at h2
      have := Option.some.inj h2
      exact ⟨st, hd + 1, h1, by simp, h3, by omega⟩
    · exact ⟨st, a, h1, by rw [if_neg hc]; exact h2, h3, h4⟩
  · simp only [RState.emit, RState.setPc, a2]; exact k8
  · intro hb c' st a x
    simp only [RState.emit, RState.setPc, hset, a2]
    intro h1 h2 h3 h4
    have old : ∀ a', s.heads[c']? = some a' → x < a' → x ∈ resultsOf c' s.events ∨
        ∃ t' tl', (if t' = t then RPc.deqClaimed c hd tl else s.pc t') = .deqClaimed c' x tl' := by
      intro a' g1 g2
      rcases k9 hb c' st a' x h1 g1 h3 g2 with h5 | ⟨t', tl', h5⟩
      · exact Or.inl h5
      · refine Or.inr ⟨t', tl', ?_⟩
        rw [if_neg]
        · exact h5
        · rintro rfl; rw [hpc] at h5; cases h5
    by_cases hc : c' = c
    · subst hc
      rw [if_pos rfl] at h2
      have := Option.some.inj h2
      by_cases hx : x = hd
      · subst hx; exact Or.inr ⟨t, tl, by simp⟩
      · exact old hd hhd (by omega)
    · rw [if_neg hc] at h2
      exact old a h2 h4
  · intro hb c' a v hm
    simp only [RState.emit, RState.setPc, List.mem_append, List.mem_singleton, reduceCtorEq, or_false] at hm
    exact k10 hb c' a v hm
  · intro x r hm
    simp only [RState.emit, RState.setPc, List.mem_append, List.mem_singleton, reduceCtorEq, or_false] at hm
    exact k11 x r hm
  · simp only [RState.emit, RState.setPc, a3]; exact k12
  · intro c'
    simp only [RState.emit, RState.setPc, hset, claimsOf_append, claimsOf]
    split
    · intro h; cases h
    · rename_i hc
      intro h1
      rw [k13 c' h1, if_neg (fun h => hc h.symm)]; rfl

/-- a `dequeue` call reports its claimed position -/
theorem kinv_result {b : Prop} {s : RState α T} (h : KInv b s) (t : Fin T) (c hd tl : Nat) (e : REv α)
    (hpc : s.pc t = .deqClaimed c hd tl) (h1 : ∀ c, claimsOf c [e] = []) (h2 : ∀ c', resultsOf c' [e] = if c' = c then [hd] else [])
    (h3 : doneOf [e] = []) (h4 : b → ∀ c a v, e = .deqSome c a v → ∃ x, v = some x ∧ s.log[a]? = some x)
    (h5 : ∀ a r, e ≠ .enqDone a r) : KInv b ((s.setPc t .idle).emit e) := by
  have a1 : ∀ c, claimsOf c (s.events ++ [e]) = claimsOf c s.events := by intro c; rw [claimsOf_append, h1]; simp
  have a2 : ∀ c', resultsOf c' (s.events ++ [e]) = resultsOf c' s.events ++ if c' = c then [hd] else [] := by
    intro c; rw [resultsOf_append, h2]
  have a3 : doneOf (s.events ++ [e]) = doneOf s.events := by rw [doneOf_append, h3]; simp
  obtain ⟨k1, k2, k3, k4, k5, k6, k7, k8, k9, k10, k11, k12, k13⟩ := h
  have hme := k1 t
  rw [hpc] at hme
  obtain ⟨m1, m2, ⟨hh, m3, m4⟩, m5, m6⟩ := hme
  have hcl : c < s.starts.length := by rw [k2]; exact (List.getElem?_eq_some_iff.1 m3).1
  refine ⟨?_, k2, k3, k4, ?_, ?_, ?_, ?_, ?_, ?_, ?_, ?_, ?_⟩
  · intro t'
    simp only [RState.emit, RState.setPc]
    split
    · trivial
    · rename_i hne
      have := k1 t'
      revert this
      cases hq : s.pc t' with
      | deqClaimed c' a b =>
        rintro ⟨x, y, z, w, u⟩
        refine ⟨x, y, z, w, ?_⟩
        rw [a2, List.mem_append, not_or]
        refine ⟨u, ?_⟩
        split
        · rename_i hc; subst hc
          simp only [List.mem_singleton]
          rintro rfl
          exact hne (k5 t' t _ _ _ _ hq hpc)
        · simp
      | _ => exact fun h => h
  · intro t1 t2 c' a b b'
    simp only [RState.emit, RState.setPc]
    split
    · intro hc; cases hc
    · split
      · intro _ hc; cases hc
      · exact k5 t1 t2 c' a b b'
  · simp only [RState.emit, RState.setPc, a1]; exact k6
  · intro c' x
    simp only [RState.emit, RState.setPc, a2, List.mem_append]
    rintro (hm | hm)
    · exact k7 c' x hm
    · split at hm
      · rename_i hc; subst hc
        simp only [List.mem_singleton] at hm
        subst hm
        exact ⟨_, hh, List.getElem?_eq_getElem hcl, m3, m5 _ (List.getElem?_eq_getElem hcl), m4⟩
      · cases hm
  · intro c'
    simp only [RState.emit, RState.setPc, a2]
    split
    · rename_i hc; subst hc
      rw [List.nodup_append]
      exact ⟨k8 _, by simp, by intro a ha b hb; simp only [List.mem_singleton] at hb; subst hb; rintro rfl; exact m6 ha⟩
    · rw [List.append_nil]; exact k8 c'
  · intro hb c' st a x
    simp only [RState.emit, RState.setPc, a2, List.mem_append]
    intro g1 g2 g3 g4
    rcases k9 hb c' st a x g1 g2 g3 g4 with h5 | ⟨t', tl', h5⟩
    · exact Or.inl (Or.inl h5)
    · by_cases ht : t' = t
      · subst ht
        rw [hpc] at h5
        simp only [RPc.deqClaimed.injEq] at h5
        obtain ⟨rfl, rfl, rfl⟩ := h5
        exact Or.inl (Or.inr (by simp))
      · exact Or.inr ⟨t', tl', by rw [if_neg ht]; exact h5⟩
  · intro hb c' a v hm
    simp only [RState.emit, RState.setPc, List.mem_append, List.mem_singleton] at hm
    rcases hm with hm | hm
    · exact k10 hb c' a v hm
    · exact h4 hb _ _ _ hm.symm
  · intro x r hm
    simp only [RState.emit, RState.setPc, List.mem_append, List.mem_singleton] at hm
    rcases hm with hm | hm
    · exact k11 x r hm
    · exact (h5 _ _ hm.symm).elim
  · simp only [RState.emit, RState.setPc, a3]; exact k12
  · simp only [RState.emit, RState.setPc, a1]; exact k13

/-- a new consumer -/
theorem kinv_consumer {b : Prop} {s : RState α T} (h : KInv b s) {v : Nat} (hv : v ≤ s.ring.published) :
    KInv b { s with heads := s.heads ++ [v], starts := s.starts ++ [v] } := by
  obtain ⟨k1, k2, k3, k4, k5, k6, k7, k8, k9, k10, k11, k12, k13⟩ := h
  have keepH : ∀ (c h : Nat), s.heads[c]? = some h → (s.heads ++ [v])[c]? = some h := by
    intro c h hc
    rw [List.getElem?_append_left (List.getElem?_eq_some_iff.1 hc).1]; exact hc
  have keepS : ∀ (c h : Nat), s.starts[c]? = some h → (s.starts ++ [v])[c]? = some h := by
    intro c h hc
    rw [List.getElem?_append_left (List.getElem?_eq_some_iff.1 hc).1]; exact hc
  have newH : ∀ (c h : Nat), (s.heads ++ [v])[c]? = some h →
      s.heads[c]? = some h ∨ (c = s.heads.length ∧ h = v) := by
    intro c h hc
    rcases Nat.lt_trichotomy c s.heads.length with g | g | g
    · rw [List.getElem?_append_left g] at hc; exact Or.inl hc
    · subst g; simp at hc; exact Or.inr ⟨rfl, hc.symm⟩
    · rw [List.getElem?_eq_none (by simp; omega)] at hc; cases hc
  have newS : ∀ (c h : Nat), (s.starts ++ [v])[c]? = some h →
      s.starts[c]? = some h ∨ (c = s.heads.length ∧ h = v) := by
    intro c h hc
    rcases Nat.lt_trichotomy c s.starts.length with g | g | g
    · rw [List.getElem?_append_left g] at hc; exact Or.inl hc
    · subst g; simp at hc; exact Or.inr ⟨k2, hc.symm⟩
    · rw [List.getElem?_eq_none (by simp; omega)] at hc; cases hc
  have outH : s.heads[s.heads.length]? = none := by simp
  have outS : s.starts[s.heads.length]? = none := by rw [← k2]; simp
  refine ⟨?_, by simp [k2], ?_, ?_, k5, ?_, ?_, k8, ?_, k10, k11, k12, ?_⟩
  · intro t'
    have := k1 t'
    revert this
    show (s.pc t').ok b s → (s.pc t').ok b _
    cases s.pc t' with
    | deqHead c' a => rintro ⟨b, b1, b2⟩; exact ⟨b, keepH _ _ b1, b2⟩
    | deqTail c' a b => rintro ⟨x, y, b, b1, b2⟩; exact ⟨x, y, b, keepH _ _ b1, b2⟩
    | deqClaimed c' a b =>
      rintro ⟨x, y, ⟨b, b1, b2⟩, w, u⟩
      refine ⟨x, y, ⟨b, keepH _ _ b1, b2⟩, ?_, u⟩
      intro st hst
      rcases newS _ _ hst with g | ⟨g, _⟩
      · exact w st g
      · rw [g, outH] at b1; cases b1
    | peekHead c' a => rintro ⟨b, b1, b2⟩; exact ⟨b, keepH _ _ b1, b2⟩
    | _ => exact fun h => h
  · intro c h hc
    rcases newH _ _ hc with g | ⟨_, g⟩
    · exact k3 c h g
    · rw [g]; exact hv
  · intro c st h h1 h2
    rcases newH _ _ h2 with g | ⟨g1, g2⟩
    · rcases newS _ _ h1 with g' | ⟨g1, _⟩
      · exact k4 c st h g' g
      · rw [g1, outH] at g; cases g
    · rcases newS _ _ h1 with g' | ⟨_, g'⟩
      · rw [g1, outS] at g'; cases g'
      · omega
  · intro c st h h1 h2
    rcases newH _ _ h2 with g | ⟨g1, g2⟩
    · rcases newS _ _ h1 with g' | ⟨g1, _⟩
      · exact k6 c st h g' g
      · rw [g1, outH] at g; cases g
    · rcases newS _ _ h1 with g' | ⟨_, g'⟩
      · rw [g1, outS] at g'; cases g'
      · subst g1; subst g2; subst g'
        simp only [Nat.sub_self, List.range'_zero]
        exact k13 _ outH
  · intro c x hm
    obtain ⟨st, h, h1, h2, h3, h4⟩ := k7 c x hm
    exact ⟨st, h, keepS _ _ h1, keepH _ _ h2, h3, h4⟩
  · intro hb c st h x h1 h2 h3 h4
    rcases newH _ _ h2 with g | ⟨g1, g2⟩
    · rcases newS _ _ h1 with g' | ⟨g1, _⟩
      · exact k9 hb c st h x g' g h3 h4
      · rw [g1, outH] at g; cases g
    · rcases newS _ _ h1 with g' | ⟨_, g'⟩
      · rw [g1, outS] at g'; cases g'
      · omega
  · intro c hc
    apply k13
    rcases Nat.lt_or_ge c s.heads.length with g | g
    · rw [List.getElem?_append_left g] at hc; exact hc
    · simp [g]


theorem pinv_emit {N : Nat} {s : RState α T} (h : PInv N s) (e : REv α) : PInv N (s.emit e) :=
  ⟨h.res, h.pub, h.hold, h.uniq, h.cover, h.slots⟩

theorem peekEvent_ok {p : Profile} {N : Nat} (hN : 0 < N) {r : Ring α} {c h : Nat} (hh : h ≤ r.published) :
    ∃ e, peekEvent p N r c h = .ok e ∧ (∀ c, claimsOf c [e] = []) ∧ (∀ c, resultsOf c [e] = []) ∧ doneOf [e] = [] ∧
      (∀ c a v, e ≠ .deqSome c a v) ∧ (∀ a r, e ≠ .enqDone a r) := by
  have hN' : N ≠ 0 := by omega
  simp only [peekEvent, Ring.peekAll, hN', if_false, u32Sub, hh, if_true]
  by_cases h1 : h = r.published
  · simp [h1, claimsOf, resultsOf, doneOf]
  · simp only [h1, if_false]
    by_cases h2 : r.published - h > N % 2 ^ 32
    · simp [h2, claimsOf, resultsOf, doneOf]
    · simp only [h2, if_false]
      by_cases h3 : h % N < r.published % N <;> simp [h3, claimsOf, resultsOf, doneOf]

/-- both invariants are preserved by every action, while fewer than 2^32 elements were enqueued -/
theorem inv_act {p : Profile} {N : Nat} (hN : 0 < N) (hN32 : N < 2 ^ 32) {s : RState α T} (hT : s.inFlight ≤ N)
    (hp : PInv N s) (hk : KInv True s) (a : RAct α T) (hs : (s.act p N a).log.length < 2 ^ 32) :
    PInv N (s.act p N a) ∧ KInv True (s.act p N a) := by
  have hN' : N ≠ 0 := by omega
  cases a with
  | enqueue t e =>
    simp only [RState.act] at hs ⊢
    cases hpc : s.pc t with
    | idle =>
      rw [hpc] at hs
      simp only [RState.setPc, List.length_append, List.length_singleton] at hs
      refine ⟨pinv_reserve hp t e hpc hs, ?_⟩
      exact kinv_frame hk t _ rfl rfl rfl rfl (List.prefix_append _ _) rfl trivial (by simp) (by simp [hpc])
    | _ => exact ⟨hp, hk⟩
  | consumer t =>
    simp only [RState.act]
    cases hpc : s.pc t with
    | idle => exact ⟨⟨hp.res, hp.pub, hp.hold, hp.uniq, hp.cover, hp.slots⟩, kinv_consumer hk (Nat.le_refl _)⟩
    | _ => exact ⟨hp, hk⟩
  | dequeue t c =>
    simp only [RState.act]
    cases hpc : s.pc t with
    | idle =>
      cases hc : s.heads[c]? with
      | none => exact ⟨hp, hk⟩
      | some h =>
        exact ⟨pinv_pc hp t _ rfl rfl rfl (by rw [hpc]; rfl) rfl,
          kinv_frame hk t _ rfl rfl rfl rfl (List.prefix_refl _) rfl ⟨h, hc, Nat.le_refl _⟩ (by simp) (by simp [hpc])⟩
    | _ => exact ⟨hp, hk⟩
  | peekAll t c =>
    simp only [RState.act]
    cases hpc : s.pc t with
    | idle =>
      cases hc : s.heads[c]? with
      | none => exact ⟨hp, hk⟩
      | some h =>
        exact ⟨pinv_pc hp t _ rfl rfl rfl (by rw [hpc]; rfl) rfl,
          kinv_frame hk t _ rfl rfl rfl rfl (List.prefix_refl _) rfl ⟨h, hc, Nat.le_refl _⟩ (by simp) (by simp [hpc])⟩
    | _ => exact ⟨hp, hk⟩
  | next t sp =>
    have hlog : s.log.length < 2 ^ 32 := by
      have : (s.act p N (.next t sp)).log = s.log := by
        simp only [RState.act]
        cases s.pc t <;> simp only [RState.nextStep, RState.setPc, RState.emit] <;> repeat (first | rfl | split)
      rwa [this] at hs
    have hme := hk.pcs t
    simp only [RState.act]
    cases hpc : s.pc t with
    | idle => exact ⟨hp, hk⟩
    | panicked q => rw [hpc] at hme; exact (hme trivial).elim
    | enqReserved e r =>
      simp only [RState.nextStep, hN', if_false]
      exact ⟨pinv_write hT hp t e r hpc,
        kinv_frame hk t _ rfl rfl rfl rfl (List.prefix_refl _) rfl trivial (by simp) (by simp [hpc])⟩
    | enqWritten e r =>
      obtain ⟨h1, h2⟩ := hp.hold t e r (by rw [hpc]; rfl)
      have h3 := (List.getElem?_eq_some_iff.1 h2).1
      have h4 : r + 1 < 2 ^ 32 := by omega
      simp only [RState.nextStep, u32Add, h4, if_true]
      by_cases hc : s.ring.published = r ∧ sp = false
      · simp only [hc, and_self, if_true]
        obtain ⟨rfl, _⟩ := hc
        exact ⟨pinv_publish hp t e hpc rfl rfl rfl, kinv_publish hk t e hpc h2⟩
      · simp only [hc, if_false]
        have : ¬ s.ring.published > r := by omega
        simp only [this, if_false]
        exact ⟨hp, hk⟩
    | deqHead c h =>
      rw [hpc] at hme
      obtain ⟨hh, m1, m2⟩ := hme
      have m3 := hk.headLe c hh m1
      have h1 : ¬ h > s.ring.published := by omega
      simp only [RState.nextStep, h1, if_false]
      by_cases h2 : h = s.ring.published
      · simp only [h2, if_true]
        refine ⟨pinv_emit (pinv_pc (s' := s.setPc t .idle) hp t .idle rfl rfl rfl (by rw [hpc]; rfl) rfl) _, ?_⟩
        apply kinv_emit
        · exact kinv_frame hk t .idle rfl rfl rfl rfl (List.prefix_refl _) rfl trivial (by simp) (by simp [hpc])
        all_goals simp [claimsOf, resultsOf, doneOf]
      · simp only [h2, if_false]
        exact ⟨pinv_pc hp t _ rfl rfl rfl (by rw [hpc]; rfl) rfl,
          kinv_frame hk t _ rfl rfl rfl rfl (List.prefix_refl _) rfl ⟨by omega, Nat.le_refl _, hh, m1, m2⟩ (by simp) (by simp [hpc])⟩
    | deqReload c => rw [hpc] at hme; exact (hme trivial).elim
    | deqTail c h tl =>
      rw [hpc] at hme
      obtain ⟨m0, m1, hh, m2, m3⟩ := hme
      have hpub := hp.pub
      have h4 : h + 1 < 2 ^ 32 := by omega
      simp only [RState.nextStep, u32Add, h4, if_true]
      by_cases hc : s.heads[c]? = some h ∧ sp = false
      · simp only [hc, and_self, if_true]
        refine ⟨?_, kinv_claim hk t c h tl hpc hc.1⟩
        apply pinv_emit
        exact pinv_pc hp t _ rfl rfl rfl (by rw [hpc]; rfl) rfl
      · simp only [hc, if_false]
        refine ⟨pinv_pc hp t _ rfl rfl rfl (by rw [hpc]; rfl) rfl, ?_⟩
        refine kinv_frame hk t _ rfl rfl rfl rfl (List.prefix_refl _) rfl ?_ (by simp) (by simp [hpc])
        refine ⟨hh, m2, ?_⟩
        simp [List.getD, m2]
    | deqClaimed c h tl =>
      rw [hpc] at hme
      obtain ⟨m0, m1, ⟨hh, m2, m3⟩, m4, m5⟩ := hme
      have hpub := hp.pub
      have h4 : h ≤ s.ring.reserved := by rw [hp.res]; omega
      simp only [RState.nextStep, u32Sub, h4, if_true, Nat.mod_eq_of_lt hN32, hN', if_false]
      have hpidle := pinv_pc (s' := s.setPc t .idle) hp t .idle rfl rfl rfl (by rw [hpc]; rfl) rfl
      split
      · refine ⟨pinv_emit hpidle _, ?_⟩
        apply kinv_result hk t c h tl _ hpc
        · simp [claimsOf]
        · intro c'; simp [resultsOf, eq_comm]
        all_goals simp [doneOf]
      · rename_i hle
        refine ⟨pinv_emit hpidle _, ?_⟩
        apply kinv_result hk t c h tl _ hpc
        · simp [claimsOf]
        · intro c'; simp [resultsOf, eq_comm]
        · simp [doneOf]
        · rintro _ c' a v hv
          simp only [REv.deqSome.injEq] at hv
          obtain ⟨rfl, rfl, rfl⟩ := hv
          have hlt : h < s.log.length := by omega
          rw [hp.slots h hlt (by rw [hp.res] at hle; omega) (Or.inl (by omega))]
          exact ⟨_, List.getElem?_eq_getElem hlt, List.getElem?_eq_getElem hlt⟩
        · simp
    | peekHead c h =>
      rw [hpc] at hme
      obtain ⟨hh, m1, m2⟩ := hme
      have m3 := hk.headLe c hh m1
      obtain ⟨e, he, e1, e2, e3, e4, e5⟩ := peekEvent_ok (p := p) hN (r := s.ring) (c := c) (h := h) (by omega)
      simp only [RState.nextStep, he]
      refine ⟨pinv_emit (pinv_pc (s' := s.setPc t .idle) hp t .idle rfl rfl rfl (by rw [hpc]; rfl) rfl) _, ?_⟩
      exact kinv_emit (kinv_frame (s' := s.setPc t .idle) hk t .idle rfl rfl rfl rfl (List.prefix_refl _) rfl trivial (by simp) (by simp [hpc]))
        e e1 e2 e3 e4 e5

theorem act_log_prefix {p : Profile} {N : Nat} (s : RState α T) (a : RAct α T) : s.log <+: (s.act p N a).log := by
  cases a with
  | enqueue t e =>
    simp only [RState.act]
    cases s.pc t <;> simp [RState.setPc]
  | consumer t => simp only [RState.act]; cases s.pc t <;> exact List.prefix_refl _
  | dequeue t c =>
    simp only [RState.act]; cases s.pc t <;> cases s.heads[c]? <;> exact List.prefix_refl _
  | peekAll t c =>
    simp only [RState.act]; cases s.pc t <;> cases s.heads[c]? <;> exact List.prefix_refl _
  | next t sp =>
    have : (s.act p N (.next t sp)).log = s.log := by
      simp only [RState.act]
      cases s.pc t <;> simp only [RState.nextStep, RState.setPc, RState.emit] <;> repeat (first | rfl | split)
    rw [this]

theorem run_log_prefix {p : Profile} {N : Nat} (acts : List (RAct α T)) :
    ∀ s : RState α T, s.log <+: (s.run p N acts).log := by
  induction acts with
  | nil => intro s; exact List.prefix_refl _
  | cons a acts ih => intro s; exact (act_log_prefix s a).trans (ih _)

theorem inv_run {p : Profile} {N : Nat} (hN : 0 < N) (hN32 : N < 2 ^ 32) (acts : List (RAct α T)) :
    ∀ {s : RState α T}, PInv N s → KInv True s → (∀ k, (s.run p N (acts.take k)).inFlight ≤ N) → (s.run p N acts).log.length < 2 ^ 32 →
      PInv N (s.run p N acts) ∧ KInv True (s.run p N acts) := by
  induction acts with
  | nil => intro s hp hk _ _; exact ⟨hp, hk⟩
  | cons a acts ih =>
    intro s hp hk hT hs
    have hs1 : (s.act p N a).log.length < 2 ^ 32 :=
      Nat.lt_of_le_of_lt (run_log_prefix (p := p) (N := N) acts (s.act p N a)).length_le hs
    obtain ⟨h1, h2⟩ := inv_act (p := p) hN hN32 (hT 0) hp hk a hs1
    exact ih h1 h2 (fun k => hT (k + 1)) hs

theorem run_append (p : Profile) (N : Nat) (s : RState α T) (a b : List (RAct α T)) :
    s.run p N (a ++ b) = (s.run p N a).run p N b := by simp [RState.run, List.foldl_append]

end BigO
