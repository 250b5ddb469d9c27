import Verif.Proofs.AllocRing

/-! # The simulation: allocator with the ring buffer's own steps against allocator with atomic ring operations -/
namespace BigO

/-- the ring buffer holds the published slots `L` and the stored ones, those that were not overwritten -/
structure FSlots (f : AFine) (L : List Slot) : Prop where
  pub : f.ring.published = L.length
  slotsL : ∀ p x, L[p]? = some x → f.begun ≤ p + f.core.size → f.ring.slot (p % f.core.size) = some x
  slotsW : ∀ t x r, f.rpc t = .written x r → f.begun ≤ r + f.core.size → f.ring.slot (r % f.core.size) = some x

/-- the extremes after all these loads -/
def foldLoads (qs : List (Nat × SlotField × Slot)) (acc : Nat × Nat) : Nat × Nat := qs.foldl (fun acc q => loadField q.2.2 q.2.1 acc) acc

/-- where a thread is when its loop over the peeked slots is taken as over -/
def SimPc (f : AFine) (L : List Slot) (pc : APc) (t : Nat) : Prop :=
  match f.rpc t with
  | .reading k mn mx rest =>
    ∃ qs : List (Nat × SlotField × Slot), rest = qs.map (fun q => (q.1 % f.core.size, q.2.1)) ∧
      (∀ q ∈ qs, L[q.1]? = some q.2.2 ∧ ∃ sp, f.core.saved[k]? = some sp ∧ sp.head ≤ q.1) ∧
      pc = .dMin k (foldLoads qs (mn, mx)).1 (foldLoads qs (mn, mx)).2
  | _ => pc = (f.core.th t).pc

structure FSim (f : AFine) (L : List Slot) (P : Nat → APc) : Prop where
  inv : FInv f
  slots : FSlots f L
  pcs : ∀ t, SimPc f L (P t) t

/-- no more than the ring's size of save points are being enqueued -/
def Window (f : AFine) : Prop := f.begun ≤ f.ring.published + f.core.size

/-- no slot still to be read by a request for statistics was reserved again -/
def NotOverrun (f : AFine) : Prop := ∀ t k mn mx rest sp, f.rpc t = .reading k mn mx rest → rest ≠ [] → f.core.saved[k]? = some sp →
  f.begun ≤ sp.head + f.core.size

theorem SimPc.out {f : AFine} {L pc t} (h : SimPc f L pc t) (hr : ∀ k mn mx rest, f.rpc t ≠ .reading k mn mx rest) :
    pc = (f.core.th t).pc := by
  unfold SimPc at h
  split at h
  · rename_i hx; exact absurd hx (hr _ _ _ _)
  · exact h

theorem SimPc.of_out {f : AFine} {L pc t} (hr : ∀ k mn mx rest, f.rpc t ≠ .reading k mn mx rest) (h : pc = (f.core.th t).pc) :
    SimPc f L pc t := by
  unfold SimPc
  split
  · rename_i hx; exact absurd hx (hr _ _ _ _)
  · exact h

theorem SimPc.frame {f f' : AFine} {L L' : List Slot} {pc t} (h : SimPc f L pc t) (hr : f'.rpc t = f.rpc t)
    (hp : (f'.core.th t).pc = (f.core.th t).pc) (hs : f'.core.size = f.core.size)
    (hsv : ∀ (k : Nat) (sp : CSave), f.core.saved[k]? = some sp → f'.core.saved[k]? = some sp)
    (hL : ∀ (p : Nat) x, L[p]? = some x → L'[p]? = some x) : SimPc f' L' pc t := by
  unfold SimPc at h ⊢
  rw [hr]
  split
  · rename_i k mn mx rest hx
    rw [hx] at h
    obtain ⟨qs, h1, h2, h3⟩ := h
    refine ⟨qs, by rw [hs]; exact h1, ?_, h3⟩
    intro q hq
    obtain ⟨a, sp, b, c⟩ := h2 q hq
    exact ⟨hL _ _ a, sp, hsv _ _ b, c⟩
  · rename_i hx
    split at h
    · rename_i hy; exact absurd hy (hx _ _ _ _)
    · rw [hp]; exact h

theorem over_goto_same (L P) (s : AConc) (t pc) : (s.goto t pc).over L P = s.over L P := by
  refine aconc_eq rfl rfl rfl ?_ rfl rfl rfl rfl
  funext u
  simp only [AConc.over, AConc.goto]
  split
  · subst_vars; rfl
  · rfl

theorem extremes_loads (L : List Slot) (h : Nat) (dflt : Slot) :
    foldLoads ((List.range' h (L.length - h)).flatMap fun p => [(p, .min, L.getD p dflt), (p, .max, L.getD p dflt)]) (usizeMax, 0) =
      extremes (L.drop h) := by
  have hdrop : L.drop h = (List.range' h (L.length - h)).map (fun p => L.getD p dflt) := by
    refine List.ext_getElem (by simp) ?_
    intro i h1 h2
    simp only [List.length_drop] at h1
    simp only [List.getElem_drop, List.getElem_map, List.getElem_range', List.getD_eq_getElem?_getD, Nat.one_mul]
    rw [List.getElem?_eq_getElem (by omega)]; rfl
  unfold foldLoads extremes
  rw [hdrop, List.foldl_flatMap, List.foldl_map]
  rfl

theorem fieldLoads_mod (N : Nat) (ps : List Nat) (g : Nat → Slot) :
    fieldLoads (ps.map (· % N)) = (ps.flatMap fun p => [(p, SlotField.min, g p), (p, SlotField.max, g p)]).map (fun q => (q.1 % N, q.2.1)) := by
  unfold fieldLoads
  rw [List.flatMap_map, List.map_flatMap]
  rfl

/-- the statistics change outside the ring operations -/
theorem FSlots.coreChange {f : AFine} {L} (h : FSlots f L) {c : AConc} (hs : c.size = f.core.size) : FSlots { f with core := c } L := by
  have hs' : ({ f with core := c } : AFine).core.size = f.core.size := hs
  refine ⟨h.pub, ?_, ?_⟩
  · rw [hs']; exact h.slotsL
  · rw [hs']; exact h.slotsW

/-- a thread moves, not to a store -/
theorem FSlots.rpcChange {f : AFine} {L} (h : FSlots f L) {t x} (hx : ∀ e r, x = .written e r → f.rpc t = .written e r) :
    FSlots (f.setRpc t x) L := by
  refine ⟨h.pub, h.slotsL, ?_⟩
  intro u e r hu hb
  by_cases ht : u = t
  · subst ht; rw [setRpc_same] at hu; exact h.slotsW u e r (hx e r hu) hb
  · rw [setRpc_other ht] at hu; exact h.slotsW u e r hu hb

theorem FSlots.store {f : AFine} {L} (hi : FInv f) (h : FSlots f L) (hw : Window f) {t x r} (ht : f.rpc t = .reserved x r) :
    FSlots ({ f with ring := f.ring.write (r % f.core.size) x }.setRpc t (.written x r)) L := by
  obtain ⟨p1, p2, p3⟩ := hi.pend t x r (Or.inl ht)
  have keep : ∀ j, j ≠ r % f.core.size → (f.ring.write (r % f.core.size) x).slot j = f.ring.slot j := by
    intro j hj; simp [Ring.write, hj]
  unfold Window at hw
  refine ⟨h.pub, ?_, ?_⟩
  · intro p y hp hb
    show (f.ring.write (r % f.core.size) x).slot (p % f.core.size) = some y
    have hlt : p < L.length := (List.getElem?_eq_some_iff.1 hp).1
    have hb' : f.begun ≤ p + f.core.size := hb
    have := h.pub
    rw [keep _ (fun e => ?_)]
    · exact h.slotsL p y hp hb
    · have := mod_inj_window e (by omega) (by omega)
      omega
  · intro u y q hu hb
    have hb' : f.begun ≤ q + f.core.size := hb
    show (f.ring.write (r % f.core.size) x).slot (q % f.core.size) = some y
    by_cases he : u = t
    · subst he
      have hu' : (f.setRpc u (.written x r)).rpc u = .written y q := hu
      rw [setRpc_same] at hu'
      injection hu' with e1 e2
      subst e1; subst e2
      simp [Ring.write]
    · have hu' : (f.setRpc t (.written x r)).rpc u = .written y q := hu
      rw [setRpc_other he] at hu'
      obtain ⟨q1, q2, q3⟩ := hi.pend u y q (Or.inr hu')
      have hne : q ≠ r := fun e => he (hi.distinct u t y x r (e ▸ Or.inr hu') (Or.inl ht))
      rw [keep _ (fun e => ?_)]
      · exact h.slotsW u y q hu' hb
      · rcases Nat.le_total q r with hqr | hqr
        · exact hne (mod_inj_window e hqr (by omega))
        · exact hne (mod_inj_window e.symm hqr (by omega)).symm

theorem FSlots.publish {f : AFine} {L} (h : FSlots f L) {t x r} {c : AConc} (hs : c.size = f.core.size) (ht : f.rpc t = .written x r)
    (hr : f.ring.published = r) :
    FSlots ({ f with ring := { f.ring with published := r + 1 }, core := c }.setRpc t .out) (L ++ [x]) := by
  have hlen : L.length = r := h.pub.symm.trans hr
  have hs' : ({ f with ring := { f.ring with published := r + 1 }, core := c }.setRpc t .out).core.size = f.core.size := hs
  refine ⟨?_, ?_, ?_⟩
  · show r + 1 = _
    rw [List.length_append, hlen]; rfl
  · rw [hs']
    intro p y hp hb
    by_cases hlt : p < L.length
    · rw [List.getElem?_append_left hlt] at hp
      exact h.slotsL p y hp hb
    · have hlt2 := (List.getElem?_eq_some_iff.1 hp).1
      simp only [List.length_append, List.length_singleton] at hlt2
      have he : p = r := by omega
      rw [he, ← hlen, List.getElem?_append_right (Nat.le_refl _), Nat.sub_self] at hp
      simp at hp
      subst hp
      rw [he] at hb ⊢
      exact h.slotsW t x r ht hb
  · rw [hs']
    intro u y q hu hb
    have hu' : (f.setRpc t .out).rpc u = .written y q := hu
    by_cases he : u = t
    · subst he; rw [setRpc_same] at hu'; cases hu'
    · rw [setRpc_other he] at hu'; exact h.slotsW u y q hu' hb

theorem fsim_init {p : Profile} {N : Nat} (hN : 0 < N) (hN32 : N < 2 ^ 32) (s : Stats) : FSim (AFine.init p N s) [] (fun _ => .idle) := by
  refine ⟨finv_init hN hN32 s, ⟨rfl, ?_, ?_⟩, fun t => SimPc.of_out (by intro _ _ _ _ h; cases h) rfl⟩
  · intro p x h; simp at h
  · intro t x r h; cases h

theorem over_init (p : Profile) (N : Nat) (s : Stats) : (AFine.init p N s).core.over [] (fun _ => .idle) = AConc.init p N s := rfl

/-- one action of the fine model is at most that action of the coarse one -/
theorem FSim.act {f f' : AFine} {L P a} (h : FSim f L P) (hw : Window f) (hn : NotOverrun f) (ha : f.act a = some f')
    (hb : f'.begun < 2 ^ 32) :
    ∃ L' P' as, FSim f' L' P' ∧ (as = [a] ∨ (as = [] ∧ ∃ t i ok, a = .step t i ok)) ∧
      (f.core.over L P).sched as = some (f'.core.over L' P') := by
  have hi' := h.inv.act ha hb
  have one : ∀ {c c' : AConc} {a : AAct}, c.act a = some c' → c.sched [a] = some c' := by
    intro c c' a e; simp only [AConc.sched, e]
  rcases act_cases ha with ⟨t, i, ok, rfl, hs⟩ | ⟨_, c, hc, _, rfl⟩
  · have nil : ∀ {b : AAct}, ([] : List AAct) = [b] ∨ (([] : List AAct) = [] ∧ ∃ t' i' ok', AAct.step t i ok = .step t' i' ok') :=
      Or.inr ⟨rfl, t, i, ok, rfl⟩
    cases hs with
    | reserve mn mx hr hpc =>
      refine ⟨L, P, [], ⟨hi', ⟨h.slots.pub, ?_, ?_⟩, ?_⟩, nil, rfl⟩
      · intro p x hp hb'
        exact h.slots.slotsL p x hp (Nat.le_trans (Nat.le_succ _) hb')
      · intro u x r hu hb'
        by_cases he : u = t
        · subst he; rw [setRpc_same] at hu; cases hu
        · rw [setRpc_other he] at hu; exact h.slots.slotsW u x r hu (Nat.le_trans (Nat.le_succ _) hb')
      · intro u
        by_cases he : u = t
        · subst he
          exact SimPc.of_out (by rw [setRpc_same]; simp) ((h.pcs u).out (by rw [hr]; simp))
        · exact (h.pcs u).frame (setRpc_other he) rfl rfl (fun _ _ e => e) (fun _ _ e => e)
    | consumer hr hpc =>
      refine ⟨L, atPc P t (.spCur1 f.ring.published), [.step t i ok], ⟨hi', h.slots.coreChange rfl, ?_⟩, Or.inl rfl, one ?_⟩
      · intro u
        by_cases he : u = t
        · subst he
          refine SimPc.of_out (by show ∀ k mn mx rest, f.rpc u ≠ _; rw [hr]; simp) ?_
          simp [atPc, AConc.goto]
        · rw [show atPc P t (.spCur1 f.ring.published) u = P u by simp [atPc, he]]
          exact (h.pcs u).frame rfl (congrArg ATh.pc (goto_other he)) rfl (fun _ _ e => e) (fun _ _ e => e)
      · show (f.core.over L P).step t i ok = _
        have hp : P t = .spConsumer := ((h.pcs t).out (by rw [hr]; simp)).trans hpc
        unfold AConc.step
        rw [show ((f.core.over L P).th t).pc = .spConsumer from hp]
        simp only
        rw [over_goto, h.slots.pub]
        rfl
    | enterPeek k sp hr hpc hsp =>
      refine ⟨L, P, [], ⟨hi', h.slots.rpcChange (by simp), ?_⟩, nil, rfl⟩
      intro u
      by_cases he : u = t
      · subst he
        exact SimPc.of_out (by rw [setRpc_same]; simp) ((h.pcs u).out (by rw [hr]; simp))
      · exact (h.pcs u).frame (setRpc_other he) rfl rfl (fun _ _ e => e) (fun _ _ e => e)
    | core c hr hpc hc =>
      have hk := core_step hpc hc
      refine ⟨L, atPc P t (c.th t).pc, [.step t i ok], ⟨hi', h.slots.coreChange hk.size, ?_⟩, Or.inl rfl, one (hk.over L P ?_)⟩
      · intro u
        by_cases he : u = t
        · subst he
          refine SimPc.of_out (by show ∀ k mn mx rest, f.rpc u ≠ _; rw [hr]; simp) ?_
          simp [atPc]
        · rw [show atPc P t (c.th t).pc u = P u by simp [atPc, he]]
          exact (h.pcs u).frame rfl (congrArg ATh.pc (hk.others u he)) hk.size hk.savedKept (fun _ _ e => e)
      · exact (h.pcs t).out (by rw [hr]; simp)
    | store x r hr hN =>
      refine ⟨L, P, [], ⟨hi', FSlots.store h.inv h.slots hw hr, ?_⟩, nil, rfl⟩
      intro u
      by_cases he : u = t
      · subst he
        exact SimPc.of_out (by rw [setRpc_same]; simp) ((h.pcs u).out (by rw [hr]; simp))
      · exact (h.pcs u).frame (setRpc_other he) rfl rfl (fun _ _ e => e) (fun _ _ e => e)
    | storePanic x r hr hN => exact absurd (setRpc_same f t _) (hi'.calm t _)
    | publish x r next hr hn' hok hp =>
      have hnext : next = r + 1 := by
        have := (h.inv.pend t x r (Or.inr hr)).2.1
        have := h.inv.small
        unfold u32Add at hn'
        rw [if_pos (by omega)] at hn'
        injection hn' with hn'
        exact hn'.symm
      subst hnext
      refine ⟨L ++ [x], atPc P t .spConsumer, [.step t i ok], ⟨hi', h.slots.publish rfl hr hp, ?_⟩, Or.inl rfl, one ?_⟩
      · intro u
        by_cases he : u = t
        · subst he
          refine SimPc.of_out (by rw [setRpc_same]; simp) ?_
          simp [atPc, AConc.goto, AFine.setRpc]
        · rw [show atPc P t .spConsumer u = P u by simp [atPc, he]]
          refine (h.pcs u).frame (setRpc_other he) (congrArg ATh.pc (goto_other he)) rfl (fun _ _ e => e) ?_
          intro p y hy
          rw [List.getElem?_append_left (List.getElem?_eq_some_iff.1 hy).1]; exact hy
      · show (f.core.over L P).step t i ok = _
        have hp : P t = .spEnqueue x.min x.max := ((h.pcs t).out (by rw [hr]; simp)).trans (h.inv.pend t x r (Or.inr hr)).2.2
        unfold AConc.step
        rw [show ((f.core.over L P).th t).pc = .spEnqueue x.min x.max from hp]
        simp only
        exact congrArg some (over_goto (L ++ [x]) P f.core t .spConsumer)
    | retry x r hr hok hp =>
      refine ⟨L, P, [], ⟨hi', h.slots.rpcChange (by intro e q e'; rw [← e']; exact hr), ?_⟩, nil, rfl⟩
      intro u
      by_cases he : u = t
      · subst he
        exact SimPc.of_out (by rw [setRpc_same]; simp) ((h.pcs u).out (by rw [hr]; simp))
      · exact (h.pcs u).frame (setRpc_other he) rfl rfl (fun _ _ e => e) (fun _ _ e => e)
    | publishPanic x r e hr hp => exact absurd (setRpc_same f t _) (hi'.calm t _)
    | peekPanic k hh e hr hp => exact absurd (setRpc_same f t _) (hi'.calm t _)
    | readPanic k mn mx j fd rest e hr hp => exact absurd (setRpc_same f t _) (hi'.calm t _)
    | peekErr k hh e hr hp =>
      obtain ⟨hpc, sp, hsp, rfl⟩ := h.inv.peek t k hh hr
      rw [peekIndices_eq h.inv.size h.inv.size32 (h.inv.heads k sp hsp) (Nat.lt_of_le_of_lt h.inv.le h.inv.small)] at hp
      split at hp
      · rename_i ho
        refine ⟨L, atPc P t .idle, [.step t i ok], ⟨hi', ?_, ?_⟩, Or.inl rfl, one ?_⟩
        · exact (h.slots.rpcChange (t := t) (x := .out) (by simp)).coreChange (c := f.core.result t k .overflow) rfl
        · intro u
          by_cases he : u = t
          · subst he
            refine SimPc.of_out (by rw [setRpc_same]; simp) ?_
            simp [atPc, AConc.goto, AConc.result, AFine.setRpc]
          · rw [show atPc P t .idle u = P u by simp [atPc, he]]
            exact (h.pcs u).frame (setRpc_other he) (congrArg ATh.pc (goto_other he)) rfl (fun _ _ e => e) (fun _ _ e => e)
        · show (f.core.over L P).step t i ok = _
          have hP : P t = .dPeek k := ((h.pcs t).out (by rw [hr]; simp)).trans hpc
          unfold AConc.step
          rw [show ((f.core.over L P).th t).pc = .dPeek k from hP]
          simp only
          rw [show (f.core.over L P).saved[k]? = some sp from hsp]
          simp only
          rw [if_pos (show (f.core.over L P).slots.length > sp.head + (f.core.over L P).size by
            show L.length > sp.head + f.core.size; rw [← h.slots.pub]; exact ho), over_result]
          rfl
      · cases hp
    | peekOk k hh js hr hp =>
      obtain ⟨hpc, sp, hsp, rfl⟩ := h.inv.peek t k hh hr
      rw [peekIndices_eq h.inv.size h.inv.size32 (h.inv.heads k sp hsp) (Nat.lt_of_le_of_lt h.inv.le h.inv.small)] at hp
      split at hp
      · cases hp
      · rename_i ho
        injection hp with hp
        injection hp with hp
        subst hp
        refine ⟨L, atPc P t (.dMin k (extremes (L.drop sp.head)).1 (extremes (L.drop sp.head)).2), [.step t i ok], ⟨hi', ?_, ?_⟩, Or.inl rfl, one ?_⟩
        · exact h.slots.rpcChange (by simp)
        · intro u
          by_cases he : u = t
          · subst he
            unfold SimPc
            rw [setRpc_same]
            refine ⟨(List.range' sp.head (L.length - sp.head)).flatMap fun p => [(p, .min, L.getD p ⟨0, 0⟩), (p, .max, L.getD p ⟨0, 0⟩)], ?_, ?_, ?_⟩
            · rw [h.slots.pub]; exact fieldLoads_mod _ _ _
            · intro q hq
              obtain ⟨p, hp, hq⟩ := List.mem_flatMap.1 hq
              rw [List.mem_range'_1] at hp
              have hget : L[p]? = some (L.getD p ⟨0, 0⟩) := by
                rw [List.getD_eq_getElem?_getD, List.getElem?_eq_getElem (by omega)]; rfl
              simp only [List.mem_cons, List.not_mem_nil, or_false] at hq
              rcases hq with rfl | rfl <;> exact ⟨hget, sp, hsp, hp.1⟩
            · rw [extremes_loads]; simp [atPc]
          · rw [show atPc P t (.dMin k (extremes (L.drop sp.head)).1 (extremes (L.drop sp.head)).2) u = P u by simp [atPc, he]]
            exact (h.pcs u).frame (setRpc_other he) rfl rfl (fun _ _ e => e) (fun _ _ e => e)
        · show (f.core.over L P).step t i ok = _
          have hP : P t = .dPeek k := ((h.pcs t).out (by rw [hr]; simp)).trans hpc
          unfold AConc.step
          rw [show ((f.core.over L P).th t).pc = .dPeek k from hP]
          simp only
          rw [show (f.core.over L P).saved[k]? = some sp from hsp]
          simp only
          rw [if_neg (show ¬ (f.core.over L P).slots.length > sp.head + (f.core.over L P).size by
            show ¬ L.length > sp.head + f.core.size; rw [← h.slots.pub]; exact ho), over_goto, over_goto_same]
          rfl
    | readDone k mn mx hr =>
      refine ⟨L, P, [], ⟨hi', ?_, ?_⟩, nil, ?_⟩
      · exact (h.slots.rpcChange (t := t) (x := .out) (by simp)).coreChange (c := f.core.goto t (.dMin k mn mx)) rfl
      · intro u
        by_cases he : u = t
        · subst he
          refine SimPc.of_out (by rw [setRpc_same]; simp) ?_
          have hP := h.pcs u
          unfold SimPc at hP
          rw [hr] at hP
          obtain ⟨qs, h1, _, h3⟩ := hP
          have : qs = [] := List.map_eq_nil_iff.1 h1.symm
          subst this
          rw [h3]
          simp [AConc.goto, AFine.setRpc, foldLoads]
        · exact (h.pcs u).frame (setRpc_other he) (congrArg ATh.pc (goto_other he)) rfl (fun _ _ e => e) (fun _ _ e => e)
      · exact congrArg some (over_goto_same L P f.core t _).symm
    | read k mn mx j fd rest x hr hp =>
      refine ⟨L, P, [], ⟨hi', h.slots.rpcChange (by simp), ?_⟩, nil, rfl⟩
      intro u
      by_cases he : u = t
      · subst he
        have hP := h.pcs u
        unfold SimPc at hP ⊢
        rw [setRpc_same]
        rw [hr] at hP
        obtain ⟨qs, h1, h2, h3⟩ := hP
        cases qs with
        | nil => cases h1
        | cons q qs =>
          simp only [List.map_cons, List.cons.injEq, Prod.mk.injEq] at h1
          obtain ⟨⟨ej, ef⟩, er⟩ := h1
          obtain ⟨hq, sp, hsp, hle⟩ := h2 q (by simp)
          have hover := hn u k mn mx _ sp hr (by simp) hsp
          have hslot := h.slots.slotsL q.1 q.2.2 hq (by omega)
          rw [← ej, hp] at hslot
          injection hslot with hslot
          refine ⟨qs, er, fun q' hq' => h2 q' (by simp [hq']), ?_⟩
          rw [h3, hslot, ef]
          rfl
      · exact (h.pcs u).frame (setRpc_other he) rfl rfl (fun _ _ e => e) (fun _ _ e => e)
  · refine ⟨L, atPc P a.tid (c.th a.tid).pc, [a], ⟨hi', h.slots.coreChange hc.size, ?_⟩, Or.inl rfl, one (hc.over L P ?_)⟩
    · intro u
      have ho := h.inv.out_of_idle hc.idle
      by_cases he : u = a.tid
      · subst he
        refine SimPc.of_out (by show ∀ k mn mx rest, f.rpc a.tid ≠ _; rw [ho]; simp) ?_
        simp [atPc]
      · rw [show atPc P a.tid (c.th a.tid).pc u = P u by simp [atPc, he]]
        exact (h.pcs u).frame rfl (congrArg ATh.pc (hc.others u he)) hc.size (fun k sp e => by rw [hc.saved]; exact e) (fun _ _ e => e)
    · rw [(h.pcs a.tid).out (by rw [h.inv.out_of_idle hc.idle]; simp)]
      exact hc.idle

end BigO
