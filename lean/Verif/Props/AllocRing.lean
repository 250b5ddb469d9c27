import Verif.Proofs.AllocRingSim
import Verif.Spec.AllocRingSpec
import Verif.Props.AllocPass
import Mathlib.Data.Finset.Card
import Mathlib.Order.Interval.Finset.Nat

/-!
# The allocator's statistics when the ring buffer's own steps interleave (C106)

Any number of threads, any interleaving of their atomic accesses to the statistics (stale reads included) and to the ring buffer:
`Verif.Model.AllocRing`.
-/
namespace BigO

theorem fsched_append {f f' : AFine} {as bs} : f.sched (as ++ bs) = some f' ↔ ∃ f1, f.sched as = some f1 ∧ f1.sched bs = some f' := by
  induction as generalizing f with
  | nil => simp [AFine.sched]
  | cons a as ih =>
    simp only [List.cons_append, AFine.sched]
    cases f.act a with
    | none => simp
    | some g => exact ih

theorem fsched_cons {f f' : AFine} {a as} (h : f.sched (a :: as) = some f') : ∃ g, f.act a = some g ∧ g.sched as = some f' := by
  simp only [AFine.sched] at h
  cases hg : f.act a with
  | none => rw [hg] at h; cases h
  | some g => rw [hg] at h; exact ⟨g, rfl, h⟩

/-! ## few threads -/

theorem rpc_act {f f' : AFine} {a u} (h : f.act a = some f') (hu : u ≠ a.tid) : f'.rpc u = f.rpc u := by
  rcases act_cases h with ⟨t, i, ok, rfl, hs⟩ | ⟨_, c, hc, _, rfl⟩
  · have hu' : u ≠ t := hu
    cases hs <;> first | rfl | exact setRpc_other hu'
  · rfl

/-- only threads below `n` are in ring operations -/
def Below (n : Nat) (f : AFine) : Prop := ∀ u, n ≤ u → f.rpc u = .out

theorem Below.act {n : Nat} {f f' : AFine} {a} (h : Below n f) (ha : f.act a = some f') (ht : a.tid < n) : Below n f' := by
  intro u hu
  rw [rpc_act ha (by omega)]
  exact h u hu

theorem size_act {f f' : AFine} {a} (h : f.act a = some f') : f'.core.size = f.core.size := by
  rcases act_cases h with ⟨t, i, ok, rfl, hs⟩ | ⟨_, c, hc, _, rfl⟩
  · cases hs <;> first | rfl | skip
    rename_i c hr hpc hc
    exact (core_step hpc hc).size
  · exact hc.size

theorem size_fsched : ∀ (as : List AAct) {f f' : AFine}, f.sched as = some f' → f'.core.size = f.core.size := by
  intro as
  induction as with
  | nil => intro f f' h; simp [AFine.sched] at h; subst h; rfl
  | cons a as ih =>
    intro f f' h
    obtain ⟨g, hg, hs⟩ := fsched_cons h
    rw [ih hs, size_act hg]

theorem window_of_below {f : AFine} (h : FInv f) (hb : Below f.core.size f) : Window f := by
  classical
  unfold Window
  have hch : ∀ r : Nat, ∃ t : Nat, f.ring.published ≤ r → r < f.begun → ∃ x, Pending (f.rpc t) x r := by
    intro r
    by_cases h1 : f.ring.published ≤ r ∧ r < f.begun
    · obtain ⟨t, x, hp⟩ := h.cover r h1.1 h1.2
      exact ⟨t, fun _ _ => ⟨x, hp⟩⟩
    · exact ⟨0, fun a b => absurd ⟨a, b⟩ h1⟩
  choose g hg using hch
  have hcard : (Finset.Ico f.ring.published f.begun).card ≤ (Finset.range f.core.size).card := by
    refine Finset.card_le_card_of_injOn g ?_ ?_
    · intro r hr
      have hr' := Finset.mem_Ico.1 hr
      obtain ⟨x, hp⟩ := hg r hr'.1 hr'.2
      refine Finset.mem_coe.2 (Finset.mem_range.2 ?_)
      by_contra hge
      have := hb (g r) (by omega)
      rw [this] at hp
      exact not_pending_out x r hp
    · intro r hr q hq e
      have hr' := Finset.mem_Ico.1 hr
      have hq' := Finset.mem_Ico.1 hq
      obtain ⟨x, hp⟩ := hg r hr'.1 hr'.2
      obtain ⟨y, hp'⟩ := hg q hq'.1 hq'.2
      rw [← e] at hp'
      rcases hp with hp | hp <;> rcases hp' with hp' | hp' <;> rw [hp] at hp' <;> injection hp'
  simp only [Nat.card_Ico, Finset.card_range] at hcard
  omega

/-! ## the simulation of a schedule -/

theorem NeverOverrun.now {f : AFine} {acts} (h : NeverOverrun f acts) : NotOverrun f := by
  intro t k mn mx rest sp hr hne hsp
  refine h [] acts f rfl rfl t sp ?_
  cases rest with
  | nil => exact absurd rfl hne
  | cons q rest => exact ⟨k, mn, mx, q, rest, hr, hsp⟩

theorem NeverOverrun.tail {f g : AFine} {a acts} (h : NeverOverrun f (a :: acts)) (ha : f.act a = some g) : NeverOverrun g acts := by
  intro pre post g' e hs
  exact h (a :: pre) post g' (by rw [e]; rfl) (by simp only [AFine.sched, ha]; exact hs)

theorem NeverOverrun.left {f : AFine} {as bs} (h : NeverOverrun f (as ++ bs)) : NeverOverrun f as := by
  intro pre post g e hs
  exact h pre (post ++ bs) g (by rw [e, List.append_assoc]) hs

theorem fsim_sched : ∀ (as : List AAct) {f f' : AFine} {L P}, FSim f L P → Below f.core.size f → (∀ a ∈ as, a.tid < f.core.size) →
    NeverOverrun f as → f.sched as = some f' → f'.begun < 2 ^ 32 →
    ∃ L' P' as', FSim f' L' P' ∧ Skips as' as ∧ (f.core.over L P).sched as' = some (f'.core.over L' P') ∧ Below f'.core.size f' := by
  intro as
  induction as with
  | nil =>
    intro f f' L P h hbl _ _ hs _
    simp [AFine.sched] at hs
    subst hs
    exact ⟨L, P, [], h, .nil, rfl, hbl⟩
  | cons a as ih =>
    intro f f' L P h hbl ht hno hs hb
    obtain ⟨g, hg, hs'⟩ := fsched_cons hs
    have hbg : g.begun < 2 ^ 32 := Nat.lt_of_le_of_lt (begun_sched as g f' hs') hb
    obtain ⟨L1, P1, as1, h1, hk, hr1⟩ := h.act (window_of_below h.inv hbl) hno.now hg hbg
    have hbl1 : Below g.core.size g := by rw [size_act hg]; exact hbl.act hg (ht a (by simp))
    obtain ⟨L2, P2, as2, h2, hk2, hr2, hbl2⟩ := ih h1 hbl1 (fun b hb => by rw [size_act hg]; exact ht b (by simp [hb])) (hno.tail hg) hs' hb
    rcases hk with rfl | ⟨rfl, t, i, ok, rfl⟩
    · exact ⟨L2, P2, a :: as2, h2, .keep a hk2, sched_append.2 ⟨_, hr1, hr2⟩, hbl2⟩
    · simp [AConc.sched] at hr1
      exact ⟨L2, P2, as2, h2, .skip t i ok hk2, by rw [hr1]; exact hr2, hbl2⟩

theorem sameStatistics {f : AFine} {L P} (h : FSim f L P) : SameStatistics (f.core.over L P) f.core := by
  refine ⟨rfl, fun _ => rfl, rfl, rfl, rfl, ?_⟩
  intro t
  show P t = .idle ↔ _
  have hp := h.pcs t
  unfold SimPc at hp
  split at hp
  · rename_i k mn mx rest hr
    obtain ⟨_, _, _, e⟩ := hp
    rw [e, (h.inv.reading t k mn mx rest hr).1]
    simp
  · rw [hp]

/-- C106. whatever at most `SIZE` threads do, their accesses to the statistics and to the ring buffer interleaved in any way, fewer than
2^32 save points in all: if no request for statistics is overrun, then the values of the statistics, the save points and the answers to
all requests are those of an execution in which every ring operation is atomic, with the same calls in the same order. (So what is proved
of those executions (C26, C27, C88, C91) holds.) -/
theorem C106_refines (pr : Profile) (N : Nat) (hN : 0 < N) (hN32 : N < 2 ^ 32) (s0 : Stats) {acts : List AAct} {f : AFine}
    (h : (AFine.init pr N s0).sched acts = some f) (hthreads : ∀ a ∈ acts, a.tid < N) (hsaves : f.begun < 2 ^ 32)
    (hover : NeverOverrun (AFine.init pr N s0) acts) :
    ∃ acts' c, Skips acts' acts ∧ (AConc.init pr N s0).sched acts' = some c ∧ SameStatistics c f.core := by
  obtain ⟨L, P, as', hsim, hk, hr, _⟩ := fsim_sched acts (fsim_init hN hN32 s0) (fun _ _ => rfl) hthreads hover h hsaves
  exact ⟨as', f.core.over L P, hk, hr, sameStatistics hsim⟩

/-! ## no panic; who waits for whom -/

/-- C106. with fewer than 2^32 save points no thread ever panics in the ring buffer, and none reads a slot never written: whatever the
number of threads, requests overrun or not -/
theorem C106_no_panic (pr : Profile) (N : Nat) (hN : 0 < N) (hN32 : N < 2 ^ 32) (s0 : Stats) {acts : List AAct} {f : AFine}
    (h : (AFine.init pr N s0).sched acts = some f) (hsaves : f.begun < 2 ^ 32) (t : Nat) : ¬ f.Panicked t := by
  rintro ⟨e, he⟩
  exact (finv_sched acts _ f (finv_init hN hN32 s0) h hsaves).calm t e he

theorem enqueues_iff {f : AFine} {t r} : f.Enqueues t r ↔ ∃ x, Pending (f.rpc t) x r := Iff.rfl

/-- C106. whenever some thread is entering its save point into the ring buffer, there is one that needs at most two more steps of its own to
be done with it: no deadlock -/
theorem C106_some_can_finish (pr : Profile) (N : Nat) (hN : 0 < N) (hN32 : N < 2 ^ 32) (s0 : Stats) {acts : List AAct} {f : AFine}
    (h : (AFine.init pr N s0).sched acts = some f) (hsaves : f.begun < 2 ^ 32) {t r : Nat} (ht : f.Enqueues t r) :
    ∃ u q n f', f.Enqueues u q ∧ q ≤ r ∧ n ≤ 2 ∧ f.sched (List.replicate n (.step u 0 true)) = some f' ∧ (f'.core.th u).pc = .spConsumer ∧
      f'.rpc u = .out := by
  have hi := finv_sched acts _ f (finv_init hN hN32 s0) h hsaves
  obtain ⟨x, hx⟩ := ht
  obtain ⟨p1, p2, _⟩ := hi.pend t x r hx
  obtain ⟨u, y, hu⟩ := hi.cover f.ring.published (Nat.le_refl _) (by omega)
  have hadd : u32Add f.core.profile f.ring.published 1 = .ok (f.ring.published + 1) := by unfold u32Add; rw [if_pos (by omega)]
  have hlast : ∀ g : AFine, g.rpc u = .written y f.ring.published → g.ring.published = f.ring.published → g.core = f.core →
      ∃ f', g.sched [.step u 0 true] = some f' ∧ (f'.core.th u).pc = .spConsumer ∧ f'.rpc u = .out := by
    intro g g1 g2 g3
    refine ⟨({ g with ring := { g.ring with published := f.ring.published + 1 }, core := g.core.goto u .spConsumer } : AFine).setRpc u .out,
      ?_, ?_, ?_⟩
    · simp only [AFine.sched, AFine.act, AFine.step, g1, AFine.ringStep, g3, hadd, g2, if_true]
    · show ((g.core.goto u .spConsumer).th u).pc = _
      rw [goto_pc, if_pos rfl]
    · exact setRpc_same _ _ _
  rcases hu with hu | hu
  · have hs : f.core.size ≠ 0 := Nat.pos_iff_ne_zero.1 hi.size
    obtain ⟨f', a, b, c⟩ := hlast (({ f with ring := f.ring.write (f.ring.published % f.core.size) y } : AFine).setRpc u
      (.written y f.ring.published)) (setRpc_same _ _ _) rfl rfl
    refine ⟨u, f.ring.published, 2, f', ⟨y, Or.inl hu⟩, p1, Nat.le_refl _, ?_, b, c⟩
    show f.sched ([.step u 0 true] ++ [.step u 0 true]) = _
    refine fsched_append.2 ⟨_, ?_, a⟩
    simp only [AFine.sched, AFine.act, AFine.step, hu, AFine.ringStep, hs, if_false]
  · obtain ⟨f', a, b, c⟩ := hlast f hu rfl rfl
    exact ⟨u, f.ring.published, 1, f', ⟨y, Or.inr hu⟩, p1, by omega, a, b, c⟩

theorem waits_act {f f' : AFine} {u v r q : Nat} {a} (hi : FInv f) (hu : f.Enqueues u r) (hv : f.Enqueues v q) (hrq : r < q) (hne : a.tid ≠ u)
    (ha : f.act a = some f') : f'.Enqueues u r ∧ f'.Enqueues v q := by
  obtain ⟨x, hx⟩ := hu
  obtain ⟨y, hy⟩ := hv
  refine ⟨⟨x, by rw [rpc_act ha (Ne.symm hne)]; exact hx⟩, ?_⟩
  by_cases hv' : v = a.tid
  · rcases act_cases ha with ⟨t, i, ok, rfl, hs⟩ | ⟨_, c, hc, _, rfl⟩
    · have hvt : v = t := hv'
      subst hvt
      have p1 := (hi.pend u x r hx).1
      cases hs with
      | store z k hr hN =>
        rw [hr] at hy
        rcases hy with e | e
        · injection e with e1 e2; subst e2; exact ⟨z, Or.inr (setRpc_same _ _ _)⟩
        · cases e
      | publish z k next hr hn hok hp =>
        exfalso
        rw [hr] at hy
        rcases hy with e | e
        · cases e
        · injection e with e1 e2; omega
      | retry z k hr hok hp =>
        rw [hr] at hy
        rcases hy with e | e
        · cases e
        · injection e with e1 e2; subst e2; exact ⟨z, Or.inr (setRpc_same _ _ _)⟩
      | storePanic z k hr hN => exact absurd hN (Nat.pos_iff_ne_zero.1 hi.size)
      | publishPanic z k e hr hp =>
        exfalso
        obtain ⟨a1, a2, _⟩ := hi.pend v z k (Or.inr hr)
        have := hi.small
        rcases hp with ⟨e', he⟩ | hp
        · unfold u32Add at he; rw [if_pos (by omega)] at he; cases he
        · omega
      | reserve mn mx hr hpc => rw [hr] at hy; exact absurd hy (not_pending_out _ _)
      | consumer hr hpc => rw [hr] at hy; exact absurd hy (not_pending_out _ _)
      | enterPeek k sp hr hpc hsp => rw [hr] at hy; exact absurd hy (not_pending_out _ _)
      | core c hr hpc hc => rw [hr] at hy; exact absurd hy (not_pending_out _ _)
      | peekPanic k hh e hr hp => rw [hr] at hy; exact absurd hy (not_pending_peek _ _ _ _)
      | peekErr k hh e hr hp => rw [hr] at hy; exact absurd hy (not_pending_peek _ _ _ _)
      | peekOk k hh js hr hp => rw [hr] at hy; exact absurd hy (not_pending_peek _ _ _ _)
      | readDone k mn mx hr => rw [hr] at hy; exact absurd hy (not_pending_reading _ _ _ _ _ _)
      | readPanic k mn mx j fd rest e hr hp => rw [hr] at hy; exact absurd hy (not_pending_reading _ _ _ _ _ _)
      | read k mn mx j fd rest z hr hp => rw [hr] at hy; exact absurd hy (not_pending_reading _ _ _ _ _ _)
    · exact ⟨y, hy⟩
  · exact ⟨y, by rw [rpc_act ha hv']; exact hy⟩

/-- C106. `save_point` is blocking: while a thread that reserved its place earlier is suspended, `save_point` of a thread that reserved later
does not return, whatever else happens and for however long -/
theorem C106_waits (pr : Profile) (N : Nat) (hN : 0 < N) (hN32 : N < 2 ^ 32) (s0 : Stats) {acts later : List AAct} {f f' : AFine}
    (h : (AFine.init pr N s0).sched acts = some f) {u v r q : Nat} (hu : f.Enqueues u r) (hv : f.Enqueues v q) (hrq : r < q)
    (hsusp : ∀ a ∈ later, a.tid ≠ u) (h' : f.sched later = some f') (hsaves : f'.begun < 2 ^ 32) : f'.Enqueues v q := by
  have hi := finv_sched acts _ f (finv_init hN hN32 s0) h (Nat.lt_of_le_of_lt (begun_sched later f f' h') hsaves)
  clear h
  revert f
  induction later with
  | nil => intro f hu hv h' hi; simp [AFine.sched] at h'; subst h'; exact hv
  | cons a as ih =>
    intro f hu hv h' hi
    obtain ⟨g, hg, hs⟩ := fsched_cons h'
    obtain ⟨hu', hv'⟩ := waits_act hi hu hv hrq (hsusp a (by simp)) hg
    exact ih (fun b hb => hsusp b (by simp [hb])) hu' hv' hs (hi.act hg (Nat.lt_of_le_of_lt (begun_sched as g f' hs) hsaves))

/-! ## a pass -/

theorem Skips.calls {as' as : List AAct} (h : Skips as' as) : callsIn as' = callsIn as := by
  induction h with
  | nil => rfl
  | keep a _ ih => cases a <;> simp only [callsIn, ih]
  | skip t i ok _ ih => simpa only [callsIn] using ih

theorem Skips.startedBy {as' as : List AAct} (h : Skips as' as) : ∀ {A}, StartedBy A as → StartedBy A as' := by
  induction h with
  | nil => intro A hs; exact hs
  | keep a _ ih =>
    intro A hs
    cases a with
    | call u c => exact ⟨hs.1, ih hs.2⟩
    | step u i ok => exact ⟨hs.1, ih hs.2⟩
    | sync u v => exact ⟨hs.1, ih hs.2⟩
    | save u => exact hs.elim
    | delta u k => exact hs.elim
  | skip t i ok _ ih => intro A hs; exact ih hs.2

theorem Skips.alone {as' as : List AAct} (h : Skips as' as) {t} (ha : Alone t as) : Alone t as' := by
  induction h with
  | nil => exact ha
  | keep a _ ih =>
    intro b hb
    rcases List.mem_cons.1 hb with rfl | hb
    · exact ha b (by simp)
    · exact ih (fun b hb => ha b (by simp [hb])) b hb
  | skip t i ok _ ih => exact ih (fun b hb => ha b (by simp [hb]))

/-- no thread is in `delta_statistics`, and none enters it -/
theorem noDelta_act {f f' : AFine} {a} (hi : FInv f) (h : ∀ u, inDelta (f.core.th u).pc = false) (hd : ∀ t k, a ≠ .delta t k)
    (ha : f.act a = some f') : ∀ u, inDelta (f'.core.th u).pc = false := by
  have no : ∀ t k, (f.core.th t).pc ≠ .dPeek k := by
    intro t k e
    have := h t
    rw [e] at this
    cases this
  rcases act_cases ha with ⟨t, i, ok, rfl, hs⟩ | ⟨_, c, hc, _, rfl⟩
  · cases hs with
    | consumer hr hpc => intro u; rw [goto_pc]; split; rfl; exact h u
    | publish x r next hr hn hok hp =>
      intro u
      show inDelta ((f.core.goto t .spConsumer).th u).pc = false
      rw [goto_pc]; split; rfl; exact h u
    | core c hr hpc hc =>
      have hk := core_step hpc hc
      intro u
      by_cases hu : u = t
      · subst hu
        cases e : inDelta (c.th u).pc with
        | false => rfl
        | true => have := hk.delta e; rw [h u] at this; cases this
      · show inDelta (c.th u).pc = false
        rw [hk.others u hu]; exact h u
    | enterPeek k sp hr hpc hsp => exact absurd hpc (no t k)
    | peekPanic k hh e hr hp => exact absurd (hi.peek t k hh hr).1 (no t k)
    | peekErr k hh e hr hp => exact absurd (hi.peek t k hh hr).1 (no t k)
    | peekOk k hh js hr hp => exact absurd (hi.peek t k hh hr).1 (no t k)
    | readDone k mn mx hr => exact absurd (hi.reading t k mn mx [] hr).1 (no t k)
    | readPanic k mn mx j fd rest e hr hp => exact absurd (hi.reading t k mn mx _ hr).1 (no t k)
    | read k mn mx j fd rest z hr hp => exact absurd (hi.reading t k mn mx _ hr).1 (no t k)
    | _ => exact h
  · intro u
    by_cases hu : u = a.tid
    · subst hu
      cases e : inDelta (c.th a.tid).pc with
      | false => rfl
      | true => obtain ⟨t, k, e'⟩ := hc.delta e; exact absurd e' (hd t k)
    · show inDelta (c.th u).pc = false
      rw [hc.others u hu]; exact h u

theorem noDelta_sched : ∀ (as : List AAct) {f f' : AFine}, FInv f → (∀ u, inDelta (f.core.th u).pc = false) → (∀ t k, AAct.delta t k ∉ as) →
    f.sched as = some f' → f'.begun < 2 ^ 32 → FInv f' ∧ ∀ u, inDelta (f'.core.th u).pc = false := by
  intro as
  induction as with
  | nil => intro f f' hi h _ hs _; simp [AFine.sched] at hs; subst hs; exact ⟨hi, h⟩
  | cons a as ih =>
    intro f f' hi h hd hs hb
    obtain ⟨g, hg, hs'⟩ := fsched_cons hs
    have hbg := Nat.lt_of_le_of_lt (begun_sched as g f' hs') hb
    exact ih (hi.act hg hbg) (noDelta_act hi h (fun t k e => hd t k (by simp [e])) hg) (fun t k e => hd t k (by simp [e])) hs' hb

theorem begun_prefix {f f' g : AFine} {as pre post} (e : as = pre ++ post) (hs : f.sched as = some f') (hg : f.sched pre = some g) :
    g.begun ≤ f'.begun := by
  rw [e] at hs
  obtain ⟨g', h1, h2⟩ := fsched_append.1 hs
  rw [hg] at h1; injection h1 with h1; subst h1
  exact begun_sched post _ _ h2

theorem neverOverrun_noDelta {as : List AAct} {f f' : AFine} (hi : FInv f) (h : ∀ u, inDelta (f.core.th u).pc = false)
    (hd : ∀ t k, AAct.delta t k ∉ as) (hs : f.sched as = some f') (hb : f'.begun < 2 ^ 32) : NeverOverrun f as := by
  rintro pre post g e hg t sp ⟨k, mn, mx, q, rest, hr, _⟩
  obtain ⟨hi', h'⟩ := noDelta_sched pre hi h (fun t k hm => hd t k (by rw [e]; simp [hm])) hg (Nat.lt_of_le_of_lt (begun_prefix e hs hg) hb)
  have := h' t
  rw [(hi'.reading t k mn mx _ hr).1] at this
  cases this

/-- nothing is enqueued, and the requests under way fit -/
structure Still (f : AFine) : Prop where
  inv : FInv f
  noSave : ∀ u, inSave (f.core.th u).pc = false
  fits : ∀ (t k mn mx : Nat) rest sp, f.rpc t = .reading k mn mx rest → f.core.saved[k]? = some sp → f.begun ≤ sp.head + f.core.size

theorem Still.published {f : AFine} (h : Still f) : f.ring.published = f.begun := by
  by_contra hne
  have := h.inv.le
  obtain ⟨t, x, hp⟩ := h.inv.cover f.ring.published (Nat.le_refl _) (by omega)
  have := (h.inv.pend t x _ hp).2.2
  have hn := h.noSave t
  rw [this] at hn
  cases hn

theorem Still.act {f f' : AFine} {a} (h : Still f) (ha : f.act a = some f') (hs : ∀ t, a ≠ .save t) (hb : f'.begun < 2 ^ 32) : Still f' := by
  have hi' := h.inv.act ha hb
  have no : ∀ {t pc}, (f.core.th t).pc = pc → inSave pc = true → False := by
    intro t pc e e'
    have := h.noSave t
    rw [e, e'] at this; cases this
  have noP : ∀ {t x r}, Pending (f.rpc t) x r → False := fun hp => no (h.inv.pend _ _ _ hp).2.2 rfl
  rcases act_cases ha with ⟨t, i, ok, rfl, hstep⟩ | ⟨_, c, hc, _, rfl⟩
  · have keep : ∀ {x : FPc}, (∀ k mn mx rest, x ≠ .reading k mn mx rest) → ∀ (u k mn mx : Nat) rest sp,
        (f.setRpc t x).rpc u = .reading k mn mx rest → f.core.saved[k]? = some sp → f.begun ≤ sp.head + f.core.size := by
      intro x hx u k mn mx rest sp hr hsp
      by_cases hu : u = t
      · subst hu; rw [setRpc_same] at hr; exact absurd hr (hx _ _ _ _)
      · rw [setRpc_other hu] at hr; exact h.fits u k mn mx rest sp hr hsp
    have moved : ∀ {pc : APc}, inSave pc = false → ∀ u, inSave ((f.core.goto t pc).th u).pc = false := by
      intro pc hpc u
      rw [goto_pc]; split
      · exact hpc
      · exact h.noSave u
    cases hstep with
    | reserve mn mx hr hpc => exact (no hpc rfl).elim
    | consumer hr hpc => exact (no hpc rfl).elim
    | store x r hr hN => exact (noP (Or.inl hr)).elim
    | storePanic x r hr hN => exact (noP (Or.inl hr)).elim
    | publish x r next hr hn hok hp => exact (noP (Or.inr hr)).elim
    | retry x r hr hok hp => exact (noP (Or.inr hr)).elim
    | publishPanic x r e hr hp => exact (noP (Or.inr hr)).elim
    | enterPeek k sp hr hpc hsp => exact ⟨hi', h.noSave, keep (by simp)⟩
    | peekPanic k hh e hr hp => exact ⟨hi', h.noSave, keep (by simp)⟩
    | readPanic k mn mx j fd rest e hr hp => exact ⟨hi', h.noSave, keep (by simp)⟩
    | peekErr k hh e hr hp => exact ⟨hi', moved rfl, keep (by simp)⟩
    | readDone k mn mx hr => exact ⟨hi', moved rfl, keep (by simp)⟩
    | core c hr hpc hc =>
      have hk := core_step hpc hc
      have hsv : c.saved = f.core.saved := by
        rcases hk.saved with e | ⟨hd, got, e, _⟩
        · exact e
        · exact (no e rfl).elim
      refine ⟨hi', ?_, ?_⟩
      · intro u
        by_cases hu : u = t
        · subst hu
          cases e : inSave (c.th u).pc with
          | false => rfl
          | true => exact (no rfl (hk.save e)).elim
        · show inSave (c.th u).pc = false
          rw [hk.others u hu]; exact h.noSave u
      · intro u k mn mx rest sp hr hsp
        have hsp' : c.saved[k]? = some sp := hsp
        rw [hsv] at hsp'
        show f.begun ≤ sp.head + c.size
        rw [hk.size]
        exact h.fits u k mn mx rest sp hr hsp'
    | peekOk k hh js hr hp =>
      refine ⟨hi', h.noSave, ?_⟩
      intro u k' mn mx rest sp' hr' hsp'
      by_cases hu : u = t
      · subst hu
        rw [setRpc_same] at hr'
        injection hr' with e1
        subst e1
        obtain ⟨_, sp, hsp, rfl⟩ := h.inv.peek u k hh hr
        have : sp' = sp := by
          have hsp'' : f.core.saved[k]? = some sp' := hsp'
          rw [hsp] at hsp''; injection hsp'' with e; exact e.symm
        subst this
        rw [peekIndices_eq h.inv.size h.inv.size32 (h.inv.heads k sp' hsp) (Nat.lt_of_le_of_lt h.inv.le h.inv.small)] at hp
        split at hp
        · cases hp
        · rename_i ho
          have := h.published
          show f.begun ≤ sp'.head + f.core.size
          omega
      · rw [setRpc_other hu] at hr'; exact h.fits u k' mn mx rest sp' hr' hsp'
    | read k mn mx j fd rest z hr hp =>
      refine ⟨hi', h.noSave, ?_⟩
      intro u k' mn' mx' rest' sp' hr' hsp'
      by_cases hu : u = t
      · subst hu
        rw [setRpc_same] at hr'
        injection hr' with e1
        subst e1
        exact h.fits u k mn mx _ sp' hr hsp'
      · rw [setRpc_other hu] at hr'; exact h.fits u k' mn' mx' rest' sp' hr' hsp'
  · refine ⟨hi', ?_, ?_⟩
    · intro u
      by_cases hu : u = a.tid
      · subst hu
        cases e : inSave (c.th a.tid).pc with
        | false => rfl
        | true => obtain ⟨t, e'⟩ := hc.save e; exact absurd e' (hs t)
      · show inSave (c.th u).pc = false
        rw [hc.others u hu]; exact h.noSave u
    · intro u k mn mx rest sp hr hsp
      have hsp' : c.saved[k]? = some sp := hsp
      rw [hc.saved] at hsp'
      show f.begun ≤ sp.head + c.size
      rw [hc.size]
      exact h.fits u k mn mx rest sp hr hsp'

theorem Still.sched : ∀ (as : List AAct) {f f' : AFine}, Still f → (∀ t, AAct.save t ∉ as) → f.sched as = some f' → f'.begun < 2 ^ 32 →
    Still f' := by
  intro as
  induction as with
  | nil => intro f f' h _ hs _; simp [AFine.sched] at hs; subst hs; exact h
  | cons a as ih =>
    intro f f' h hd hs hb
    obtain ⟨g, hg, hs'⟩ := fsched_cons hs
    exact ih (h.act hg (fun t e => hd t (by simp [e])) (Nat.lt_of_le_of_lt (begun_sched as g f' hs') hb)) (fun t e => hd t (by simp [e])) hs' hb

theorem neverOverrun_still {as : List AAct} {f f' : AFine} (h : Still f) (hd : ∀ t, AAct.save t ∉ as) (hs : f.sched as = some f')
    (hb : f'.begun < 2 ^ 32) : NeverOverrun f as := by
  rintro pre post g e hg t sp ⟨k, mn, mx, q, rest, hr, hsp⟩
  exact (Still.sched pre h (fun t hm => hd t (by rw [e]; simp [hm])) hg (Nat.lt_of_le_of_lt (begun_prefix e hs hg) hb)).fits t k mn mx _ sp hr hsp

theorem startedBy_no_delta : ∀ (as : List AAct) (A : List Nat), StartedBy A as → ∀ t k, AAct.delta t k ∉ as := by
  intro as
  induction as with
  | nil => intro A _ t k h; simp at h
  | cons a as ih =>
    intro A hs t k hm
    cases a with
    | call u c => exact ih A hs.2 t k (by simpa using hm)
    | step u i ok => exact ih A hs.2 t k (by simpa using hm)
    | sync u v => exact ih (u :: A) hs.2 t k (by simpa using hm)
    | save u => exact hs.elim
    | delta u k' => exact hs.elim

theorem skips_cons {a : AAct} {as' as} (h : Skips as' (a :: as)) (ha : ∀ t i ok, a ≠ .step t i ok) : ∃ bs, as' = a :: bs ∧ Skips bs as := by
  cases h with
  | keep _ h => exact ⟨_, rfl, h⟩
  | skip t i ok _ => exact absurd rfl (ha t i ok)

/-- C106. a measured pass with several threads (as `C88_pass_statistics`), the ring buffer's own steps interleaved in any way: nothing is
going on and thread `t` has seen all that happened (`f1`); `t` takes a save point (`f2`); `t`, the threads it starts, those they start and so
on allocate and free, interleaved in any way, and are done and joined (`f3`); `t` asks for the statistics since the save point (`f4`).  The
answer is: for each counter exactly what all the threads did between; the memory used now; a minimum and a maximum that enclose the memory
used at both ends, and that were really used at some time since the save point.  Nothing is asked of what the threads did before, except
that no earlier request was overrun. -/
theorem C106_pass_statistics (pr : Profile) (N : Nat) (hN : 0 < N) (hN32 : N < 2 ^ 32) (s0 : Stats) (h0 : ∀ c, s0 c < 2 ^ 64) {t : Nat}
    {pre save mid req : List AAct} {f1 f2 f3 f4 : AFine}
    (h1 : (AFine.init pr N s0).sched pre = some f1) (q1 : f1.core.Quiescent) (u1 : f1.core.UpToDate t)
    (hover : NeverOverrun (AFine.init pr N s0) pre)
    (h2 : f1.sched (.save t :: save) = some f2) (a2 : Alone t save) (i2 : (f2.core.th t).pc = .idle)
    (h3 : f2.sched mid = some f3) (a3 : StartedBy [t] mid) (q3 : f3.core.Quiescent) (u3 : f3.core.UpToDate t)
    (h4 : f3.sched (.delta t f1.core.saved.length :: req) = some f4) (a4 : Alone t req) (i4 : (f4.core.th t).pc = .idle)
    (hthreads : (∀ a ∈ pre, a.tid < N) ∧ t < N ∧ (∀ a ∈ mid, a.tid < N)) (hsaves : f4.begun < 2 ^ 32)
    (hroom : ∀ k ∈ deltaCtrs, (f1.core.loc k).last + ((callsIn mid).map (contribution k)).sum < 2 ^ 64) :
    ∃ used mn mx : Nat, f4.core.results = f1.core.results ++ [(f1.core.saved.length,
        .stats ((deltaCtrs.map fun k => ((callsIn mid).map (contribution k)).sum) ++ [used, mn, mx]))] ∧
      (used : Int) = ((f1.core.loc .currentUsedMemory).last + ((callsIn mid).map netBytes).sum) % (2 ^ 64 : Int) ∧
      (mn ≤ (f1.core.loc .currentUsedMemory).last ∧ mn ≤ used) ∧ ((f1.core.loc .currentUsedMemory).last ≤ mx ∧ used ≤ mx) ∧
      (f4.core.loc .currentUsedMemory).HadSince (f1.core.loc .currentUsedMemory).top mn ∧
      (f4.core.loc .currentUsedMemory).HadSince (f1.core.loc .currentUsedMemory).top mx ∧
      f4.core.Quiescent ∧ f4.core.UpToDate t := by
  have b3 : f3.begun < 2 ^ 32 := Nat.lt_of_le_of_lt (begun_sched _ f3 f4 h4) hsaves
  have b2 : f2.begun < 2 ^ 32 := Nat.lt_of_le_of_lt (begun_sched _ f2 f3 h3) b3
  have b1 : f1.begun < 2 ^ 32 := Nat.lt_of_le_of_lt (begun_sched _ f1 f2 h2) b2
  have al : ∀ {as : List AAct}, Alone t as → ∀ a ∈ as, a.tid = t := by
    intro as ha a hm; obtain ⟨i, ok, rfl⟩ := ha a hm; rfl
  -- before
  obtain ⟨L1, P1, pre', m1, k1, r1, bl1⟩ := fsim_sched pre (fsim_init hN hN32 s0) (fun _ _ => rfl) hthreads.1 hover h1 b1
  rw [over_init] at r1
  have z1 : f1.core.size = N := size_fsched pre h1
  have S1 := sameStatistics m1
  -- the save point
  have d1 : ∀ u, inDelta (f1.core.th u).pc = false := fun u => by rw [q1 u]; rfl
  have nd2 : ∀ v k, AAct.delta v k ∉ AAct.save t :: save := by
    intro v k hm
    rcases List.mem_cons.1 hm with e | hm
    · cases e
    · obtain ⟨i, ok, e⟩ := a2 _ hm; cases e
  have o2 : NeverOverrun f1 (.save t :: save) := neverOverrun_noDelta m1.inv d1 nd2 h2 b2
  obtain ⟨L2, P2, save', m2, k2, r2, bl2⟩ := fsim_sched (.save t :: save) m1 bl1 (by
    intro a hm
    rw [z1]
    rcases List.mem_cons.1 hm with rfl | hm
    · exact hthreads.2.1
    · rw [al a2 a hm]; exact hthreads.2.1) o2 h2 b2
  obtain ⟨save2, rfl, k2'⟩ := skips_cons k2 (by simp)
  have S2 := sameStatistics m2
  have z2 : f2.core.size = N := (size_fsched _ h2).trans z1
  -- the threads
  have d2 := (noDelta_sched (.save t :: save) m1.inv d1 nd2 h2 b2).2
  have o3 : NeverOverrun f2 mid := neverOverrun_noDelta m2.inv d2 (startedBy_no_delta mid [t] a3) h3 b3
  obtain ⟨L3, P3, mid', m3, k3, r3, bl3⟩ := fsim_sched mid m2 bl2 (by intro a hm; rw [z2]; exact hthreads.2.2 a hm) o3 h3 b3
  have S3 := sameStatistics m3
  -- the request
  have st3 : Still f3 := by
    refine ⟨m3.inv, fun u => by rw [q3 u]; rfl, ?_⟩
    intro u k mn mx rest sp hr
    have := (m3.inv.reading u k mn mx rest hr).1
    rw [q3 u] at this; cases this
  have ns4 : ∀ v, AAct.save v ∉ AAct.delta t f1.core.saved.length :: req := by
    intro v hm
    rcases List.mem_cons.1 hm with e | hm
    · cases e
    · obtain ⟨i, ok, e⟩ := a4 _ hm; cases e
  have o4 : NeverOverrun f3 (.delta t f1.core.saved.length :: req) := neverOverrun_still st3 ns4 h4 hsaves
  have z3 : f3.core.size = N := (size_fsched _ h3).trans z2
  obtain ⟨L4, P4, req', m4, k4, r4, bl4⟩ := fsim_sched (.delta t f1.core.saved.length :: req) m3 bl3 (by
    intro a hm
    rw [z3]
    rcases List.mem_cons.1 hm with rfl | hm
    · exact hthreads.2.1
    · rw [al a4 a hm]; exact hthreads.2.1) o4 h4 hsaves
  obtain ⟨req2, rfl, k4'⟩ := skips_cons k4 (by simp)
  have S4 := sameStatistics m4
  obtain ⟨used, mn, mx, e1, e2, e3, e4, e5, e6, _, e8, e9⟩ := C88_pass_statistics pr N s0 h0 r1 (fun u => (S1.idle u).2 (q1 u)) u1
    r2 (k2'.alone a2) ((S2.idle t).2 i2) r3 (k3.startedBy a3) (fun u => (S3.idle u).2 (q3 u)) u3 r4 (k4'.alone a4) ((S4.idle t).2 i4)
    (by rw [k3.calls]; exact hroom)
  rw [k3.calls] at e1 e2
  exact ⟨used, mn, mx, e1, e2, e3, e4, e5, e6, fun u => (S4.idle u).1 (e8 u), e9⟩

/-! ## concrete executions -/

/-- steps of thread `t`, reading these positions -/
def readSteps (t : Nat) (is : List Nat) : List AAct := is.map fun i => .step t i true

/-- thread 1 alone takes its save point: in the ring buffer it reserves, stores and publishes -/
def exFineSave : List AAct := readSteps 1 ([0, 0] ++ [0, 0, 0] ++ [0, 0, 0, 0, 0] ++ [0, 0, 0, 0, 0, 0, 0, 0, 0, 0, 1, 1] ++ [0])

/-- thread 1 alone asks for the statistics: in the ring buffer it loads `head` and `published_tail` and finds no slot -/
def exFineReq : List AAct := readSteps 1 ([0, 0, 0] ++ [1, 2] ++ [2, 1, 0, 0, 2, 1, 0, 0, 0] ++ [0, 3])

theorem fine_others {f f' : AFine} {a u} (h : f.act a = some f') (hu : u ≠ a.tid) : f'.core.th u = f.core.th u := by
  rcases act_cases h with ⟨t, i, ok, rfl, hs⟩ | ⟨_, c, hc, _, rfl⟩
  · have hu' : u ≠ t := hu
    cases hs with
    | core c hr hpc hc => exact (core_step hpc hc).others u hu'
    | consumer hr hpc => exact goto_other hu'
    | publish x r next hr hn hok hp => exact goto_other hu'
    | peekErr k h e hr hp => exact goto_other hu'
    | readDone k mn mx hr => exact goto_other hu'
    | _ => rfl
  · exact hc.others u hu

theorem untouched_fine {u : Nat} : ∀ (as : List AAct) {f f' : AFine}, (∀ a ∈ as, a.tid ≠ u) → f.sched as = some f' →
    f'.core.th u = f.core.th u := by
  intro as
  induction as with
  | nil => intro f f' _ h; simp [AFine.sched] at h; subst h; rfl
  | cons a as ih =>
    intro f f' ha h
    obtain ⟨g, hg, hs⟩ := fsched_cons h
    rw [ih (fun b hb => ha b (by simp [hb])) hs, fine_others hg (fun e => ha a (by simp) e.symm)]

theorem fsched_rest {f f' f'' : AFine} {as bs} (h : f.sched as = some f') (h' : f.sched (as ++ bs) = some f'') : f'.sched bs = some f'' := by
  obtain ⟨x, h1, h2⟩ := fsched_append.1 h'
  rw [h] at h1; injection h1 with h1; subst h1; exact h2

/-- the hypotheses of `C106_pass_statistics` are met by this pass (the work is that of `example_pass`), and this is what it gives -/
theorem example_fine_pass : ∃ f2 f3 f4, (AFine.init .checked 1024 (fun _ => 0)).sched (.save 1 :: exFineSave) = some f2 ∧
    f2.sched (exWork ++ [2].map (.sync 1)) = some f3 ∧ f3.sched (.delta 1 0 :: exFineReq) = some f4 ∧
    (AFine.init .checked 1024 (fun _ => 0)).core.Quiescent ∧ (AFine.init .checked 1024 (fun _ => 0)).core.UpToDate 1 ∧
    NeverOverrun (AFine.init .checked 1024 (fun _ => 0)) [] ∧
    Alone 1 exFineSave ∧ StartedBy [1] (exWork ++ [2].map (.sync 1)) ∧ Alone 1 exFineReq ∧
    (f2.core.th 1).pc = .idle ∧ f3.core.Quiescent ∧ f3.core.UpToDate 1 ∧ (f4.core.th 1).pc = .idle ∧
    (∀ a ∈ exWork ++ [2].map (.sync 1), a.tid < 1024) ∧ f4.begun = 1 ∧
    f4.core.results = [(0, .stats [2, 1, 0, 0, 150, 100, 0, 0, 0, 50, 0, 150])] := by
  have e4 : ((AFine.init .checked 1024 (fun _ => 0)).sched (((.save 1 :: exFineSave) ++ (exWork ++ [2].map (.sync 1))) ++
      (.delta 1 0 :: exFineReq))).map (fun f => ((f.core.th 1).pc, f.core.results, f.begun)) =
      some (.idle, [(0, .stats [2, 1, 0, 0, 150, 100, 0, 0, 0, 50, 0, 150])], 1) := by decide +kernel
  have e3 : ((AFine.init .checked 1024 (fun _ => 0)).sched ((.save 1 :: exFineSave) ++ (exWork ++ [2].map (.sync 1)))).map
      (fun f => ((f.core.th 1).pc, (f.core.th 2).pc, allCtrs.map fun c => decide ((f.core.th 1).view c = (f.core.loc c).top))) =
      some (.idle, .idle, allCtrs.map fun _ => true) := by decide +kernel
  have e2 : ((AFine.init .checked 1024 (fun _ => 0)).sched (.save 1 :: exFineSave)).map (fun f => (f.core.th 1).pc) = some .idle := by
    decide +kernel
  obtain ⟨f4, h4, g4⟩ := Option.map_eq_some_iff.1 e4
  obtain ⟨f3, h3, g3⟩ := Option.map_eq_some_iff.1 e3
  obtain ⟨f2, h2, g2⟩ := Option.map_eq_some_iff.1 e2
  simp only [Prod.mk.injEq] at g4 g3
  have a1 : ∀ as : List Nat, Alone 1 (readSteps 1 as) := by
    intro as a ha; obtain ⟨i, _, rfl⟩ := List.mem_map.1 ha; exact ⟨i, true, rfl⟩
  refine ⟨f2, f3, f4, h2, fsched_rest h2 h3, fsched_rest h3 h4, fun _ => rfl, fun _ => rfl, ?_, a1 _, by decide, a1 _, g2, ?_, ?_, g4.1,
    by decide, g4.2.2, g4.2.1⟩
  · intro pre post g e hg t sp hr
    obtain ⟨k, mn, mx, q, rest, hr, _⟩ := hr
    obtain ⟨rfl, _⟩ := List.append_eq_nil_iff.1 e.symm
    simp [AFine.sched] at hg; subst hg; cases hr
  · intro u
    by_cases h1 : u = 1
    · subst h1; exact g3.1
    · by_cases h2 : u = 2
      · subst h2; exact g3.2.1
      · rw [untouched_fine (u := u) _ (fun a ha e => ((show ∀ a ∈ (.save 1 :: exFineSave) ++ (exWork ++ [2].map (.sync 1)),
          AAct.tid a = 1 ∨ AAct.tid a = 2 by decide) a ha).elim (fun h => h1 (e.symm.trans h)) (fun h => h2 (e.symm.trans h))) h3]
        rfl
  · intro c
    have := List.map_inj_left.1 g3.2.2 c (by cases c <;> decide)
    simpa using this

/-- thread 0 takes a save point; thread 1 allocates 100 bytes, frees them and takes two save points; thread 0 asks for the statistics and
loads `head` and `published_tail`; thread 1 starts a further save point and stores its slot; thread 0 reads the slots and completes its
request -/
def exOverrun : List AAct :=
  [.save 0] ++ readSteps 0 [0, 0, 0, 0, 0, 0, 0, 0, 0, 0, 0, 0, 0, 0, 0, 0, 0, 0, 0, 0, 1, 1, 0] ++
  [.call 1 (.alloc 100 true)] ++ readSteps 1 [0, 0, 0, 1, 1, 1, 0] ++
  [.call 1 (.dealloc 100)] ++ readSteps 1 [0, 0, 0, 2, 1, 2] ++
  [.save 1] ++ readSteps 1 [1, 2, 0, 0, 0, 0, 2, 0, 2, 0, 1, 1, 0, 0, 1, 1, 0, 0, 0, 2, 2, 3, 0] ++
  [.save 1] ++ readSteps 1 [2, 3, 0, 0, 0, 0, 2, 0, 2, 0, 1, 1, 0, 0, 1, 1, 0, 0, 0, 2, 3, 4, 0] ++
  [.delta 0 0] ++ readSteps 0 [0, 0] ++
  [.save 1] ++ readSteps 1 [3, 4, 0, 0] ++
  readSteps 0 [0, 0, 0, 0, 0, 3, 4, 1, 1, 0, 0, 1, 1, 0, 0, 0, 0, 2]

/-- C106. the hypothesis of `C106_refines` is needed: with a ring of two slots and two threads, thread 1 storing a slot while thread 0 reads
them, thread 0's request is answered (no overflow is reported) with a maximum of 0 bytes although 100 bytes were in use after its save
point -/
theorem C106_overrun : ∃ f : AFine, (AFine.init .checked 2 (fun _ => 0)).sched exOverrun = some f ∧ (∀ a ∈ exOverrun, a.tid < 2) ∧
    f.begun = 4 ∧ f.core.results = [(0, .stats [1, 1, 0, 0, 100, 100, 0, 0, 0, 0, 0, 0])] ∧
    (f.core.loc .currentUsedMemory).HadSince 0 100 := by
  have e : ((AFine.init .checked 2 (fun _ => 0)).sched exOverrun).map (fun f => (f.begun, f.core.results,
      (f.core.loc .currentUsedMemory).top, (f.core.loc .currentUsedMemory).val 1)) =
      some (4, [(0, .stats [1, 1, 0, 0, 100, 100, 0, 0, 0, 0, 0, 0])], 2, 100) := by decide +kernel
  obtain ⟨f, hf, g⟩ := Option.map_eq_some_iff.1 e
  simp only [Prod.mk.injEq] at g
  exact ⟨f, hf, by decide, g.1, g.2.1, ⟨1, by omega, by omega, g.2.2.2⟩⟩

theorem neverOverrun_of_few {f f' : AFine} {as} (h : f.sched as = some f') (hb : f'.begun ≤ f.core.size) : NeverOverrun f as := by
  intro pre post g e hg t sp _
  have := begun_prefix e h hg
  have := size_fsched pre hg
  omega

/-- the hypotheses of `C106_refines`, `C106_no_panic` and `C106_some_can_finish` are met by the same execution with a ring of four slots, and
there the request is answered with a maximum of 100 bytes -/
theorem example_fine_refines : ∃ f : AFine, (AFine.init .checked 4 (fun _ => 0)).sched exOverrun = some f ∧ (∀ a ∈ exOverrun, a.tid < 4) ∧
    f.begun < 2 ^ 32 ∧ NeverOverrun (AFine.init .checked 4 (fun _ => 0)) exOverrun ∧ f.Enqueues 1 3 ∧
    f.core.results = [(0, .stats [1, 1, 0, 0, 100, 100, 0, 0, 0, 0, 0, 100])] := by
  have e : ((AFine.init .checked 4 (fun _ => 0)).sched exOverrun).map (fun f => (f.begun, f.core.results, f.rpc 1)) =
      some (4, [(0, .stats [1, 1, 0, 0, 100, 100, 0, 0, 0, 0, 0, 100])], .written ⟨0, 0⟩ 3) := by decide +kernel
  obtain ⟨f, hf, g⟩ := Option.map_eq_some_iff.1 e
  simp only [Prod.mk.injEq] at g
  exact ⟨f, hf, by decide, by omega, neverOverrun_of_few hf (by show f.begun ≤ 4; omega), ⟨_, Or.inr g.2.2⟩, g.2.1⟩

/-- the hypotheses of `C106_waits` are met: threads 0 and 1 reserve, then only thread 1 runs: it stores its slot and spins -/
theorem example_fine_waits : ∃ f f' : AFine, (AFine.init .checked 4 (fun _ => 0)).sched ([.save 0] ++ readSteps 0 [0, 0, 0] ++ [.save 1] ++
      readSteps 1 [0, 0, 0]) = some f ∧ f.Enqueues 0 0 ∧ f.Enqueues 1 1 ∧
    f.sched [.step 1 0 true, .step 1 0 false, .step 1 0 false] = some f' ∧ f'.begun < 2 ^ 32 := by
  have e' : ((AFine.init .checked 4 (fun _ => 0)).sched (([.save 0] ++ readSteps 0 [0, 0, 0] ++ [.save 1] ++ readSteps 1 [0, 0, 0]) ++
      [.step 1 0 true, .step 1 0 false, .step 1 0 false])).map (fun f => f.begun) = some 2 := by decide +kernel
  have e : ((AFine.init .checked 4 (fun _ => 0)).sched ([.save 0] ++ readSteps 0 [0, 0, 0] ++ [.save 1] ++ readSteps 1 [0, 0, 0])).map
      (fun f => (f.rpc 0, f.rpc 1)) = some (.reserved ⟨0, 0⟩ 0, .reserved ⟨0, 0⟩ 1) := by decide +kernel
  obtain ⟨f', hf', g'⟩ := Option.map_eq_some_iff.1 e'
  obtain ⟨f, hf, g⟩ := Option.map_eq_some_iff.1 e
  simp only [Prod.mk.injEq] at g
  exact ⟨f, f', hf, ⟨_, Or.inl g.1⟩, ⟨_, Or.inl g.2⟩, fsched_rest hf hf', by omega⟩

end BigO
