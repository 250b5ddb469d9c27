import Verif.Spec.MeteredSpec
import Verif.Props.WholeTest
import Verif.Props.EndToEnd
import Verif.Props.Local

/-!
# From heap calls and clock readings to the outcome of whole tests, when the closures behave at all times
-/
namespace BigO

theorem foldr_max_isMax : ∀ l : List ℕ, l ≠ [] → IsMaxOf (l.foldr max 0) l
  | [a], _ => ⟨by simp, by simp⟩
  | a :: b :: l, _ => by
    obtain ⟨h1, h2⟩ := foldr_max_isMax (b :: l) (by simp)
    show IsMaxOf (max a ((b :: l).foldr max 0)) _
    constructor
    · rcases max_choice a ((b :: l).foldr max 0) with h | h <;> rw [h]
      · simp
      · exact List.mem_cons_of_mem _ h1
    · intro x hx
      rcases List.mem_cons.1 hx with rfl | hx
      · exact le_max_left _ _
      · exact le_trans (h2 x hx) (le_max_right _ _)

/-- what is measured of a pass is the time it took, and bytes of live blocks: those live before and after it, and the
extremes; so the bytes it is found to use are those it needs. -/
theorem metered_pass {α : Type} {p : Profile} {N : Nat} (hN : 0 < N) (hN32 : N < 2 ^ 32) (before : List AllocEv) (d : Deed) (r : α)
    (h : OrdinaryDoing p N ⟨before, d⟩) :
    ∃ m, meter p N before (.ok (d, r)) = .ok (⟨d.time, m⟩, r) ∧ PlausibleReading m ∧ bytesUsed m = heapNeed before d.heap ∧
      m.usedBefore = (liveBlocks [] before).sum ∧ m.usedAfter = (liveBlocks [] (before ++ d.heap)).sum := by
  obtain ⟨m, e, h1, h2, h3, h4⟩ := C84_pass_reports_live_bytes hN hN32 before d.heap h.heap
  have hne : liveTrace (liveBlocks [] before) d.heap ≠ [] := List.ne_nil_of_mem h4.1
  obtain ⟨g1, g2⟩ := foldr_max_isMax _ hne
  have hmax : m.maxUsed = (liveTrace (liveBlocks [] before) d.heap).foldr max 0 := le_antisymm (g2 _ h4.1) (h4.2 _ g1)
  have hhead : (liveBlocks [] before).sum ∈ liveTrace (liveBlocks [] before) d.heap := liveTrace_head _ _
  have hlast : ∀ (live : List ℕ) (es : List AllocEv), (liveBlocks live es).sum ∈ liveTrace live es := by
    intro live es
    induction es generalizing live with
    | nil => simp [liveTrace, liveBlocks]
    | cons x xs ih => cases x <;> exact List.mem_cons_of_mem _ (ih _)
  refine ⟨m, by simp only [meter]; rw [e], ⟨?_, ?_, ?_, h.fewBytes _ h4.1⟩, ?_, h1, h2⟩
  · rw [h1]; exact h3.2 _ hhead
  · rw [h1]; exact h4.2 _ hhead
  · rw [h2, liveBlocks_append]; exact h4.2 _ (hlast _ _)
  · unfold bytesUsed heapNeed; rw [hmax, h1]

theorem meter_inv {α : Type} {p : Profile} {N : Nat} (hN : 0 < N) (hN32 : N < 2 ^ 32) {before : List AllocEv} {did : Rs (Deed × α)}
    (ho : ∀ d r, did = .ok (d, r) → OrdinaryDoing p N ⟨before, d⟩) {m : PassResult} {r : α} (h : meter p N before did = .ok (m, r)) :
    ∃ d, did = .ok (d, r) ∧ OrdinaryDoing p N ⟨before, d⟩ ∧ m.time = d.time ∧ PlausibleReading m.space ∧ bytesUsed m.space = heapNeed before d.heap := by
  cases hd : did with
  | error e => rw [hd] at h; cases h
  | ok x =>
    obtain ⟨d, r'⟩ := x
    have hod := ho d r' hd
    obtain ⟨sp, e, h1, h2, -⟩ := metered_pass hN hN32 before d r' hod
    rw [hd, e] at h
    cases h
    exact ⟨d, rfl, hod, rfl, h1, h2⟩

/-- what was measured of a pass is what it did -/
structure Told (p : Profile) (N : Nat) (x : Doing) (m : PassResult) : Prop where
  ordinary : OrdinaryDoing p N x
  time : m.time = x.deed.time
  plausible : PlausibleReading m.space
  bytes : bytesUsed m.space = heapNeed x.before x.deed.heap

section pair
variable {p : Profile} {N : Nat} {x1 x2 : Doing} {m1 m2 : PassResult}

theorem told_comparable (h1 : Told p N x1 m1) (h2 : Told p N x2 m2) (hn : x1.Noticeable) : Comparable m1 m2 where
  time1 := by rw [h1.time]; exact hn.1
  plausible1 := by rw [h1.time]; exact h1.ordinary.clock
  plausible2 := by rw [h2.time]; exact h2.ordinary.clock
  space1 := by have := hn.2; rw [← h1.bytes] at this; unfold bytesUsed at this; omega
  space2 := h2.plausible.before_le
  fits1 := by have := h1.plausible.small; unfold usizeMax; omega
  fits2 := by have := h2.plausible.small; unfold usizeMax; omega

theorem told_conforms (h1 : Told p N x1 m1) (h2 : Told p N x2 m2) (tol f : ℝ) (n1 n2 : ℕ) (tmax smax : Option Complexity) :
    Conforms tol f n1 n2 tmax smax m1 m2 ↔ DoConform tol f n1 n2 tmax smax x1 x2 := by
  constructor
  · rintro ⟨a, b⟩
    rw [h1.time, h2.time] at a
    rw [h1.bytes, h2.bytes] at b
    exact ⟨a, b⟩
  · rintro ⟨a, b⟩
    rw [← h1.time, ← h2.time] at a
    rw [← h1.bytes, ← h2.bytes] at b
    exact ⟨a, b⟩

theorem told_resizing (h1 : Told p N x1 m1) (h2 : Told p N x2 m2) (tol f : ℝ) (n : ℕ) (tmax smax : Complexity) :
    ConformsResizing tol f n tmax smax m1 m2 ↔ DoConformResizing tol f n tmax smax x1 x2 := by
  constructor
  · rintro ⟨a, b⟩
    rw [h1.time, h2.time] at a
    rw [h1.bytes, h2.bytes] at b
    exact ⟨a, b⟩
  · rintro ⟨a, b⟩
    rw [← h1.time, ← h2.time] at a
    rw [← h1.bytes, ← h2.bytes] at b
    exact ⟨a, b⟩

theorem told_op (h1 : Told p N x1 m1) (h2 : Told p N x2 m2) (tol f : ℝ) (cfg : CrudCfg) (op : Op) :
    OpConforms tol f cfg op m1 m2 ↔ OpDoConform tol f cfg op x1 x2 := by
  cases op
  · exact told_resizing h1 h2 ..
  · exact told_conforms h1 h2 ..
  · exact told_conforms h1 h2 ..
  · exact told_resizing h1 h2 ..

end pair

/-! ## regular algorithms -/

section regular
variable {log2 : F → F} {powi : F → ℕ → F} {powf : F → F → F} (H : AccurateLibrary log2 powi) {tol : ℝ}
  (ht : tol = 1 / 10 ∨ tol = 1 / 4) {N : Nat} (hN : 0 < N) (hN32 : N < 2 ^ 32)
  (env : RegEnv) (hE : env.f64 = shippedEnv log2 powi powf tol) (before : List RegEv → List AllocEv)
  (doing : List RegEv → RegCall → Rs (Deed × Nat)) (hrun : ∀ h c, env.run h c = meter env.profile N (before h) (doing h c))
  (hord : ∀ h c d r, doing h c = .ok (d, r) → OrdinaryDoing env.profile N ⟨before h, d⟩) (cfg : RegCfg)
  (hn : SaneSizes cfg.n1 cfg.n2) (hl : LimitCovered powf cfg.n1 cfg.n2 (some cfg.tmax)) (hs : LimitCovered powf cfg.n1 cfg.n2 (some cfg.smax))

include hN hN32 hrun hord in
theorem reg_told {h : List RegEv} {c : RegCall} {x : PassResult × Nat} (e : env.run h c = .ok x) :
    ∃ d, doing h c = .ok (d, x.2) ∧ Told env.profile N ⟨before h, d⟩ x.1 := by
  rw [hrun] at e
  obtain ⟨d, e1, e2, e3, e4, e5⟩ := meter_inv hN hN32 (hord h c) e
  exact ⟨d, e1, e2, e3, e4, e5⟩

include H ht hN hN32 hE hrun hord hn hl hs

/-- (regular algorithms, accepted): if the closures never panic, and the times they take and the bytes they need in any two passes
conform to the limits with a margin of one part in 2^40, then the test succeeds after one round, whatever else the process does with
the heap. -/
theorem metered_regular_accepts (t : List RegEv) (hn32 : cfg.n2 < 2 ^ 32) (hok : ∀ h c, ∃ d r, doing h c = .ok (d, r))
    (hgood : ∀ h1 h2 d1 d2 r1 r2, doing h1 .pass1 = .ok (d1, r1) → doing h2 .pass2 = .ok (d2, r2) → Doing.Noticeable ⟨before h1, d1⟩ ∧
      DoConform tol abitMore cfg.n1 cfg.n2 (some cfg.tmax) (some cfg.smax) ⟨before h1, d1⟩ ⟨before h2, d2⟩) :
    (testAlgorithm env cfg t).1 = .ok () ∧
      ∃ (a : Attempt) (ext : List RegEv), (testAlgorithm env cfg t).2 = t ++ ext ∧ regCallsOf ext = a.calls := by
  refine C85_regular_accepts H ht env hE cfg hn hl hs t ?_ hn32 ?_
  · intro h c
    obtain ⟨d, r, hd⟩ := hok h c
    obtain ⟨m, e, h1, -⟩ := metered_pass hN hN32 (before h) d r (hord h c d r hd)
    exact ⟨_, r, by rw [hrun, hd, e], h1, (hord h c d r hd).clock⟩
  · intro h1 h2 x1 x2 e1 e2
    obtain ⟨d1, q1, t1⟩ := reg_told hN hN32 env before doing hrun hord e1
    obtain ⟨d2, q2, t2⟩ := reg_told hN hN32 env before doing hrun hord e2
    obtain ⟨g1, g2⟩ := hgood _ _ _ _ _ _ q1 q2
    exact ⟨told_comparable t1 t2 g1, (told_conforms t1 t2 ..).2 g2⟩

/-- (regular algorithms, rejected): if the times taken and the bytes needed in two passes never conform to the limits, not even if
one part in 2^40 is forgiven, then the test fails, whatever happens and however often it retries. -/
theorem metered_regular_rejects (t : List RegEv)
    (hbad : ∀ h1 h2 d1 d2 r1 r2, doing h1 .pass1 = .ok (d1, r1) → doing h2 .pass2 = .ok (d2, r2) → Doing.Noticeable ⟨before h1, d1⟩ ∧
      ¬ DoConform tol abitLess cfg.n1 cfg.n2 (some cfg.tmax) (some cfg.smax) ⟨before h1, d1⟩ ⟨before h2, d2⟩) :
    ∃ e, (testAlgorithm env cfg t).1 = .error e := by
  refine C85_regular_rejects H ht env hE cfg hn hl hs t ?_
  intro h1 h2 x1 x2 e1 e2
  obtain ⟨d1, q1, t1⟩ := reg_told hN hN32 env before doing hrun hord e1
  obtain ⟨d2, q2, t2⟩ := reg_told hN hN32 env before doing hrun hord e2
  obtain ⟨g1, g2⟩ := hbad _ _ _ _ _ _ q1 q2
  exact ⟨told_comparable t1 t2 g1, fun h => g2 ((told_conforms t1 t2 ..).1 h)⟩

/-- (regular algorithms, soundness): if the test succeeds, then there were two passes whose times and bytes conform to the limits
(up to one part in 2^40), provided the first one took some time and some bytes. -/
theorem metered_regular_sound (t : List RegEv) (h : (testAlgorithm env cfg t).1 = .ok ()) :
    ∃ h1 h2 d1 d2 r1 r2, doing h1 .pass1 = .ok (d1, r1) ∧ doing h2 .pass2 = .ok (d2, r2) ∧
      (Doing.Noticeable ⟨before h1, d1⟩ →
        DoConform tol abitLess cfg.n1 cfg.n2 (some cfg.tmax) (some cfg.smax) ⟨before h1, d1⟩ ⟨before h2, d2⟩) := by
  obtain ⟨as, last, ext, h1, hsrc, h4, h5, h6⟩ := test_history (env := env) cfg t
  rcases h6 with ⟨-, -, a, rfl, -, hw⟩ | ⟨-, ⟨m, hm⟩, -⟩ | ⟨-, -, m, hm⟩ | ⟨-, -, e, he⟩
  · have hsub : ∀ ev ∈ a.calls, ev ∈ ext := by
      intro ev hev
      have : ev ∈ regCallsOf ext := by rw [h4]; exact List.mem_append_right _ hev
      exact (List.mem_filter.1 this).1
    obtain ⟨g1, r1, e1⟩ := hsrc.2 .pass1 a.m1 (hsub _ (by simp [Attempt.calls]))
    obtain ⟨g2, r2, e2⟩ := hsrc.2 .pass2 a.m2 (hsub _ (by simp [Attempt.calls]))
    obtain ⟨d1, q1, t1⟩ := reg_told hN hN32 env before doing hrun hord e1
    obtain ⟨d2, q2, t2⟩ := reg_told hN hN32 env before doing hrun hord e2
    refine ⟨g1, g2, d1, d2, _, _, q1, q2, fun hno => ?_⟩
    exact (told_conforms t1 t2 ..).1 (within_conforms H ht env hE cfg hn hl hs (told_comparable t1 t2 hno) hw)
  · rw [h] at hm; cases hm
  · rw [h] at hm; cases hm
  · rw [h] at he; cases he

end regular

/-! ## asynchronous algorithms -/

section async
variable {D B : Type} {log2 : F → F} {powi : F → ℕ → F} {powf : F → F → F} (H : AccurateLibrary log2 powi) {tol : ℝ}
  (ht : tol = 1 / 10 ∨ tol = 1 / 4) {N : Nat} (hN : 0 < N) (hN32 : N < 2 ^ 32)
  (env : AEnv) (hE : env.f64 = shippedEnv log2 powi powf tol) (before : List (AEv D) → List AllocEv)
  (doing : AStep → List (AEv D) → Option D → Rs (Deed × D)) (b : Builder D B)
  (hrun : ∀ s f, b.fn s = some f → ∀ h i, f h i = meter env.profile N (before h) (doing s h i))
  (hord : ∀ s h i d r, doing s h i = .ok (d, r) → OrdinaryDoing env.profile N ⟨before h, d⟩)
  (hn : SaneSizes b.n1 b.n2) (hl : LimitCovered powf b.n1 b.n2 b.tmax) (hs : LimitCovered powf b.n1 b.n2 b.smax)

include hN hN32 hrun hord in
theorem async_told {s : AStep} {f : AFn D} (hf : b.fn s = some f) {h : List (AEv D)} {i : Option D} {x : PassResult × D} (e : f h i = .ok x) :
    ∃ d, doing s h i = .ok (d, x.2) ∧ Told env.profile N ⟨before h, d⟩ x.1 := by
  rw [hrun s f hf] at e
  obtain ⟨d, e1, e2, e3, e4, e5⟩ := meter_inv hN hN32 (hord s h i) e
  exact ⟨d, e1, e2, e3, e4, e5⟩

include H ht hN hN32 hE hrun hord hn hl hs

/-- (asynchronous algorithms, accepted): if both passes are set, the closures never panic, the assertions hold, and the times taken
and bytes needed in any two passes conform to the limits with a margin of one part in 2^40, then the test succeeds after one attempt. -/
theorem metered_async_accepts (t : List (AEv D)) (hn32 : b.n2 < 2 ^ 32) (h1 : b.fn1.isSome) (h2 : b.fn2.isSome)
    (hok : ∀ s h i, ∃ d r, doing s h i = .ok (d, r)) (hchk : ∀ c, (b.check1 = some c ∨ b.check2 = some c) → ∀ h d, c h d = .ok ())
    (hgood : ∀ h1 h2 i1 i2 d1 d2 r1 r2, doing .pass1 h1 i1 = .ok (d1, r1) → doing .pass2 h2 i2 = .ok (d2, r2) →
      Doing.Noticeable ⟨before h1, d1⟩ ∧ DoConform tol abitMore b.n1 b.n2 b.tmax b.smax ⟨before h1, d1⟩ ⟨before h2, d2⟩) :
    (testAsync env b t).1 = .ok () ∧
      ∃ (a : ARound D) (ext : List (AEv D)), (testAsync env b t).2 = t ++ ext ∧ a.Follows b ∧ actsOf ext = a.acts := by
  have k1 := hn.1
  have k2 := hn.2.1
  refine C85_async_accepts H ht env hE b hn hl hs t ⟨?_, hchk, h1, h2, by omega, by omega⟩ ?_
  · intro f hf h i
    obtain ⟨s, hs⟩ : ∃ s, b.fn s = some f := by
      rcases hf with hf | hf | hf | hf
      · exact ⟨.reset, hf⟩
      · exact ⟨.warmup, hf⟩
      · exact ⟨.pass1, hf⟩
      · exact ⟨.pass2, hf⟩
    obtain ⟨d, r, hd⟩ := hok s h i
    obtain ⟨m, e, g1, -⟩ := metered_pass hN hN32 (before h) d r (hord s h i d r hd)
    exact ⟨_, r, by rw [hrun s f hs, hd, e], g1, (hord s h i d r hd).clock⟩
  · intro f1 f2 h1 h2 i1 i2 x1 x2 e1 e2 q1 q2
    obtain ⟨d1, p1, t1⟩ := async_told hN hN32 env before doing b hrun hord (s := .pass1) e1 q1
    obtain ⟨d2, p2, t2⟩ := async_told hN hN32 env before doing b hrun hord (s := .pass2) e2 q2
    obtain ⟨g1, g2⟩ := hgood _ _ _ _ _ _ _ _ p1 p2
    exact ⟨told_comparable t1 t2 g1, (told_conforms t1 t2 ..).2 g2⟩

/-- (asynchronous algorithms, rejected). -/
theorem metered_async_rejects (t : List (AEv D))
    (hbad : ∀ h1 h2 i1 i2 d1 d2 r1 r2, doing .pass1 h1 i1 = .ok (d1, r1) → doing .pass2 h2 i2 = .ok (d2, r2) →
      Doing.Noticeable ⟨before h1, d1⟩ ∧ ¬ DoConform tol abitLess b.n1 b.n2 b.tmax b.smax ⟨before h1, d1⟩ ⟨before h2, d2⟩) :
    ∃ e, (testAsync env b t).1 = .error e := by
  refine C85_async_rejects H ht env hE b hn hl hs t ?_
  intro f1 f2 h1 h2 i1 i2 x1 x2 e1 e2 q1 q2
  obtain ⟨d1, p1, t1⟩ := async_told hN hN32 env before doing b hrun hord (s := .pass1) e1 q1
  obtain ⟨d2, p2, t2⟩ := async_told hN hN32 env before doing b hrun hord (s := .pass2) e2 q2
  obtain ⟨g1, g2⟩ := hbad _ _ _ _ _ _ _ _ p1 p2
  exact ⟨told_comparable t1 t2 g1, fun h => g2 ((told_conforms t1 t2 ..).1 h)⟩

/-- (asynchronous algorithms, soundness). -/
theorem metered_async_sound (t : List (AEv D)) (h : (testAsync env b t).1 = .ok ()) :
    ∃ h1 h2 i1 i2 d1 d2 r1 r2, doing .pass1 h1 i1 = .ok (d1, r1) ∧ doing .pass2 h2 i2 = .ok (d2, r2) ∧
      (Doing.Noticeable ⟨before h1, d1⟩ →
        DoConform tol abitLess b.n1 b.n2 b.tmax b.smax ⟨before h1, d1⟩ ⟨before h2, d2⟩) := by
  obtain ⟨rounds, a, ext, g1, g2, g3, g4⟩ := C85_async_sound H ht env hE b hn hl hs t h
  have hsub : ∀ ev ∈ a.acts, ev ∈ ext := by
    intro ev hev
    have : ev ∈ actsOf ext := by rw [g2]; exact List.mem_append_right _ hev
    exact (List.mem_filter.1 this).1
  obtain ⟨f1, f2, y1, y2, i1, i2, d1, e1, e2, q1, q2⟩ := around_sourced g1 g3.1 hsub
  obtain ⟨d1, p1, t1⟩ := async_told hN hN32 env before doing b hrun hord (s := .pass1) e1 q1
  obtain ⟨d2, p2, t2⟩ := async_told hN hN32 env before doing b hrun hord (s := .pass2) e2 q2
  exact ⟨y1, y2, i1, i2, d1, d2, _, _, p1, p2, fun hno => (told_conforms t1 t2 ..).1 (g4 (told_comparable t1 t2 hno))⟩

end async

/-! ## CRUD algorithms -/

section crud
variable {log2 : F → F} {powi : F → ℕ → F} {powf : F → F → F} (H : AccurateLibrary log2 powi) {tol : ℝ}
  (ht : tol = 1 / 10 ∨ tol = 1 / 4) {N : Nat} (hN : 0 < N) (hN32 : N < 2 ^ 32)
  (env : CrudEnv) (hE : env.f64 = shippedEnv log2 powi powf tol) (before : List Ev → List AllocEv)
  (doing : List Ev → Phase → Op → Nat → Nat → Nat → Rs (Deed × Nat))
  (hrun : ∀ h ph op x y th, env.measure h ph op x y th = meter env.profile N (before h) (doing h ph op x y th))
  (hord : ∀ h ph op x y th d r, doing h ph op x y th = .ok (d, r) → OrdinaryDoing env.profile N ⟨before h, d⟩)

include hN hN32 hrun hord in
theorem crud_told {cfg : CrudCfg} {op : Op} {m1 m2 : PassResult} (h : CanMeasure env cfg op m1 m2) :
    ∃ x1 x2, CanDo (fun _ => True) before doing cfg op x1 x2 ∧ Told env.profile N x1 m1 ∧ Told env.profile N x2 m2 := by
  obtain ⟨⟨t1, r1, e1⟩, ⟨t2, r2, e2⟩⟩ := h
  rw [hrun] at e1 e2
  obtain ⟨d1, a1, a2, a3, a4, a5⟩ := meter_inv hN hN32 (fun d r => hord _ _ _ _ _ _ d r) e1
  obtain ⟨d2, b1, b2, b3, b4, b5⟩ := meter_inv hN hN32 (fun d r => hord _ _ _ _ _ _ d r) e2
  exact ⟨⟨before t1, d1⟩, ⟨before t2, d2⟩, ⟨⟨t1, r1, trivial, rfl, a1⟩, ⟨t2, r2, trivial, rfl, b1⟩⟩, ⟨a2, a3, a4, a5⟩, ⟨b2, b3, b4, b5⟩⟩

include H ht hN hN32 hE hrun hord

/-- (CRUD algorithms, accepted): if the closures never panic, and the times taken and the bytes needed in any two passes of every
requested operation conform to its limits with a margin of one part in 2^40, the first attempt succeeds. -/
theorem metered_crud_accepts (cfg : CrudCfg) (hf : Fits cfg) (hs : ∀ op, 0 < (cfg.op op).iters → SaneOp powf cfg op)
    (max : ℕ) (hmax : 1 ≤ max) (t : List Ev) (hreset : CalmReset env) (hok : ∀ h ph op x y th, ∃ d r, doing h ph op x y th = .ok (d, r))
    (hgood : ∀ op, 0 < (cfg.op op).iters → ∀ x1 x2, CanDo (fun _ => True) before doing cfg op x1 x2 → x1.Noticeable ∧ OpDoConform tol abitMore cfg op x1 x2) :
    (testCrud env cfg max t).1 = .ok () ∧ Accepted env cfg t 0 := by
  refine C85_crud_accepts H ht env hE cfg ⟨hreset, ?_⟩ hf hs max hmax t ?_
  · intro h ph op x y th
    obtain ⟨d, r, hd⟩ := hok h ph op x y th
    obtain ⟨m, e, g1, -⟩ := metered_pass hN hN32 (before h) d r (hord _ _ _ _ _ _ d r hd)
    exact ⟨_, r, by rw [hrun, hd, e], g1, (hord _ _ _ _ _ _ d r hd).clock⟩
  · intro op hi m1 m2 hm
    obtain ⟨x1, x2, hc, t1, t2⟩ := crud_told hN hN32 env before doing hrun hord hm
    obtain ⟨g1, g2⟩ := hgood op hi x1 x2 hc
    exact ⟨told_comparable t1 t2 g1, (told_op t1 t2 ..).2 g2⟩

/-- (CRUD algorithms, rejected): if the times taken and the bytes needed in two passes of an operation, with the requested element
counts or those of a retry, never conform to its limits, then the test fails however often it retries. -/
theorem metered_crud_rejects (cfg : CrudCfg) (hr : RoomForRetries cfg) (max : ℕ) (hmax : 1 ≤ max) (t : List Ev) (op : Op)
    (h30 : 30 ≤ (cfg.op op).iters) (hc30 : op = .read ∨ op = .update → 30 ≤ (cfg.op .create).iters ∧
      ∀ n, Covered powf n (2 * n) (cfg.op op).tmax ∧ Covered powf n (2 * n) (cfg.op op).smax)
    (hbad : ∀ cfg', RetryOf cfg cfg' → ∀ x1 x2, CanDo (fun _ => True) before doing cfg' op x1 x2 → x1.Noticeable ∧ ¬ OpDoConform tol abitLess cfg' op x1 x2) :
    (testCrud env cfg max t).1 ≠ .ok () := by
  refine C85_crud_rejects H ht env hE cfg hr max hmax t op h30 hc30 ?_
  intro cfg' hcfg m1 m2 hm
  obtain ⟨x1, x2, hc, t1, t2⟩ := crud_told hN hN32 env before doing hrun hord hm
  obtain ⟨g1, g2⟩ := hbad cfg' hcfg x1 x2 hc
  exact ⟨told_comparable t1 t2 g1, fun h => g2 ((told_op t1 t2 ..).1 h)⟩

/-- (CRUD algorithms, soundness): if the test succeeds, it made an attempt in which, for every operation, there were two passes
whose times and bytes conform to its limits (up to one part in 2^40), provided the first one took some time and some bytes. -/
theorem metered_crud_sound (cfg : CrudCfg) (hr : RoomForRetries cfg) (max : ℕ) (hmax : 1 ≤ max) (t : List Ev)
    (h : (testCrud env cfg max t).1 = .ok ()) :
    ∃ k cfg', k < max ∧ RetryOf cfg cfg' ∧ ∀ op, 0 < (cfg'.op op).iters → SaneOp powf cfg' op →
      ∃ x1 x2, CanDo (fun _ => True) before doing cfg' op x1 x2 ∧ (x1.Noticeable → OpDoConform tol abitLess cfg' op x1 x2) := by
  obtain ⟨k, cfg', t', hk, h1, -, h2⟩ := C85_crud_sound H ht env hE cfg hr max hmax t h
  refine ⟨k, cfg', hk, h1, fun op hi hs => ?_⟩
  obtain ⟨m1, m2, hm, hw⟩ := h2 op hi hs
  obtain ⟨x1, x2, hc, t1, t2⟩ := crud_told hN hN32 env before doing hrun hord hm.can
  exact ⟨x1, x2, hc, fun hno => (told_op t1 t2 ..).1 (hw (told_comparable t1 t2 hno))⟩

end crud

end BigO
