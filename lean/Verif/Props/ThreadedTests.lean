import Verif.Props.ThreadedPass
import Verif.Props.Metered

/-!
# C117: whole tests whose passes are of several threads, with the memory orderings written in the code

As C108, where every pass is a sequence of heap calls; only what happens in the run matters (C109).
-/
namespace BigO

/-- what was measured of a pass of several threads -/
structure TTold (p : Profile) (N : Nat) (x : TPass) (m : PassResult) : Prop where
  ordinary : OrdinaryTPass p N x
  time : m.time = x.time
  plausible : PlausibleReading m.space
  need : x.CouldNeed (bytesUsed m.space)

theorem meterThreads_ok {α : Type} {p : Profile} {N : Nat} (hN : 0 < N) (hN32 : N < 2 ^ 32) {x : TPass} (h : OrdinaryTPass p N x) (r : α) :
    ∃ m : PassResult, meterThreads (.ok (x, r)) = .ok (m, r) ∧ TTold p N x m := by
  obtain ⟨m, e, h1, -, -, -, -, h2⟩ := C117_pass hN hN32 x r h
  exact ⟨⟨x.time, m⟩, e, h, rfl, h1, h2⟩

theorem meterThreads_inv {α : Type} {p : Profile} {N : Nat} (hN : 0 < N) (hN32 : N < 2 ^ 32) {did : Rs (TPass × α)}
    (ho : ∀ x r, did = .ok (x, r) → OrdinaryTPass p N x) {m : PassResult} {r : α} (h : meterThreads did = .ok (m, r)) :
    ∃ x, did = .ok (x, r) ∧ TTold p N x m := by
  cases hd : did with
  | error e => rw [hd] at h; cases h
  | ok y =>
    obtain ⟨x, r'⟩ := y
    obtain ⟨m', e, t⟩ := meterThreads_ok hN hN32 (ho x r' hd) r'
    rw [hd, e] at h
    cases h
    exact ⟨x, rfl, t⟩

section pair
variable {p : Profile} {N : Nat} {x1 x2 : TPass} {m1 m2 : PassResult}

theorem ttold_comparable (h1 : TTold p N x1 m1) (h2 : TTold p N x2 m2) (hn : x1.Noticeable) : Comparable m1 m2 where
  time1 := by rw [h1.time]; exact hn.1
  plausible1 := by rw [h1.time]; exact h1.ordinary.clock
  plausible2 := by rw [h2.time]; exact h2.ordinary.clock
  space1 := by have := hn.2 _ h1.need; unfold bytesUsed at this; omega
  space2 := h2.plausible.before_le
  fits1 := by have := h1.plausible.small; unfold usizeMax; omega
  fits2 := by have := h2.plausible.small; unfold usizeMax; omega

theorem ttold_conforms (h1 : TTold p N x1 m1) (h2 : TTold p N x2 m2) (tol f : ℝ) (n1 n2 : ℕ) (tmax smax : Option Complexity) :
    Conforms tol f n1 n2 tmax smax m1 m2 ↔ TConform tol f n1 n2 tmax smax x1 x2 (bytesUsed m1.space) (bytesUsed m2.space) := by
  constructor
  · rintro ⟨a, b⟩
    rw [h1.time, h2.time] at a
    exact ⟨a, b⟩
  · rintro ⟨a, b⟩
    rw [← h1.time, ← h2.time] at a
    exact ⟨a, b⟩

theorem ttold_resizing (h1 : TTold p N x1 m1) (h2 : TTold p N x2 m2) (tol f : ℝ) (n : ℕ) (tmax smax : Complexity) :
    ConformsResizing tol f n tmax smax m1 m2 ↔ TConformResizing tol f n tmax smax x1 x2 (bytesUsed m1.space) (bytesUsed m2.space) := by
  constructor
  · rintro ⟨a, b⟩
    rw [h1.time, h2.time] at a
    exact ⟨a, b⟩
  · rintro ⟨a, b⟩
    rw [← h1.time, ← h2.time] at a
    exact ⟨a, b⟩

theorem ttold_op (h1 : TTold p N x1 m1) (h2 : TTold p N x2 m2) (tol f : ℝ) (cfg : CrudCfg) (op : Op) :
    OpConforms tol f cfg op m1 m2 ↔ OpTConform tol f cfg op x1 x2 (bytesUsed m1.space) (bytesUsed m2.space) := by
  cases op
  · exact ttold_resizing h1 h2 ..
  · exact ttold_conforms h1 h2 ..
  · exact ttold_conforms h1 h2 ..
  · exact ttold_resizing h1 h2 ..

end pair

/-! ## regular algorithms -/

section regular
variable {log2 : F → F} {powi : F → ℕ → F} {powf : F → F → F} (H : AccurateLibrary log2 powi) {tol : ℝ}
  (ht : tol = 1 / 10 ∨ tol = 1 / 4) {N : Nat} (hN : 0 < N) (hN32 : N < 2 ^ 32)
  (env : RegEnv) (hE : env.f64 = shippedEnv log2 powi powf tol) (doing : List RegEv → RegCall → Rs (TPass × Nat)) (cfg : RegCfg)
  (hn : SaneSizes cfg.n1 cfg.n2) (hl : LimitCovered powf cfg.n1 cfg.n2 (some cfg.tmax)) (hs : LimitCovered powf cfg.n1 cfg.n2 (some cfg.smax))
  (t : List RegEv) (hrun : ∀ h c, h <+: (testAlgorithm env cfg t).2 → env.run h c = meterThreads (doing h c))
  (hord : ∀ h c x r, h <+: (testAlgorithm env cfg t).2 → doing h c = .ok (x, r) → OrdinaryTPass env.profile N x)

include hN hN32 hrun hord in
theorem reg_ttold {h : List RegEv} {c : RegCall} {y : PassResult × Nat} (e : (env.clamp cfg t).run h c = .ok y) :
    ∃ x, doing (inRun (testAlgorithm env cfg t).2 t h) c = .ok (x, y.2) ∧ TTold env.profile N x y.1 := by
  have hp := inRun_prefix (reg_start env cfg t) h
  have e' : env.run (inRun (testAlgorithm env cfg t).2 t h) c = .ok (y.1, y.2) := e
  rw [hrun _ _ hp] at e'
  exact meterThreads_inv hN hN32 (fun x r => hord _ c x r hp) e'

include H ht hN hN32 hE hrun hord hn hl hs

/-- **C117** (regular algorithms, accepted): if the closures do not panic, and the times they take and all amounts of memory they could need
in any two passes conform to the limits with a margin of one part in 2^40, then the test succeeds after one round. -/
theorem C117_regular_accepts (hn32 : cfg.n2 < 2 ^ 32) (hok : ∀ h c, h <+: (testAlgorithm env cfg t).2 → ∃ x r, doing h c = .ok (x, r))
    (hgood : ∀ h1 h2 x1 x2 r1 r2, h1 <+: (testAlgorithm env cfg t).2 → h2 <+: (testAlgorithm env cfg t).2 →
      doing h1 .pass1 = .ok (x1, r1) → doing h2 .pass2 = .ok (x2, r2) → x1.Noticeable ∧ ∀ b1 b2, x1.CouldNeed b1 → x2.CouldNeed b2 →
      TConform tol abitMore cfg.n1 cfg.n2 (some cfg.tmax) (some cfg.smax) x1 x2 b1 b2) :
    (testAlgorithm env cfg t).1 = .ok () ∧
      ∃ (a : Attempt) (ext : List RegEv), (testAlgorithm env cfg t).2 = t ++ ext ∧ regCallsOf ext = a.calls := by
  have hp := inRun_prefix (reg_start env cfg t)
  have := C85_regular_accepts H ht (env.clamp cfg t) hE cfg hn hl hs t ?_ hn32 ?_
  · rw [clamp_regular] at this
    exact this
  · intro h c
    obtain ⟨x, r, hd⟩ := hok _ c (hp h)
    obtain ⟨m, e, tm⟩ := meterThreads_ok hN hN32 (hord _ c x r (hp h) hd) r
    exact ⟨m, r, (hrun _ c (hp h)).trans (by rw [hd, e]), tm.plausible, by rw [tm.time]; exact tm.ordinary.clock⟩
  · intro h1 h2 y1 y2 e1 e2
    obtain ⟨x1, q1, t1⟩ := reg_ttold hN hN32 env doing cfg t hrun hord e1
    obtain ⟨x2, q2, t2⟩ := reg_ttold hN hN32 env doing cfg t hrun hord e2
    obtain ⟨g1, g2⟩ := hgood _ _ _ _ _ _ (hp h1) (hp h2) q1 q2
    exact ⟨ttold_comparable t1 t2 g1, (ttold_conforms t1 t2 ..).2 (g2 _ _ t1.need t2.need)⟩

/-- **C117** (regular algorithms, rejected): if the times taken and the amounts of memory that could be needed in two passes never conform
to the limits, not even if one part in 2^40 is forgiven, then the test fails, whatever happens and however often it retries. -/
theorem C117_regular_rejects
    (hbad : ∀ h1 h2 x1 x2 r1 r2, h1 <+: (testAlgorithm env cfg t).2 → h2 <+: (testAlgorithm env cfg t).2 →
      doing h1 .pass1 = .ok (x1, r1) → doing h2 .pass2 = .ok (x2, r2) → x1.Noticeable ∧ ∀ b1 b2, x1.CouldNeed b1 → x2.CouldNeed b2 →
      ¬ TConform tol abitLess cfg.n1 cfg.n2 (some cfg.tmax) (some cfg.smax) x1 x2 b1 b2) :
    ∃ e, (testAlgorithm env cfg t).1 = .error e := by
  have hp := inRun_prefix (reg_start env cfg t)
  have := C85_regular_rejects H ht (env.clamp cfg t) hE cfg hn hl hs t ?_
  · rw [clamp_regular] at this
    exact this
  · intro h1 h2 y1 y2 e1 e2
    obtain ⟨x1, q1, t1⟩ := reg_ttold hN hN32 env doing cfg t hrun hord e1
    obtain ⟨x2, q2, t2⟩ := reg_ttold hN hN32 env doing cfg t hrun hord e2
    obtain ⟨g1, g2⟩ := hbad _ _ _ _ _ _ (hp h1) (hp h2) q1 q2
    exact ⟨ttold_comparable t1 t2 g1, fun h => g2 _ _ t1.need t2.need ((ttold_conforms t1 t2 ..).1 h)⟩

/-- **C117** (regular algorithms, soundness): if the test succeeds, then there were two passes in it whose times, and amounts of memory they
could have needed, conform to the limits (up to one part in 2^40), provided the first one took some time and some bytes. -/
theorem C117_regular_sound (h : (testAlgorithm env cfg t).1 = .ok ()) :
    ∃ h1 h2 x1 x2 r1 r2 b1 b2, h1 <+: (testAlgorithm env cfg t).2 ∧ h2 <+: (testAlgorithm env cfg t).2 ∧
      doing h1 .pass1 = .ok (x1, r1) ∧ doing h2 .pass2 = .ok (x2, r2) ∧ x1.CouldNeed b1 ∧ x2.CouldNeed b2 ∧
      (x1.Noticeable → TConform tol abitLess cfg.n1 cfg.n2 (some cfg.tmax) (some cfg.smax) x1 x2 b1 b2) := by
  have hp := inRun_prefix (reg_start env cfg t)
  obtain ⟨as, last, ext, h1, hsrc, h4, h5, h6⟩ := test_history (env := env.clamp cfg t) cfg t
  rw [← clamp_regular] at h
  rcases h6 with ⟨-, -, a, rfl, -, hw⟩ | ⟨-, ⟨m, hm⟩, -⟩ | ⟨-, -, m, hm⟩ | ⟨-, -, e, he⟩
  · have hsub : ∀ ev ∈ a.calls, ev ∈ ext := by
      intro ev hev
      have : ev ∈ regCallsOf ext := by rw [h4]; exact List.mem_append_right _ hev
      exact (List.mem_filter.1 this).1
    obtain ⟨g1, r1, e1⟩ := hsrc.2 .pass1 a.m1 (hsub _ (by simp [Attempt.calls]))
    obtain ⟨g2, r2, e2⟩ := hsrc.2 .pass2 a.m2 (hsub _ (by simp [Attempt.calls]))
    obtain ⟨x1, q1, t1⟩ := reg_ttold hN hN32 env doing cfg t hrun hord e1
    obtain ⟨x2, q2, t2⟩ := reg_ttold hN hN32 env doing cfg t hrun hord e2
    refine ⟨_, _, x1, x2, _, _, _, _, hp g1, hp g2, q1, q2, t1.need, t2.need, fun hno => ?_⟩
    exact (ttold_conforms t1 t2 ..).1 (within_conforms H ht (env.clamp cfg t) hE cfg hn hl hs (ttold_comparable t1 t2 hno) hw)
  · rw [h] at hm; cases hm
  · rw [h] at hm; cases hm
  · rw [h] at he; cases he

end regular

/-! ## asynchronous algorithms -/

section async
variable {D B : Type} {log2 : F → F} {powi : F → ℕ → F} {powf : F → F → F} (H : AccurateLibrary log2 powi) {tol : ℝ}
  (ht : tol = 1 / 10 ∨ tol = 1 / 4) {N : Nat} (hN : 0 < N) (hN32 : N < 2 ^ 32)
  (env : AEnv) (hE : env.f64 = shippedEnv log2 powi powf tol)
  (doing : AStep → List (AEv D) → Option D → Rs (TPass × D)) (b : Builder D B)
  (hn : SaneSizes b.n1 b.n2) (hl : LimitCovered powf b.n1 b.n2 b.tmax) (hs : LimitCovered powf b.n1 b.n2 b.smax)
  (t : List (AEv D))
  (hrun : ∀ s f, b.fn s = some f → ∀ h i, h <+: (testAsync env b t).2 → f h i = meterThreads (doing s h i))
  (hord : ∀ s h i x r, h <+: (testAsync env b t).2 → doing s h i = .ok (x, r) → OrdinaryTPass env.profile N x)

include hrun in
theorem tclamp_runs (s : AStep) (f : AFn D) (hf : (b.clamp env t).fn s = some f)
    (h : List (AEv D)) (i : Option D) : f h i = meterThreads (doing s (inRun (testAsync env b t).2 t h) i) := by
  have hp := inRun_prefix (async_start env b t) h
  rw [clamp_fn] at hf
  obtain ⟨g, hg, rfl⟩ := Option.map_eq_some_iff.1 hf
  exact hrun s g hg _ i hp

include hN hN32 hrun hord in
theorem async_ttold {s : AStep} {f : AFn D} (hf : (b.clamp env t).fn s = some f) {h : List (AEv D)} {i : Option D} {y : PassResult × D}
    (e : f h i = .ok y) : ∃ x, doing s (inRun (testAsync env b t).2 t h) i = .ok (x, y.2) ∧ TTold env.profile N x y.1 := by
  have hp := inRun_prefix (async_start env b t) h
  rw [tclamp_runs env doing b t hrun s f hf] at e
  exact meterThreads_inv hN hN32 (fun x r => hord s _ i x r hp) (show _ = Except.ok (y.1, y.2) from e)

include H ht hN hN32 hE hrun hord hn hl hs

/-- **C117** (asynchronous algorithms, accepted). -/
theorem C117_async_accepts (hn32 : b.n2 < 2 ^ 32) (h1 : b.fn1.isSome) (h2 : b.fn2.isSome)
    (hok : ∀ s h i, h <+: (testAsync env b t).2 → ∃ x r, doing s h i = .ok (x, r))
    (hchk : ∀ c, (b.check1 = some c ∨ b.check2 = some c) → ∀ h d, h <+: (testAsync env b t).2 → c h d = .ok ())
    (hgood : ∀ h1 h2 i1 i2 x1 x2 r1 r2, h1 <+: (testAsync env b t).2 → h2 <+: (testAsync env b t).2 →
      doing .pass1 h1 i1 = .ok (x1, r1) → doing .pass2 h2 i2 = .ok (x2, r2) → x1.Noticeable ∧ ∀ b1 b2, x1.CouldNeed b1 → x2.CouldNeed b2 →
      TConform tol abitMore b.n1 b.n2 b.tmax b.smax x1 x2 b1 b2) :
    (testAsync env b t).1 = .ok () ∧
      ∃ (a : ARound D) (ext : List (AEv D)), (testAsync env b t).2 = t ++ ext ∧ a.Follows b ∧ actsOf ext = a.acts := by
  have hp := inRun_prefix (async_start env b t)
  have k1 := hn.1
  have k2 := hn.2.1
  have h1' : (b.clamp env t).fn1.isSome := (Option.isSome_map ..).trans h1
  have h2' : (b.clamp env t).fn2.isSome := (Option.isSome_map ..).trans h2
  have n1' : 0 < (b.clamp env t).n1 ∧ (b.clamp env t).n1 < 2 ^ 32 := (⟨by omega, by omega⟩ : 0 < b.n1 ∧ b.n1 < 2 ^ 32)
  have n2' : 0 < (b.clamp env t).n2 ∧ (b.clamp env t).n2 < 2 ^ 32 := (⟨by omega, by omega⟩ : 0 < b.n2 ∧ b.n2 < 2 ^ 32)
  have key := C85_async_accepts H ht env hE (b.clamp env t) hn hl hs t ⟨?_, ?_, h1', h2', n1', n2'⟩ ?_
  · obtain ⟨g1, a, ext, g2, g3, g4⟩ := key
    rw [clamp_async] at g1 g2
    exact ⟨g1, a, ext, g2, clamp_follows env b t g3, g4⟩
  · intro f hf h i
    obtain ⟨s, hs⟩ : ∃ s, (b.clamp env t).fn s = some f := by
      rcases hf with hf | hf | hf | hf
      · exact ⟨.reset, hf⟩
      · exact ⟨.warmup, hf⟩
      · exact ⟨.pass1, hf⟩
      · exact ⟨.pass2, hf⟩
    obtain ⟨x, r, hd⟩ := hok s _ i (hp h)
    obtain ⟨m, e, tm⟩ := meterThreads_ok hN hN32 (hord s _ i x r (hp h) hd) r
    exact ⟨m, r, (tclamp_runs env doing b t hrun s f hs h i).trans (by rw [hd, e]), tm.plausible, by rw [tm.time]; exact tm.ordinary.clock⟩
  · intro c hc h d
    rcases hc with hc | hc
    · obtain ⟨c', hc', rfl⟩ := Option.map_eq_some_iff.1 hc
      exact hchk c' (Or.inl hc') _ d (hp h)
    · obtain ⟨c', hc', rfl⟩ := Option.map_eq_some_iff.1 hc
      exact hchk c' (Or.inr hc') _ d (hp h)
  · intro f1 f2 h1 h2 i1 i2 y1 y2 e1 e2 q1 q2
    obtain ⟨x1, p1, t1⟩ := async_ttold hN hN32 env doing b t hrun hord (s := .pass1) e1 q1
    obtain ⟨x2, p2, t2⟩ := async_ttold hN hN32 env doing b t hrun hord (s := .pass2) e2 q2
    obtain ⟨g1, g2⟩ := hgood _ _ _ _ _ _ _ _ (hp h1) (hp h2) p1 p2
    exact ⟨ttold_comparable t1 t2 g1, (ttold_conforms t1 t2 ..).2 (g2 _ _ t1.need t2.need)⟩

/-- **C117** (asynchronous algorithms, rejected). -/
theorem C117_async_rejects
    (hbad : ∀ h1 h2 i1 i2 x1 x2 r1 r2, h1 <+: (testAsync env b t).2 → h2 <+: (testAsync env b t).2 →
      doing .pass1 h1 i1 = .ok (x1, r1) → doing .pass2 h2 i2 = .ok (x2, r2) → x1.Noticeable ∧ ∀ b1 b2, x1.CouldNeed b1 → x2.CouldNeed b2 →
      ¬ TConform tol abitLess b.n1 b.n2 b.tmax b.smax x1 x2 b1 b2) :
    ∃ e, (testAsync env b t).1 = .error e := by
  have hp := inRun_prefix (async_start env b t)
  have := C85_async_rejects H ht env hE (b.clamp env t) hn hl hs t ?_
  · rw [clamp_async] at this
    exact this
  · intro f1 f2 h1 h2 i1 i2 y1 y2 e1 e2 q1 q2
    obtain ⟨x1, p1, t1⟩ := async_ttold hN hN32 env doing b t hrun hord (s := .pass1) e1 q1
    obtain ⟨x2, p2, t2⟩ := async_ttold hN hN32 env doing b t hrun hord (s := .pass2) e2 q2
    obtain ⟨g1, g2⟩ := hbad _ _ _ _ _ _ _ _ (hp h1) (hp h2) p1 p2
    exact ⟨ttold_comparable t1 t2 g1, fun h => g2 _ _ t1.need t2.need ((ttold_conforms t1 t2 ..).1 h)⟩

/-- **C117** (asynchronous algorithms, soundness). -/
theorem C117_async_sound (h : (testAsync env b t).1 = .ok ()) :
    ∃ h1 h2 i1 i2 x1 x2 r1 r2 b1 b2, h1 <+: (testAsync env b t).2 ∧ h2 <+: (testAsync env b t).2 ∧
      doing .pass1 h1 i1 = .ok (x1, r1) ∧ doing .pass2 h2 i2 = .ok (x2, r2) ∧ x1.CouldNeed b1 ∧ x2.CouldNeed b2 ∧
      (x1.Noticeable → TConform tol abitLess b.n1 b.n2 b.tmax b.smax x1 x2 b1 b2) := by
  have hp := inRun_prefix (async_start env b t)
  obtain ⟨rounds, a, ext, g1, g2, g3, g4⟩ := C85_async_sound H ht env hE (b.clamp env t) hn hl hs t (by rw [clamp_async]; exact h)
  have hsub : ∀ ev ∈ a.acts, ev ∈ ext := by
    intro ev hev
    have : ev ∈ actsOf ext := by rw [g2]; exact List.mem_append_right _ hev
    exact (List.mem_filter.1 this).1
  obtain ⟨f1, f2, y1, y2, i1, i2, d1, e1, e2, q1, q2⟩ := around_sourced g1 g3.1 hsub
  obtain ⟨x1, p1, t1⟩ := async_ttold hN hN32 env doing b t hrun hord (s := .pass1) e1 q1
  obtain ⟨x2, p2, t2⟩ := async_ttold hN hN32 env doing b t hrun hord (s := .pass2) e2 q2
  exact ⟨_, _, i1, i2, x1, x2, _, _, _, _, hp y1, hp y2, p1, p2, t1.need, t2.need,
    fun hno => (ttold_conforms t1 t2 ..).1 (g4 (ttold_comparable t1 t2 hno))⟩

end async

/-! ## CRUD algorithms -/

section crud
variable {log2 : F → F} {powi : F → ℕ → F} {powf : F → F → F} (H : AccurateLibrary log2 powi) {tol : ℝ}
  (ht : tol = 1 / 10 ∨ tol = 1 / 4) {N : Nat} (hN : 0 < N) (hN32 : N < 2 ^ 32)
  (env : CrudEnv) (hE : env.f64 = shippedEnv log2 powi powf tol)
  (doing : List Ev → Phase → Op → Nat → Nat → Nat → Rs (TPass × Nat)) (cfg : CrudCfg) (max : ℕ) (hmax : 1 ≤ max) (t : List Ev)
  (hrun : ∀ h ph op x y th, h <+: (testCrud env cfg max t).2 → env.measure h ph op x y th = meterThreads (doing h ph op x y th))
  (hord : ∀ h ph op x y th d r, h <+: (testCrud env cfg max t).2 → doing h ph op x y th = .ok (d, r) → OrdinaryTPass env.profile N d)

include hN hN32 hrun hord in
theorem crud_ttold {cfg' : CrudCfg} {op : Op} {m1 m2 : PassResult} (h : CanMeasure (env.clamp cfg max t) cfg' op m1 m2) :
    ∃ x1 x2, CanDoT (· <+: (testCrud env cfg max t).2) doing cfg' op x1 x2 ∧ TTold env.profile N x1 m1 ∧ TTold env.profile N x2 m2 := by
  have hp := inRun_prefix (crud_start env cfg max t)
  obtain ⟨⟨t1, r1, e1⟩, ⟨t2, r2, e2⟩⟩ := h
  have e1' := (hrun _ _ _ _ _ _ (hp t1)).symm.trans e1
  have e2' := (hrun _ _ _ _ _ _ (hp t2)).symm.trans e2
  obtain ⟨x1, a1, a2⟩ := meterThreads_inv hN hN32 (fun d r => hord _ _ _ _ _ _ d r (hp t1)) e1'
  obtain ⟨x2, b1, b2⟩ := meterThreads_inv hN hN32 (fun d r => hord _ _ _ _ _ _ d r (hp t2)) e2'
  exact ⟨x1, x2, ⟨⟨_, r1, hp t1, a1⟩, ⟨_, r2, hp t2, b1⟩⟩, a2, b2⟩

include H ht hN hN32 hE hrun hord hmax

/-- **C117** (CRUD algorithms, accepted): if the closures and the reset do not panic, and the times taken and all amounts of memory that could
be needed in any two passes of every requested operation conform to its limits with a margin of one part in 2^40, then the test succeeds. -/
theorem C117_crud_accepts (hf : Fits cfg) (hs : ∀ op, 0 < (cfg.op op).iters → SaneOp powf cfg op)
    (hreset : ∀ h n, h <+: (testCrud env cfg max t).2 → env.resetFn h n = .ok ())
    (hok : ∀ h ph op x y th, h <+: (testCrud env cfg max t).2 → ∃ d r, doing h ph op x y th = .ok (d, r))
    (hgood : ∀ op, 0 < (cfg.op op).iters → ∀ x1 x2, CanDoT (· <+: (testCrud env cfg max t).2) doing cfg op x1 x2 →
      x1.Noticeable ∧ ∀ b1 b2, x1.CouldNeed b1 → x2.CouldNeed b2 → OpTConform tol abitMore cfg op x1 x2 b1 b2) :
    (testCrud env cfg max t).1 = .ok () := by
  have hp := inRun_prefix (crud_start env cfg max t)
  have := C85_crud_accepts H ht (env.clamp cfg max t) hE cfg ⟨fun h n => hreset _ n (hp h), ?_⟩ hf hs max hmax t ?_
  · rw [clamp_crud] at this
    exact this.1
  · intro h ph op x y th
    obtain ⟨d, r, hd⟩ := hok _ ph op x y th (hp h)
    obtain ⟨m, e, tm⟩ := meterThreads_ok hN hN32 (hord _ _ _ _ _ _ d r (hp h) hd) r
    exact ⟨m, r, (hrun _ _ _ _ _ _ (hp h)).trans (by rw [hd, e]), tm.plausible, by rw [tm.time]; exact tm.ordinary.clock⟩
  · intro op hi m1 m2 hm
    obtain ⟨x1, x2, hc, t1, t2⟩ := crud_ttold hN hN32 env doing cfg max t hrun hord hm
    obtain ⟨g1, g2⟩ := hgood op hi x1 x2 hc
    exact ⟨ttold_comparable t1 t2 g1, (ttold_op t1 t2 ..).2 (g2 _ _ t1.need t2.need)⟩

/-- **C117** (CRUD algorithms, rejected): if the times taken and the amounts of memory that could be needed in two passes of an operation, with
the requested element counts or those of a retry, never conform to its limits, then the test fails however often it retries. -/
theorem C117_crud_rejects (hr : RoomForRetries cfg) (op : Op)
    (h30 : 30 ≤ (cfg.op op).iters) (hc30 : op = .read ∨ op = .update → 30 ≤ (cfg.op .create).iters ∧
      ∀ n, Covered powf n (2 * n) (cfg.op op).tmax ∧ Covered powf n (2 * n) (cfg.op op).smax)
    (hbad : ∀ cfg', RetryOf cfg cfg' → ∀ x1 x2, CanDoT (· <+: (testCrud env cfg max t).2) doing cfg' op x1 x2 →
      x1.Noticeable ∧ ∀ b1 b2, x1.CouldNeed b1 → x2.CouldNeed b2 → ¬ OpTConform tol abitLess cfg' op x1 x2 b1 b2) :
    (testCrud env cfg max t).1 ≠ .ok () := by
  have := C85_crud_rejects H ht (env.clamp cfg max t) hE cfg hr max hmax t op h30 hc30 ?_
  · rw [clamp_crud] at this
    exact this
  · intro cfg' hcfg m1 m2 hm
    obtain ⟨x1, x2, hc, t1, t2⟩ := crud_ttold hN hN32 env doing cfg max t hrun hord hm
    obtain ⟨g1, g2⟩ := hbad cfg' hcfg x1 x2 hc
    exact ⟨ttold_comparable t1 t2 g1, fun h => g2 _ _ t1.need t2.need ((ttold_op t1 t2 ..).1 h)⟩

/-- **C117** (CRUD algorithms, soundness): if the test succeeds, it made an attempt in which, for every operation, there were two passes
whose times, and amounts of memory they could have needed, conform to its limits (up to one part in 2^40), provided the first one took some
time and some bytes. -/
theorem C117_crud_sound (hr : RoomForRetries cfg) (h : (testCrud env cfg max t).1 = .ok ()) :
    ∃ k cfg', k < max ∧ RetryOf cfg cfg' ∧ ∀ op, 0 < (cfg'.op op).iters → SaneOp powf cfg' op →
      ∃ x1 x2 b1 b2, CanDoT (· <+: (testCrud env cfg max t).2) doing cfg' op x1 x2 ∧ x1.CouldNeed b1 ∧ x2.CouldNeed b2 ∧
        (x1.Noticeable → OpTConform tol abitLess cfg' op x1 x2 b1 b2) := by
  obtain ⟨k, cfg', t', hk, h1, -, h2⟩ := C85_crud_sound H ht (env.clamp cfg max t) hE cfg hr max hmax t (by rw [clamp_crud]; exact h)
  refine ⟨k, cfg', hk, h1, fun op hi hs => ?_⟩
  obtain ⟨m1, m2, hm, hw⟩ := h2 op hi hs
  obtain ⟨x1, x2, hc, t1, t2⟩ := crud_ttold hN hN32 env doing cfg max t hrun hord hm.can
  exact ⟨x1, x2, _, _, hc, t1.need, t2.need, fun hno => (ttold_op t1 t2 ..).1 (hw (ttold_comparable t1 t2 hno))⟩

end crud
end BigO
