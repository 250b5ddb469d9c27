import Verif.Props.Local
import Verif.Spec.RunSpec

/-!
# C110: the attempts that were made decide the outcome of a test
-/
namespace BigO

theorem comparable_pair {m1 m2 : PassResult} (h1 : PlausiblePass m1) (h2 : PlausiblePass m2) (ht : TookSome m1) : Comparable m1 m2 where
  time1 := ht.1
  plausible1 := h1.2
  plausible2 := h2.2
  space1 := ht.2
  space2 := h2.1.before_le
  fits1 := h1.1.small.le.trans (by unfold usizeMax; decide)
  fits2 := h2.1.small.le.trans (by unfold usizeMax; decide)

section
variable {log2 : F → F} {powi : F → ℕ → F} {powf : F → F → F} (H : AccurateLibrary log2 powi) {tol : ℝ}
  (ht : tol = 1 / 10 ∨ tol = 1 / 4)
include H ht

/-- what the verdict on time tells -/
theorem time_says (p : Profile) {n1 n2 : ℕ} (hn : SaneSizes n1 n2) {tmax : Option Complexity} (hl : LimitCovered powf n1 n2 tmax) {m1 m2 : PassResult}
    (hm : Comparable m1 m2) :
    ((∀ l, tmax = some l → (analyseTime (shippedEnv log2 powi powf tol) ⟨n1, n2⟩ ⟨m1.time, m2.time⟩).asU32 ≤ l.asU32) →
      TimeConforms tol abitLess n1 n2 tmax m1 m2) ∧
    (TimeConforms tol abitMore n1 n2 tmax m1 m2 →
      ∀ l, tmax = some l → (analyseTime (shippedEnv log2 powi powf tol) ⟨n1, n2⟩ ⟨m1.time, m2.time⟩).asU32 ≤ l.asU32) := by
  obtain ⟨c, -, h1, h2⟩ := conforms_verdicts (tmax := tmax) (smax := none) powf H ht p hn hl (by rintro c h; cases h) hm
  exact ⟨fun h => (h2 h (by rintro c h; cases h)).time, fun h => (h1 ⟨h, by rintro c h; cases h⟩).1⟩

/-- what the verdict on space tells -/
theorem space_says (p : Profile) {n1 n2 : ℕ} (hn : SaneSizes n1 n2) {smax : Option Complexity} (hl : LimitCovered powf n1 n2 smax) {m1 m2 : PassResult}
    (hm : Comparable m1 m2) :
    ∃ c, analyseSpace (shippedEnv log2 powi powf tol) p ⟨n1, n2⟩ ⟨m1.space, m2.space⟩ = .ok c ∧
      ((∀ l, smax = some l → c.asU32 ≤ l.asU32) → SpaceConforms tol abitLess n1 n2 smax m1 m2) ∧
      (SpaceConforms tol abitMore n1 n2 smax m1 m2 → ∀ l, smax = some l → c.asU32 ≤ l.asU32) := by
  obtain ⟨c, hc, h1, h2⟩ := conforms_verdicts (tmax := none) (smax := smax) powf H ht p hn (by rintro c h; cases h) hl hm
  exact ⟨c, hc, fun h => (h2 (by rintro c h; cases h) h).space, fun h => (h1 ⟨(by rintro c h; cases h), h⟩).2⟩

end

/-! ## regular algorithms -/

section regular
variable {log2 : F → F} {powi : F → ℕ → F} {powf : F → F → F} (H : AccurateLibrary log2 powi) {tol : ℝ}
  (ht : tol = 1 / 10 ∨ tol = 1 / 4) (env : RegEnv) (hE : env.f64 = shippedEnv log2 powi powf tol) (cfg : RegCfg)
  (hn : SaneSizes cfg.n1 cfg.n2) (hn32 : cfg.n2 < 2 ^ 32) (hl : LimitCovered powf cfg.n1 cfg.n2 (some cfg.tmax))
  (hs : LimitCovered powf cfg.n1 cfg.n2 (some cfg.smax))
include H ht hE hn hn32 hl hs

/-- **C110** (regular algorithms): in a run in which nothing panics and the first passes take some time and memory, the attempts decide the
outcome. Either the test succeeds, with an attempt that conforms to both limits (up to one part in 2^40); or it fails with an attempt
that does not conform to the limit on space (with a margin of that much); or it fails after all the attempts allowed. Every attempt but
the one that decided it conformed to the limit on space but not to the one on time; in the last case, all of them. -/
theorem C110_regular (t ext : List RegEv) (he : (testAlgorithm env cfg t).2 = t ++ ext) (hw : RegRanWell ext) :
    ∃ rounds : List Attempt, regCallsOf ext = (rounds.map Attempt.calls).flatten ∧ 1 ≤ rounds.length ∧ rounds.length ≤ cfg.maxRetry + 1 ∧
      (((testAlgorithm env cfg t).1 = .ok () ∧ (∃ l a, rounds = l ++ [a] ∧ (∀ b ∈ l, OnlyTimeBad tol cfg.n1 cfg.n2 (some cfg.tmax) (some cfg.smax) b.m1 b.m2) ∧
          SpaceConforms tol abitLess cfg.n1 cfg.n2 (some cfg.smax) a.m1 a.m2 ∧ TimeConforms tol abitLess cfg.n1 cfg.n2 (some cfg.tmax) a.m1 a.m2)) ∨
      ((∃ m, (testAlgorithm env cfg t).1 = .error (.msg m)) ∧
        ((∃ l a, rounds = l ++ [a] ∧ (∀ b ∈ l, OnlyTimeBad tol cfg.n1 cfg.n2 (some cfg.tmax) (some cfg.smax) b.m1 b.m2) ∧ ¬ SpaceConforms tol abitMore cfg.n1 cfg.n2 (some cfg.smax) a.m1 a.m2) ∨
         (rounds.length = cfg.maxRetry + 1 ∧ ∀ b ∈ rounds, OnlyTimeBad tol cfg.n1 cfg.n2 (some cfg.tmax) (some cfg.smax) b.m1 b.m2)))) := by
  have L : FloatLaws env.f64 := by rw [hE]; exact shippedEnv_laws _ _ _ ht
  have k1 := hn.1
  have k2 := hn.2.1
  obtain ⟨as, last, ext', h3, hsrc, h4, h5, h6⟩ := test_history (env := env) cfg t
  have : ext' = ext := List.append_cancel_left (h3.symm.trans he)
  subst this
  have insub : ∀ ev ∈ roundCalls as ++ last, ev ∈ ext' := fun ev hev => (List.mem_filter.1 (by rw [← h4] at hev; exact hev)).1
  have hcmp : ∀ a : Attempt, (∀ ev ∈ a.calls, ev ∈ roundCalls as ++ last) → Comparable a.m1 a.m2 := by
    intro a ha
    have m1 := insub _ (ha (.call .pass1 (some a.m1)) (by simp [Attempt.calls]))
    have m2 := insub _ (ha (.call .pass2 (some a.m2)) (by simp [Attempt.calls]))
    obtain ⟨_, e1, p1⟩ := hw.returned _ _ m1
    obtain ⟨_, e2, p2⟩ := hw.returned _ _ m2
    cases e1; cases e2
    exact comparable_pair p1 p2 (hw.took _ m1)
  have hin : ∀ a ∈ as, ∀ ev ∈ a.calls, ev ∈ roundCalls as ++ last := by
    intro a ha ev hev
    exact List.mem_append_left _ (List.mem_flatten.2 ⟨_, List.mem_map.2 ⟨a, ha, rfl⟩, hev⟩)
  have tells : ∀ a : Attempt, Comparable a.m1 a.m2 →
      (SpaceOk env cfg a → SpaceConforms tol abitLess cfg.n1 cfg.n2 (some cfg.smax) a.m1 a.m2) ∧
      (TimeOk env cfg a → TimeConforms tol abitLess cfg.n1 cfg.n2 (some cfg.tmax) a.m1 a.m2) ∧
      (¬ TimeOk env cfg a → ¬ TimeConforms tol abitMore cfg.n1 cfg.n2 (some cfg.tmax) a.m1 a.m2) ∧
      (SpaceBad env cfg a → ¬ SpaceConforms tol abitMore cfg.n1 cfg.n2 (some cfg.smax) a.m1 a.m2) := by
    intro a ha
    obtain ⟨t1, t2⟩ := time_says H ht env.profile hn hl ha
    obtain ⟨c, hc, s1, s2⟩ := space_says H ht env.profile hn hs ha
    rw [← hE] at t1 t2 hc
    refine ⟨?_, ?_, ?_, ?_⟩
    · rintro ⟨c', hc', h⟩
      rw [Attempt.space, hc] at hc'; cases hc'
      exact s1 fun l e => by cases e; exact h
    · intro h
      exact t1 fun l e => by cases e; exact h
    · intro h h'
      exact h (t2 h' _ rfl)
    · rintro ⟨c', hc', h⟩ h'
      rw [Attempt.space, hc] at hc'; cases hc'
      exact absurd (s2 h' _ rfl) (by omega)
  have bads : ∀ b ∈ as, OnlyTimeBad tol cfg.n1 cfg.n2 (some cfg.tmax) (some cfg.smax) b.m1 b.m2 := by
    intro b hb
    have s := tells b (hcmp b (hin b hb))
    exact ⟨s.1 (h5 b hb).1.1, s.2.2.1 (h5 b hb).1.2⟩
  rcases h6 with ⟨a1, hr, a, rfl, -, a3⟩ | ⟨a1, hr, a, rfl, -, a3⟩ | ⟨a1, rfl, hr⟩ | ⟨a1, a2, -⟩
  · have s := tells a (hcmp a fun ev hev => List.mem_append_right _ hev)
    exact ⟨as ++ [a], by rw [h4]; simp [roundCalls], by simp, by simpa using a1, Or.inl ⟨hr, as, a, rfl, bads, s.1 a3.1, s.2.1 a3.2⟩⟩
  · have s := tells a (hcmp a fun ev hev => List.mem_append_right _ hev)
    exact ⟨as ++ [a], by rw [h4]; simp [roundCalls], by simp, by simpa using a1, Or.inr ⟨hr, Or.inl ⟨as, a, rfl, bads, s.2.2.2 a3⟩⟩⟩
  · exact ⟨as, by rw [h4]; simp [roundCalls], by omega, by omega, Or.inr ⟨hr, Or.inr ⟨a1, bads⟩⟩⟩
  · exfalso
    have hmem : ∀ ev ∈ last, ev ∈ ext' := fun ev hev => insub ev (List.mem_append_right _ hev)
    obtain ⟨-, h⟩ := a2
    rcases h with ⟨c, h⟩ | ⟨c, m, h, hd⟩ | ⟨a, rfl, hp⟩
    · obtain ⟨m, e, -⟩ := hw.returned _ _ (hmem _ h)
      cases e
    · obtain ⟨m, e, p⟩ := hw.returned _ _ (hmem _ h)
      cases e
      exact hd (fmtOverN_ok env.text env.profile p.1 1)
    · obtain ⟨_, e1, p1⟩ := hw.returned _ _ (hmem (.call .pass1 (some a.m1)) (by simp [Attempt.calls]))
      obtain ⟨_, e2, p2⟩ := hw.returned _ _ (hmem (.call .pass2 (some a.m2)) (by simp [Attempt.calls]))
      cases e1; cases e2
      exact hp (presentable_of_plausible L (by omega) (by omega) (by omega) hn32 p1.1 p2.1 p1.2 p2.2)

end regular

/-! ## asynchronous algorithms -/

section async
variable {D B : Type}

theorem follows_same {b b' : Builder D B} (hb : SameSettings b b') {a : ARound D} (h : a.Follows b') : a.Follows b := by
  unfold ARound.Follows plan prelude passesPlan at h ⊢
  rw [hb.reset, hb.warmup, hb.check1, hb.check2] at h
  exact h

/-- a pass of no particular interest -/
def dullPass : PassResult := ⟨1, ⟨0, 0, 1, 0⟩⟩

theorem dullPass_plausible : PlausiblePass dullPass := ⟨⟨by decide, by decide, by decide, by decide⟩, by unfold PlausibleTime dullPass; decide⟩

open Classical in
/-- the closure where it was called in the run; elsewhere it returns something dull -/
noncomputable def tameFn (t tr : List (AEv D)) (d0 : D) (s : AStep) (f : AFn D) : AFn D := fun h i =>
  if t <+: h ∧ ∃ r, h ++ [.call s i r] <+: tr then f h i else .ok (dullPass, d0)

open Classical in
/-- the assertion where it was made in the run; elsewhere it holds -/
noncomputable def tameCheck (t tr : List (AEv D)) (second : Bool) (c : ACheck D) : ACheck D := fun h d =>
  if t <+: h ∧ ∃ r, h ++ [.check second d r] <+: tr then c h d else .ok ()

/-- the test with closures that are as in the run where they were called, and dull elsewhere -/
noncomputable def Builder.tame (b : Builder D B) (t tr : List (AEv D)) (d0 : D) : Builder D B :=
  { b with
    resetFn := b.resetFn.map (tameFn t tr d0 .reset)
    warmupFn := b.warmupFn.map (tameFn t tr d0 .warmup)
    fn1 := b.fn1.map (tameFn t tr d0 .pass1)
    fn2 := b.fn2.map (tameFn t tr d0 .pass2)
    check1 := b.check1.map (tameCheck t tr false)
    check2 := b.check2.map (tameCheck t tr true) }

theorem tame_same (b : Builder D B) (t tr : List (AEv D)) (d0 : D) : SameSettings b (b.tame t tr d0) :=
  ⟨rfl, rfl, rfl, rfl, rfl, rfl, Option.isSome_map .., Option.isSome_map .., Option.isSome_map .., Option.isSome_map .., Option.isSome_map ..,
    Option.isSome_map ..⟩

theorem tame_fn (b : Builder D B) (t tr : List (AEv D)) (d0 : D) (s : AStep) : (b.tame t tr d0).fn s = (b.fn s).map (tameFn t tr d0 s) := by
  cases s <;> rfl

theorem tame_check (b : Builder D B) (t tr : List (AEv D)) (d0 : D) (second : Bool) :
    (b.tame t tr d0).checkOf second = (b.checkOf second).map (tameCheck t tr second) := by
  cases second <;> rfl

theorem tame_run (env : AEnv) (b : Builder D B) (t : List (AEv D)) (d0 : D) :
    testAsync env (b.tame t (testAsync env b t).2 d0) t = testAsync env b t := by
  refine C109_async env b _ (tame_same b t _ d0) t ?_ ?_
  · intro pre s i r f f' hp he hf hf'
    rw [tame_fn, hf] at hf'
    cases hf'
    exact if_pos ⟨hp, r, he⟩
  · intro pre second d r c c' hp he hc hc'
    rw [tame_check, hc] at hc'
    cases hc'
    exact if_pos ⟨hp, r, he⟩

/-- an event of the run is what the closure did -/
theorem run_genuine (env : AEnv) (b : Builder D B) {t h : List (AEv D)} {ev : AEv D} (hp : t <+: h) (he : h ++ [ev] <+: (testAsync env b t).2) :
    Genuine b h ev := by
  obtain ⟨ext, hx, hg⟩ := C62_genuine env b t
  obtain ⟨pre, rfl⟩ := hp
  rw [hx] at he
  obtain ⟨post, hq⟩ := he
  refine hg pre ev post (List.append_cancel_left (as := t) ?_)
  rw [← hq]; simp

theorem tame_benign (env : AEnv) {b : Builder D B} {t ext : List (AEv D)} (he : (testAsync env b t).2 = t ++ ext) (hw : AsyncRanWell ext) (d0 : D)
    (h1 : b.fn1.isSome) (h2 : b.fn2.isSome) (n1 : 0 < b.n1 ∧ b.n1 < 2 ^ 32) (n2 : 0 < b.n2 ∧ b.n2 < 2 ^ 32) :
    ABenign (b.tame t (testAsync env b t).2 d0) := by
  have memext : ∀ {h : List (AEv D)} {ev : AEv D}, t <+: h → h ++ [ev] <+: (testAsync env b t).2 → ev ∈ ext := by
    rintro h ev ⟨pre, rfl⟩ hq
    rw [he, List.append_assoc, List.prefix_append_right_inj] at hq
    exact hq.subset (by simp)
  have fns : ∀ s f, (b.tame t (testAsync env b t).2 d0).fn s = some f → ∀ h i, ∃ m d, f h i = .ok (m, d) ∧ PlausibleReading m.space ∧ PlausibleTime m.time := by
    intro s f hf h i
    rw [tame_fn] at hf
    obtain ⟨g, hg, rfl⟩ := Option.map_eq_some_iff.1 hf
    unfold tameFn
    split_ifs with hc
    · obtain ⟨hp, r, hr⟩ := hc
      obtain ⟨m, d, rfl, hm⟩ := hw.returned _ _ _ (memext hp hr)
      obtain ⟨f', hf', hx⟩ := run_genuine env b hp hr
      rw [hg] at hf'
      cases hf'
      exact ⟨m, d, hx, hm⟩
    · exact ⟨_, _, rfl, dullPass_plausible⟩
  have checks : ∀ second c, (b.tame t (testAsync env b t).2 d0).checkOf second = some c → ∀ h d, c h d = .ok () := by
    intro second c hf h d
    rw [tame_check] at hf
    obtain ⟨g, hg, rfl⟩ := Option.map_eq_some_iff.1 hf
    unfold tameCheck
    split_ifs with hc
    · obtain ⟨hp, r, hr⟩ := hc
      have := hw.held _ _ _ (memext hp hr)
      subst this
      obtain ⟨c', hc', hx⟩ := run_genuine env b hp hr
      have : b.checkOf second = some c' := hc'
      rw [hg] at this
      cases this
      exact hx
    · rfl
  refine ⟨?_, ?_, (Option.isSome_map ..).trans h1, (Option.isSome_map ..).trans h2, n1, n2⟩
  · rintro f (h | h | h | h)
    · exact fns .reset f h
    · exact fns .warmup f h
    · exact fns .pass1 f h
    · exact fns .pass2 f h
  · rintro c (h | h)
    · exact checks false c h
    · exact checks true c h

variable {log2 : F → F} {powi : F → ℕ → F} {powf : F → F → F} (H : AccurateLibrary log2 powi) {tol : ℝ}
  (ht : tol = 1 / 10 ∨ tol = 1 / 4) (env : AEnv) (hE : env.f64 = shippedEnv log2 powi powf tol) (b : Builder D B)
  (hn : SaneSizes b.n1 b.n2) (hn32 : b.n2 < 2 ^ 32) (hl : LimitCovered powf b.n1 b.n2 b.tmax) (hs : LimitCovered powf b.n1 b.n2 b.smax)
include H ht hE hn hn32 hl hs

/-- **C110** (asynchronous algorithms): the same, for limits that may be unset, provided both passes are set; in every attempt the steps were
made as described in C62. -/
theorem C110_async [Nonempty D] (h1 : b.fn1.isSome) (h2 : b.fn2.isSome) (t ext : List (AEv D)) (he : (testAsync env b t).2 = t ++ ext)
    (hw : AsyncRanWell ext) :
    ∃ rounds : List (ARound D), actsOf ext = (rounds.map ARound.acts).flatten ∧ (∀ a ∈ rounds, a.Follows b) ∧
      1 ≤ rounds.length ∧ rounds.length ≤ b.maxReattempts.getD 0 + 1 ∧
      (((testAsync env b t).1 = .ok () ∧ (∃ l a, rounds = l ++ [a] ∧ (∀ x ∈ l, OnlyTimeBad tol b.n1 b.n2 b.tmax b.smax x.m1 x.m2) ∧
          SpaceConforms tol abitLess b.n1 b.n2 b.smax a.m1 a.m2 ∧ TimeConforms tol abitLess b.n1 b.n2 b.tmax a.m1 a.m2)) ∨
      ((∃ m, (testAsync env b t).1 = .error (.msg m)) ∧
        ((∃ l a, rounds = l ++ [a] ∧ (∀ x ∈ l, OnlyTimeBad tol b.n1 b.n2 b.tmax b.smax x.m1 x.m2) ∧
          ¬ SpaceConforms tol abitMore b.n1 b.n2 b.smax a.m1 a.m2) ∨
         (rounds.length = b.maxReattempts.getD 0 + 1 ∧ ∀ x ∈ rounds, OnlyTimeBad tol b.n1 b.n2 b.tmax b.smax x.m1 x.m2)))) := by
  have L : FloatLaws env.f64 := by rw [hE]; exact shippedEnv_laws _ _ _ ht
  obtain ⟨d0⟩ := ‹Nonempty D›
  have k1 := hn.1
  have k2 := hn.2.1
  have hb := tame_benign env he hw d0 h1 h2 ⟨by omega, by omega⟩ ⟨by omega, hn32⟩
  obtain ⟨rounds, ext', e1, e2, e3, e4, e5, e6, e7⟩ := C64_accepts_iff env L _ hb t
  rw [tame_run] at e1 e6 e7
  have : ext' = ext := List.append_cancel_left (e1.symm.trans he)
  subst this
  have fol : ∀ a ∈ rounds, a.Follows b := fun a ha => follows_same (tame_same b t _ d0) (e3 a ha)
  have hcmp : ∀ a ∈ rounds, Comparable a.m1 a.m2 := by
    intro a ha
    have hsub : ∀ ev ∈ a.acts, ev ∈ ext' := fun ev hev => by
      have : ev ∈ actsOf ext' := by rw [e2]; exact List.mem_flatten.2 ⟨_, List.mem_map.2 ⟨a, ha, rfl⟩, hev⟩
      exact (List.mem_filter.1 this).1
    obtain ⟨⟨i1, d1, m1⟩, ⟨i2, m2⟩⟩ := (fol a ha).1
    obtain ⟨_, _, q1, p1⟩ := hw.returned _ _ _ (hsub _ m1)
    obtain ⟨_, _, q2, p2⟩ := hw.returned _ _ _ (hsub _ m2)
    cases q1; cases q2
    exact comparable_pair p1 p2 (hw.took _ _ _ (hsub _ m1))
  have tells : ∀ a : ARound D, Comparable a.m1 a.m2 →
      (ASpaceOk env b a → SpaceConforms tol abitLess b.n1 b.n2 b.smax a.m1 a.m2) ∧
      (ATimeOk env b a → TimeConforms tol abitLess b.n1 b.n2 b.tmax a.m1 a.m2) ∧
      (¬ ATimeOk env b a → ¬ TimeConforms tol abitMore b.n1 b.n2 b.tmax a.m1 a.m2) ∧
      (ASpaceBad env b a → ¬ SpaceConforms tol abitMore b.n1 b.n2 b.smax a.m1 a.m2) := by
    intro a ha
    obtain ⟨t1, t2⟩ := time_says H ht env.profile hn hl ha
    obtain ⟨c, hc, s1, s2⟩ := space_says H ht env.profile hn hs ha
    rw [← hE] at t1 t2 hc
    refine ⟨?_, t1, fun h h' => h (t2 h'), ?_⟩
    · rintro ⟨c', hc', h⟩
      rw [ARound.space, hc] at hc'; cases hc'
      exact s1 h
    · rintro ⟨c', l, hc', hl', h⟩ h'
      rw [ARound.space, hc] at hc'; cases hc'
      exact absurd (s2 h' _ hl') (by omega)
  have bad : ∀ x ∈ rounds, ATimeOnly env b x → OnlyTimeBad tol b.n1 b.n2 b.tmax b.smax x.m1 x.m2 := by
    intro x hx h
    have s := tells x (hcmp x hx)
    exact ⟨s.1 h.1, s.2.2.1 h.2⟩
  refine ⟨rounds, e2, fol, e4, e5, ?_⟩
  by_cases hr : (testAsync env b t).1 = .ok ()
  · obtain ⟨l, a, rfl, q1, q2⟩ := e6.1 hr
    have s := tells a (hcmp a (by simp))
    exact Or.inl ⟨hr, l, a, rfl, fun x hx => bad x (by simp [hx]) (q1 x hx), s.1 q2.1, s.2.1 q2.2⟩
  · obtain ⟨hm, hq⟩ := e7 hr
    refine Or.inr ⟨hm, ?_⟩
    rcases hq with ⟨l, a, rfl, q1, q2⟩ | ⟨q1, q2⟩
    · have s := tells a (hcmp a (by simp))
      exact Or.inl ⟨l, a, rfl, fun x hx => bad x (by simp [hx]) (q1 x hx), s.2.2.2 q2⟩
    · exact Or.inr ⟨q1, fun x hx => bad x hx (q2 x hx)⟩

end async

/-! ## CRUD algorithms -/

open Classical in
/-- the environment with closures that are as in the run where they were called, and dull elsewhere -/
noncomputable def CrudEnv.tame (env : CrudEnv) (t tr : List Ev) : CrudEnv :=
  env.withClosures (fun h ph op a b th => if t <+: h ∧ h ++ [.pass ph op a b th] <+: tr then env.measure h ph op a b th else .ok (dullPass, 0))
    env.warmupTime (fun h n => if t <+: h ∧ h ++ [.reset n] <+: tr then env.resetFn h n else .ok ())

theorem CrudRanWell.part {env : CrudEnv} {t tr t0 tr0 : List Ev} (h : CrudRanWell env t tr) (h0 : t <+: t0) (h1 : tr0 <+: tr) : CrudRanWell env t0 tr0 :=
  ⟨fun pre ph op a b th hp he => h.returned pre ph op a b th (h0.trans hp) (he.trans h1), fun pre n hp he => h.reset pre n (h0.trans hp) (he.trans h1)⟩

theorem tame_crud_benign {env : CrudEnv} {t tr : List Ev} (h : CrudRanWell env t tr) : BenignCrud (env.tame t tr) := by
  classical
  refine ⟨fun pre n => ?_, fun pre ph op a b th => ?_⟩
  · by_cases hc : t <+: pre ∧ pre ++ [.reset n] <+: tr
    · exact (if_pos hc).trans (h.reset pre n hc.1 hc.2)
    · exact if_neg hc
  · by_cases hc : t <+: pre ∧ pre ++ [.pass ph op a b th] <+: tr
    · obtain ⟨m, x, e, p, -⟩ := h.returned pre ph op a b th hc.1 hc.2
      exact ⟨m, x, (if_pos hc).trans e, p⟩
    · exact ⟨_, _, if_neg hc, dullPass_plausible⟩

theorem tame_crud_run (env : CrudEnv) (cfg : CrudCfg) (t : List Ev) :
    internalAnalyse (env.tame t (internalAnalyse env cfg t).2) cfg t = internalAnalyse env cfg t := by
  refine C109_crud_analysis env cfg t _ _ _ ?_ ?_ fun _ _ _ _ => rfl
  · intro pre ph op a b th hp he
    exact if_pos ⟨hp, he⟩
  · intro pre n hp he
    exact if_pos ⟨hp, he⟩

theorem tame_measured {env : CrudEnv} {t tr : List Ev} {ph : Phase} {op : Op} {a b th : Nat} {pr : PassResult}
    (h : MeasuredIn (env.tame t tr) t tr ph op a b th pr) : MeasuredIn env t tr ph op a b th pr := by
  obtain ⟨before, after, x, e, hm⟩ := h
  refine ⟨before, after, x, e, ?_⟩
  have hc : t <+: t ++ before ∧ t ++ before ++ [.pass ph op a b th] <+: tr := ⟨List.prefix_append .., by rw [e]; simp⟩
  exact (if_pos hc).symm.trans hm

theorem tame_both {env : CrudEnv} {t tr : List Ev} {cfg : CrudCfg} {op : Op} {p1 p2 : PassResult}
    (h : BothMeasured (env.tame t tr) cfg t tr op p1 p2) : BothMeasured env cfg t tr op p1 p2 := ⟨tame_measured h.1, tame_measured h.2⟩

/-- in a run in which nothing panics, an analysis is accepted or blames what it measured -/
theorem analysis_decided (env : CrudEnv) (L : FloatLaws env.f64) (cfg : CrudCfg) (hf : Fits cfg) (t : List Ev)
    (hw : CrudRanWell env t (internalAnalyse env cfg t).2) :
    (∃ a t', internalAnalyse env cfg t = (.ok a, t')) ∨ (∃ e t', internalAnalyse env cfg t = (.fail e, t') ∧ Blames env cfg t t' e) := by
  have := C58_accepted_or_rejected (env.tame t (internalAnalyse env cfg t).2) L (tame_crud_benign hw) cfg hf t
  rw [tame_crud_run] at this
  rcases this with h | ⟨e, t', h, hb⟩
  · exact Or.inl h
  · refine Or.inr ⟨e, t', h, ?_⟩
    have ht : (internalAnalyse env cfg t).2 = t' := by rw [h]
    rw [ht] at hb
    obtain ⟨op, p1, p2, h1, h2, h3, h4, h5⟩ := hb
    refine ⟨op, p1, p2, h1, h2, tame_both h3, h4, fun op' hr hi => ?_⟩
    obtain ⟨q1, q2, sp, g1, g2⟩ := h5 op' hr hi
    exact ⟨q1, q2, sp, tame_both g1, g2⟩

theorem analysis_start (env : CrudEnv) (cfg : CrudCfg) (t : List Ev) : t <+: (internalAnalyse env cfg t).2 :=
  (internalAnalyse_local env env.measure env.warmupTime env.resetFn cfg t).1

theorem attempt_start (env : CrudEnv) (cfg : CrudCfg) (k : Nat) (t : List Ev) : t <+: (attempt env cfg k t).2 := by
  unfold attempt
  cases adaptCfg env.profile k cfg with
  | error e => exact List.prefix_refl t
  | ok c => exact analysis_start env c t

theorem beforeAttempt_le (env : CrudEnv) (cfg : CrudCfg) (t : List Ev) {i j : Nat} (h : i ≤ j) : beforeAttempt env cfg t i <+: beforeAttempt env cfg t j := by
  induction h with
  | refl => exact List.prefix_refl _
  | @step m _ ih => exact ih.trans ((attempt_start env cfg m _).trans (List.prefix_append ..))

theorem attempt_le (env : CrudEnv) (cfg : CrudCfg) (t : List Ev) {i j : Nat} (h : i ≤ j) :
    (attempt env cfg i (beforeAttempt env cfg t i)).2 <+: (attempt env cfg j (beforeAttempt env cfg t j)).2 := by
  rcases Nat.eq_or_lt_of_le h with rfl | h
  · exact List.prefix_refl _
  · exact (List.prefix_append _ (betweenAttempts i)).trans ((beforeAttempt_le env cfg t h).trans (attempt_start ..))

theorem adaptCfg_room (p : Profile) (k : Nat) (cfg : CrudCfg) (h : ∀ o, 3 * (cfg.op o).iters < 2 ^ 31) : ∃ cfg', adaptCfg p k cfg = .ok cfg' := by
  have := fun o => (C55_adapt_bounds p k (cfg.op o).iters (by have := h o; omega)).2.2.1 (by have := h o; omega)
  obtain ⟨c, hc⟩ := this .create
  obtain ⟨r, hr⟩ := this .read
  obtain ⟨u, hu⟩ := this .update
  obtain ⟨d, hd⟩ := this .delete
  unfold adaptCfg
  rw [hc, hr, hu, hd]
  exact ⟨_, rfl⟩

theorem adaptCfg_first (p : Profile) (cfg : CrudCfg) : adaptCfg p 0 cfg = .ok cfg := by
  unfold adaptCfg adapt
  simp only [if_true, bind, Except.bind, pure, Except.pure]
  congr 1
  obtain ⟨nm, wu, f⟩ := cfg
  congr 1
  funext o
  cases o <;> rfl

section crud
variable {log2 : F → F} {powi : F → ℕ → F} {powf : F → F → F} (H : AccurateLibrary log2 powi) {tol : ℝ}
  (ht : tol = 1 / 10 ∨ tol = 1 / 4) (env : CrudEnv) (hE : env.f64 = shippedEnv log2 powi powf tol)
include H ht hE

/-- what the verdicts of an operation say -/
theorem op_says {cfg : CrudCfg} (hn : NoOverflow cfg) {op : Op} (hs : SaneOp powf cfg op) {m1 m2 : PassResult} (hm : Comparable m1 m2) :
    ((opTime env cfg op m1 m2).asU32 ≤ (cfg.op op).tmax.asU32 → OpTimeConforms tol abitLess cfg op m1 m2) ∧
    (OpTimeConforms tol abitMore cfg op m1 m2 → (opTime env cfg op m1 m2).asU32 ≤ (cfg.op op).tmax.asU32) ∧
    ∃ c, opSpace env cfg op m1 m2 = .ok c ∧
      (c.asU32 ≤ (cfg.op op).smax.asU32 → OpSpaceConforms tol abitLess cfg op m1 m2) ∧
      (OpSpaceConforms tol abitMore cfg op m1 m2 → c.asU32 ≤ (cfg.op op).smax.asU32) := by
  have T := fun l => C83_time log2 powi powf H tol ht m1.time m2.time hm.time1 hm.plausible1 hm.plausible2 l
  have S := fun l => C83_space log2 powi powf H tol ht env.profile m1.space m2.space hm.space1 hm.space2 hm.fits1 hm.fits2 l
  rw [← hE] at T S
  have resizing : ∀ o, o = .create ∨ o = .delete → 2 ≤ (cfg.op o).iters →
      ((analyseTimeSetResizing env.f64 ⟨(cfg.op o).iters⟩ ⟨m1.time, m2.time⟩).asU32 ≤ (cfg.op o).tmax.asU32 →
        MeetsResizingLimit tol (cfg.op o).iters (seconds m1.time) (seconds m2.time * abitLess) (cfg.op o).tmax) ∧
      (MeetsResizingLimit tol (cfg.op o).iters (seconds m1.time) (seconds m2.time * abitMore) (cfg.op o).tmax →
        (analyseTimeSetResizing env.f64 ⟨(cfg.op o).iters⟩ ⟨m1.time, m2.time⟩).asU32 ≤ (cfg.op o).tmax.asU32) ∧
      ∃ c, analyseSpaceSetResizing env.f64 env.profile ⟨(cfg.op o).iters⟩ ⟨m1.space, m2.space⟩ = .ok c ∧
        (c.asU32 ≤ (cfg.op o).smax.asU32 →
          MeetsResizingLimit tol (cfg.op o).iters (bytesUsed m1.space) (bytesUsed m2.space * abitLess) (cfg.op o).smax) ∧
        (MeetsResizingLimit tol (cfg.op o).iters (bytesUsed m1.space) (bytesUsed m2.space * abitMore) (cfg.op o).smax →
          c.asU32 ≤ (cfg.op o).smax.asU32) := by
    intro o _ h2
    have h32 : (cfg.op o).iters ≤ 2 ^ 32 := by have := (hn o).1; omega
    have t1 := (T (cfg.op o).tmax).2.2 _ h2 h32
    obtain ⟨c, hc, s1⟩ := (S (cfg.op o).smax).2.2 _ h2 h32
    exact ⟨t1.2, t1.1, c, hc, s1.2, s1.1⟩
  have constant : ∀ o, 3 ≤ (cfg.op .create).iters → Covered powf (cfg.op .create).iters (2 * (cfg.op .create).iters) (cfg.op o).tmax →
      Covered powf (cfg.op .create).iters (2 * (cfg.op .create).iters) (cfg.op o).smax →
      ((analyseTimeConstantSet env.f64 ⟨(cfg.op .create).iters, 2 * (cfg.op .create).iters, (cfg.op o).iters⟩ ⟨m1.time, m2.time⟩).asU32 ≤ (cfg.op o).tmax.asU32 →
        TimeConforms tol abitLess (cfg.op .create).iters (2 * (cfg.op .create).iters) (some (cfg.op o).tmax) m1 m2) ∧
      (TimeConforms tol abitMore (cfg.op .create).iters (2 * (cfg.op .create).iters) (some (cfg.op o).tmax) m1 m2 →
        (analyseTimeConstantSet env.f64 ⟨(cfg.op .create).iters, 2 * (cfg.op .create).iters, (cfg.op o).iters⟩ ⟨m1.time, m2.time⟩).asU32 ≤ (cfg.op o).tmax.asU32) ∧
      ∃ c, analyseSpaceConstantSet env.f64 env.profile ⟨(cfg.op .create).iters, 2 * (cfg.op .create).iters, (cfg.op o).iters⟩ ⟨m1.space, m2.space⟩ = .ok c ∧
        (c.asU32 ≤ (cfg.op o).smax.asU32 →
          SpaceConforms tol abitLess (cfg.op .create).iters (2 * (cfg.op .create).iters) (some (cfg.op o).smax) m1 m2) ∧
        (SpaceConforms tol abitMore (cfg.op .create).iters (2 * (cfg.op .create).iters) (some (cfg.op o).smax) m1 m2 →
          c.asU32 ≤ (cfg.op o).smax.asU32) := by
    intro o
    have h32 : 2 * (cfg.op .create).iters ≤ 2 ^ 32 := by have := (hn .create).1; omega
    generalize (cfg.op .create).iters = n at h32 ⊢
    generalize (cfg.op o).iters = rep
    generalize (cfg.op o).tmax = tmax
    generalize (cfg.op o).smax = smax
    intro h3 lt ls
    have e1 : min n (2 * n) = n := by omega
    have e2 : max n (2 * n) = 2 * n := by omega
    have t1 := (T tmax).2.1 n (2 * n) rep h3 (by omega) (by omega) h32 (by rw [e1, e2]; exact lt)
    obtain ⟨c, hc, s1⟩ := (S smax).2.1 n (2 * n) rep h3 (by omega) (by omega) h32 (by rw [e1, e2]; exact ls)
    rw [e1, e2] at t1 s1
    exact ⟨fun h l e => by cases e; exact t1.2 h, fun h => t1.1 (h _ rfl), c, hc, fun h l e => by cases e; exact s1.2 h, fun h => s1.1 (h _ rfl)⟩
  cases op with
  | create => exact resizing _ (Or.inl rfl) hs
  | delete => exact resizing _ (Or.inr rfl) hs
  | read => exact constant _ hs.1 hs.2.1 hs.2.2
  | update => exact constant _ hs.1 hs.2.1 hs.2.2

omit H ht hE in
/-- the passes measured in a run in which nothing panics can be compared -/
theorem both_comparable {cfg : CrudCfg} {t tr : List Ev} (hw : CrudRanWell env t tr) {op : Op} {m1 m2 : PassResult} (h : BothMeasured env cfg t tr op m1 m2) :
    Comparable m1 m2 := by
  obtain ⟨⟨b1, a1, x1, e1, q1⟩, ⟨b2, a2, x2, e2, q2⟩⟩ := h
  obtain ⟨m, x, e, p1, tk⟩ := hw.returned (t ++ b1) .pass1 op (opRange cfg op 0).1 (opRange cfg op 0).2 (cfg.op op).threads (List.prefix_append ..) (by rw [e1]; simp)
  obtain ⟨m', x', e', p2, -⟩ := hw.returned (t ++ b2) .pass2 op (opRange cfg op 1).1 (opRange cfg op 1).2 (cfg.op op).threads (List.prefix_append ..) (by rw [e2]; simp)
  rw [q1] at e; cases e
  rw [q2] at e'; cases e'
  exact comparable_pair p1 p2 (tk rfl)

/-- **C110** (CRUD algorithms): in a run in which nothing panics and the first passes take some time and memory, the attempts decide the
outcome of a test. In every attempt but the last one some operation did not conform to its limit on time (with a margin of one part in
2^40). Either the test succeeds, and in the last attempt every requested operation conformed to its limits (up to that much); or it fails
with a message, and in the last attempt either, all allowed attempts having been made, some operation did not conform to its limit on
time, or some operation did not conform to its limit on space. -/
theorem C110_crud (cfg : CrudCfg) (hp : ProperCrud powf cfg) (max : ℕ) (hmax : 1 ≤ max) (t : List Ev)
    (hw : CrudRanWell env t (testCrud env cfg max t).2) :
    ∃ (k : ℕ) (cfgs : ℕ → CrudCfg), k < max ∧ cfgs 0 = cfg ∧ (∀ j, RetryOf cfg (cfgs j)) ∧
      (testCrud env cfg max t).2 = (attempt env cfg k (beforeAttempt env cfg t k)).2 ∧
      (∀ j < k, ∃ op, AttemptHad env cfg t j (cfgs j) op fun m1 m2 => ¬ OpTimeConforms tol abitMore (cfgs j) op m1 m2) ∧
      (((testCrud env cfg max t).1 = .ok () ∧ ∀ op, 0 < (cfg.op op).iters → AttemptHad env cfg t k (cfgs k) op fun m1 m2 =>
          OpTimeConforms tol abitLess (cfgs k) op m1 m2 ∧ OpSpaceConforms tol abitLess (cfgs k) op m1 m2) ∨
       ((∃ m, (testCrud env cfg max t).1 = .error (.msg m)) ∧ ∃ op,
         (k + 1 = max ∧ AttemptHad env cfg t k (cfgs k) op fun m1 m2 => ¬ OpTimeConforms tol abitMore (cfgs k) op m1 m2) ∨
         AttemptHad env cfg t k (cfgs k) op fun m1 m2 =>
           OpTimeConforms tol abitLess (cfgs k) op m1 m2 ∧ ¬ OpSpaceConforms tol abitMore (cfgs k) op m1 m2)) := by
  have L : FloatLaws env.f64 := by rw [hE]; exact shippedEnv_laws _ _ _ ht
  have hroom : RoomForRetries cfg := fun o => ⟨by have := (hp.room o).1; omega, (hp.room o).2⟩
  choose cfgs hc using fun j => adaptCfg_room env.profile j cfg fun o => (hp.room o).1
  have hret := fun j => (attempt_cfg env hroom (hc j)).1
  have hno := fun j => (attempt_cfg env hroom (hc j)).2
  have pos : ∀ j o, 0 < ((cfgs j).op o).iters ↔ 0 < (cfg.op o).iters := by
    intro j o
    have h1 := (hret j).atLeast o
    have h2 := (hret j).atMost o
    refine ⟨fun h => by omega, fun h => ?_⟩
    have := (hp.requested o h).1
    omega
  have fits : ∀ j, Fits (cfgs j) := by
    intro j
    refine ⟨hno j, fun o ho => ?_⟩
    have h1 := (hret j).atMost o
    have h2 := (hp.room o).1
    obtain ⟨-, h3, h4⟩ := hp.requested o ((pos j o).1 ho)
    rw [(hret j).threads o]
    exact ⟨by omega, h3, h4⟩
  have sane : ∀ j o, 0 < ((cfgs j).op o).iters → SaneOp powf (cfgs j) o := by
    intro j o ho
    have h0 := (pos j o).1 ho
    have g := (hret j).atLeast o
    have gc := (hret j).atLeast .create
    have g30 := (hp.requested o h0).1
    cases o with
    | create => show 2 ≤ _; omega
    | delete => show 2 ≤ _; omega
    | read =>
      obtain ⟨q1, q2⟩ := hp.constant .read (Or.inl rfl) h0
      exact ⟨by omega, by rw [(hret j).tmax]; exact (q2 _).1, by rw [(hret j).smax]; exact (q2 _).2⟩
    | update =>
      obtain ⟨q1, q2⟩ := hp.constant .update (Or.inr rfl) h0
      exact ⟨by omega, by rw [(hret j).tmax]; exact (q2 _).1, by rw [(hret j).smax]; exact (q2 _).2⟩
  have hatt : ∀ j, attempt env cfg j (beforeAttempt env cfg t j) = internalAnalyse env (cfgs j) (beforeAttempt env cfg t j) := by
    intro j
    unfold attempt
    rw [hc j]
  obtain ⟨k, hk, hbefore, hlast⟩ := C53_attempts env cfg max hmax t
  have inside : ∀ j ≤ k, (attempt env cfg j (beforeAttempt env cfg t j)).2 <+: (testCrud env cfg max t).2 := by
    intro j hj
    refine (attempt_le env cfg t hj).trans ?_
    rcases hlast with ⟨-, h⟩ | ⟨-, -, -, h⟩
    · rw [h]
    · rw [h]; exact List.prefix_append ..
  have well : ∀ j ≤ k, CrudRanWell env (beforeAttempt env cfg t j) (attempt env cfg j (beforeAttempt env cfg t j)).2 := by
    intro j hj
    exact hw.part (by have := beforeAttempt_le env cfg t (Nat.zero_le j); exact this) (inside j hj)
  -- a rejected attempt
  have rejected : ∀ j ≤ k, ∀ e, (attempt env cfg j (beforeAttempt env cfg t j)).1 = .fail e → ∃ op,
      (e.failedAnalysis = "Time" ∧ AttemptHad env cfg t j (cfgs j) op fun m1 m2 => ¬ OpTimeConforms tol abitMore (cfgs j) op m1 m2) ∨
      (e.failedAnalysis = "Space" ∧ AttemptHad env cfg t j (cfgs j) op fun m1 m2 =>
        OpTimeConforms tol abitLess (cfgs j) op m1 m2 ∧ ¬ OpSpaceConforms tol abitMore (cfgs j) op m1 m2) := by
    intro j hj e he
    have w := well j hj
    rw [hatt] at he w
    rcases analysis_decided env L (cfgs j) (fits j) _ w with ⟨a, t', h⟩ | ⟨e', t', h, op, p1, p2, h1, -, h3, h4, -⟩
    · rw [h] at he; cases he
    · rw [h] at he w
      cases he
      have hcm := both_comparable env w h3
      obtain ⟨t1, t2, c, hcc, s1, s2⟩ := op_says H ht env hE (hno j) (sane j op h1) hcm
      have hm : BothMeasured env (cfgs j) (beforeAttempt env cfg t j) (attempt env cfg j (beforeAttempt env cfg t j)).2 op p1 p2 := by
        rw [hatt, h]; exact h3
      refine ⟨op, ?_⟩
      rcases h4 with ⟨g1, -, g3⟩ | ⟨g1, g2, g3, g4⟩
      · exact Or.inl ⟨g1, (pos j op).1 h1, p1, p2, hm, fun h' => absurd (t2 h') (by omega)⟩
      · rw [hcc] at g3; cases g3
        exact Or.inr ⟨g1, (pos j op).1 h1, p1, p2, hm, t1 g2, fun h' => absurd (s2 h') (by omega)⟩
  have timeBad : ∀ j ≤ k, TimeRejected env cfg t j →
      ∃ op, AttemptHad env cfg t j (cfgs j) op fun m1 m2 => ¬ OpTimeConforms tol abitMore (cfgs j) op m1 m2 := by
    rintro j hj ⟨e, he, het⟩
    obtain ⟨op, ⟨-, h⟩ | ⟨h, -⟩⟩ := rejected j hj e he
    · exact ⟨op, h⟩
    · rw [het] at h; exact absurd h (by decide)
  have hnoreset : ∀ p, resetAfter env cfg t k = .error p →
      (testCrud env cfg max t).2 = (attempt env cfg k (beforeAttempt env cfg t k)).2 ++ [.out (retryText k), .reset 100] → False := by
    intro p hpn htr
    have := hw.reset ((attempt env cfg k (beforeAttempt env cfg t k)).2 ++ [.out (retryText k)]) 100
      (((beforeAttempt_le env cfg t (Nat.zero_le k)).trans (attempt_start ..)).trans (List.prefix_append ..)) (by rw [htr]; simp)
    unfold resetAfter at hpn
    rw [this] at hpn
    cases hpn
  rcases hlast with ⟨hl1, hl2⟩ | ⟨-, -, ⟨p, hl1, -⟩, hl2⟩
  swap
  · exact (hnoreset p hl1 hl2).elim
  refine ⟨k, cfgs, hk, ?_, hret, hl2, fun j hj => timeBad j hj.le (hbefore j hj).1, ?_⟩
  · have := hc 0
    rw [adaptCfg_first] at this
    exact (Except.ok.inj this).symm
  by_cases hr : (testCrud env cfg max t).1 = .ok ()
  · refine Or.inl ⟨hr, fun op hi => ?_⟩
    obtain ⟨k', hk', hacc, hbef⟩ := (C53_accepts_iff env cfg max hmax t).1 hr
    have hkk : k' = k := by
      rcases Nat.lt_trichotomy k' k with h | h | h
      · obtain ⟨a, ha⟩ := hacc
        obtain ⟨e, he, -⟩ := (hbefore k' h).1
        rw [ha] at he; cases he
      · exact h
      · have := hl1 (hbef k h).1
        omega
    subst hkk
    obtain ⟨⟨a, rep⟩, ha⟩ := hacc
    have w := well k' le_rfl
    rw [hatt] at ha w
    have hi' := (pos k' op).2 hi
    obtain ⟨p1, p2, sp, hb, h1, h2, h3⟩ := accepted_within (hno k') (a := a) (report := rep) (t' := (internalAnalyse env (cfgs k') (beforeAttempt env cfg t k')).2)
      (by rw [← ha]) op hi'
    obtain ⟨t1, t2, c, hcc, s1, s2⟩ := op_says H ht env hE (hno k') (sane k' op hi') (both_comparable env w hb)
    rw [h2] at hcc; cases hcc
    exact ⟨hi, p1, p2, by rw [hatt]; exact hb, t1 h1, s1 h3⟩
  · obtain ⟨p, hpn⟩ : ∃ p, (testCrud env cfg max t).1 = .error p := by
      cases h : (testCrud env cfg max t).1 with
      | error p => exact ⟨p, rfl⟩
      | ok u => exact absurd h hr
    refine Or.inr ?_
    obtain ⟨k', hk', hbef, hwhy⟩ := C79_failure env cfg max hmax t p hpn
    have hnot : ∀ j, TimeRejected env cfg t j ↔ ∃ e, rejection env cfg t j = some e ∧ e.failedAnalysis = "Time" := by
      intro j
      unfold TimeRejected rejection
      generalize (attempt env cfg j (beforeAttempt env cfg t j)).1 = x
      cases x with
      | ok a => simp
      | panic p => simp
      | fail e => simp
    have hfail : ∀ {j e}, rejection env cfg t j = some e → (attempt env cfg j (beforeAttempt env cfg t j)).1 = .fail e := by
      intro j e h
      unfold rejection at h
      generalize (attempt env cfg j (beforeAttempt env cfg t j)).1 = x at h ⊢
      cases x with
      | ok a => simp at h
      | panic p => simp at h
      | fail e' => simp at h; rw [h]
    have hkle : k' ≤ k := by
      by_contra h
      have := hl1 (hbef k (by omega)).1
      omega
    have hkeq : ¬ TimeRejected env cfg t k' ∨ k' + 1 = max → k' = k := by
      rintro (h | h)
      · by_contra hne
        exact h (hbefore k' (by omega)).1
      · omega
    have hsound : ∀ p', (attempt env cfg k' (beforeAttempt env cfg t k')).1 ≠ .panic p' := by
      intro p' hpa
      have w := well k' hkle
      rw [hatt] at hpa w
      rcases analysis_decided env L (cfgs k') (fits k') _ w with ⟨a, t', h⟩ | ⟨e', t', h, -⟩
      · rw [h] at hpa; cases hpa
      · rw [h] at hpa; cases hpa
    rcases hwhy with h | ⟨e, h1, h2, rfl⟩ | ⟨h0, e, h1, h2, s, -, rfl⟩ | ⟨h0, h1, h2⟩
    · exact (hsound p h).elim
    · have : k' = k := hkeq (Or.inl fun h => by
        obtain ⟨e', he', ht'⟩ := (hnot k').1 h
        rw [h1] at he'; cases he'
        exact h2 ht')
      subst this
      refine ⟨⟨_, hpn⟩, ?_⟩
      obtain ⟨op, ⟨g, -⟩ | ⟨-, g⟩⟩ := rejected k' le_rfl e (hfail h1)
      · exact absurd g h2
      · exact ⟨op, Or.inr g⟩
    · have : k' = k := hkeq (Or.inr h0)
      subst this
      refine ⟨⟨_, hpn⟩, ?_⟩
      obtain ⟨op, ⟨-, g⟩ | ⟨g, -⟩⟩ := rejected k' le_rfl e (hfail h1)
      · exact ⟨op, Or.inl ⟨h0, g⟩⟩
      · rw [h2] at g; exact absurd g (by decide)
    · exfalso
      rcases Nat.eq_or_lt_of_le hkle with rfl | hlt
      · have := hl1 h1; omega
      · rw [(hbefore k' hlt).2] at h2
        cases h2

end crud

/-! ## concrete cases -/

theorem quadratic_fine (second : Bool) : PlausiblePass (quadratic second) ∧ TookSome (quadratic second) := by
  cases second <;> exact ⟨⟨⟨by decide, by decide, by decide, by decide⟩, by unfold PlausibleTime; decide⟩, by decide, by decide⟩

theorem quadratic_time_not_linear : ¬ TimeConforms (1 / 10) abitLess 1000 2000 (some .oN) (quadratic false) (quadratic true) :=
  fun h => quadratic_not_linear none ⟨h, fun l e => by cases e⟩

-- a quadratic algorithm that should be linear: all attempts are made
example (T : TextEnv) (retries : ℕ) :
    ∃ (rounds : List Attempt) (ext : List RegEv), (testAlgorithm (quadraticEnv T) ⟨"quadratic", retries, 1000, 2000, .oN, .oN2⟩ []).2 = ext ∧
      regCallsOf ext = (rounds.map Attempt.calls).flatten ∧ rounds.length = retries + 1 := by
  obtain ⟨as, last, ext, h3, hsrc, -⟩ := test_history (env := quadraticEnv T) ⟨"quadratic", retries, 1000, 2000, .oN, .oN2⟩ []
  have val : ∀ c m, .call c (some m) ∈ ext → m = quadratic (c = .pass2) := by
    intro c m h
    obtain ⟨hh, r, e⟩ := hsrc.2 c m h
    exact (congrArg Prod.fst (Except.ok.inj e)).symm
  have hw : RegRanWell ext := by
    refine ⟨fun c r h => ?_, fun m h => ?_⟩
    · cases r with
      | none => obtain ⟨hh, e, he⟩ := hsrc.1 c h; cases he
      | some m => exact ⟨m, rfl, by rw [val c m h]; exact (quadratic_fine _).1⟩
    · rw [val _ m h]; exact (quadratic_fine _).2
  obtain ⟨rounds, e1, e2, e3, h⟩ := C110_regular ideal_library (Or.inl rfl) (quadraticEnv T) rfl ⟨"quadratic", retries, 1000, 2000, .oN, .oN2⟩ quadratic_sizes
    (by norm_num) (by rintro c h; cases h; simp [Covered, Complexity.asU32]) (by rintro c h; cases h; simp [Covered, Complexity.asU32]) [] ext h3 hw
  refine ⟨rounds, ext, h3, e1, ?_⟩
  have vals : ∀ a ∈ rounds, a.m1 = quadratic false ∧ a.m2 = quadratic true := by
    intro a ha
    have hsub : ∀ ev ∈ a.calls, ev ∈ ext := fun ev hev => by
      have : ev ∈ regCallsOf ext := by rw [e1]; exact List.mem_flatten.2 ⟨_, List.mem_map.2 ⟨a, ha, rfl⟩, hev⟩
      exact (List.mem_filter.1 this).1
    exact ⟨val .pass1 _ (hsub _ (by simp [Attempt.calls])), val .pass2 _ (hsub _ (by simp [Attempt.calls]))⟩
  rcases h with ⟨-, l, a, rfl, -, -, h⟩ | ⟨-, ⟨l, a, rfl, -, h⟩ | ⟨h, -⟩⟩
  · obtain ⟨q1, q2⟩ := vals a (by simp)
    rw [q1, q2] at h
    exact absurd h quadratic_time_not_linear
  · obtain ⟨q1, q2⟩ := vals a (by simp)
    rw [q1, q2] at h
    exact absurd quadratic_conforms.space h
  · exact h

-- the same as an asynchronous test: nothing panics in it, so it is decided by its six attempts
example (T : TextEnv) : ∃ rounds : List (ARound Unit), rounds.length = 6 ∧ ∀ x ∈ rounds, ¬ TimeConforms (1 / 10) abitMore 1000 2000 (some .oN) x.m1 x.m2 := by
  obtain ⟨ext, h3, hg⟩ := C62_genuine ⟨.checked, idealShipped, T, fun _ => ""⟩ (quadraticBuilder .oN) []
  have val : ∀ s i r, .call s i r ∈ ext → r = some (quadratic (s = .pass2), ()) := by
    intro s i r h
    obtain ⟨pre, post, e⟩ := List.append_of_mem h
    have := hg pre _ post e
    cases r with
    | none => cases s <;> (obtain ⟨f, er, hf, hh⟩ := this; cases hf <;> cases hh)
    | some x => cases s <;> (obtain ⟨f, hf, hh⟩ := this; cases hf <;> (cases hh; rfl))
  have hw : AsyncRanWell ext := by
    refine ⟨fun s i r h => ⟨_, _, val s i r h, (quadratic_fine _).1⟩, fun second d r h => ?_, fun i m d h => ?_⟩
    · obtain ⟨pre, post, e⟩ := List.append_of_mem h
      have := hg pre _ post e
      cases r with
      | true => rfl
      | false => cases second <;> (obtain ⟨c, er, hf, -⟩ := this; cases hf)
    · have := val _ _ _ h
      cases this
      exact (quadratic_fine _).2
  obtain ⟨rounds, e1, e2, e3, e4, h⟩ := C110_async ideal_library (Or.inl rfl) ⟨.checked, idealShipped, T, fun _ => ""⟩ rfl (quadraticBuilder .oN) quadratic_sizes
    (by show 2000 < 2 ^ 32; norm_num) (by rintro c h; cases h; exact Or.inl (by decide)) (by rintro c h; cases h) rfl rfl [] ext h3 hw
  have vals : ∀ a ∈ rounds, a.m1 = quadratic false ∧ a.m2 = quadratic true := by
    intro a ha
    have hsub : ∀ ev ∈ a.acts, ev ∈ ext := fun ev hev => by
      have : ev ∈ actsOf ext := by rw [e1]; exact List.mem_flatten.2 ⟨_, List.mem_map.2 ⟨a, ha, rfl⟩, hev⟩
      exact (List.mem_filter.1 this).1
    obtain ⟨⟨i1, d1, m1⟩, ⟨i2, m2⟩⟩ := (e2 a ha).1
    have v1 := val _ _ _ (hsub _ m1)
    have v2 := val _ _ _ (hsub _ m2)
    exact ⟨congrArg Prod.fst (Option.some.inj v1), congrArg Prod.fst (Option.some.inj v2)⟩
  rcases h with ⟨-, l, a, rfl, -, -, h⟩ | ⟨-, ⟨l, a, rfl, -, h⟩ | ⟨h, h'⟩⟩
  · obtain ⟨q1, q2⟩ := vals a (by simp)
    rw [q1, q2] at h
    exact absurd h quadratic_time_not_linear
  · exact absurd (fun l e => by cases e) h
  · exact ⟨rounds, h, fun x hx => (h' x hx).2⟩

theorem doubling_proper (limit : Complexity) (hl : limit.asU32 ≤ Complexity.oN4.asU32) : ProperCrud (fun x _ => x) (doublingCfg limit) := by
  refine ⟨fun o => ?_, fun o h => ?_, fun o ho h => ⟨?_, fun n => ?_⟩⟩
  · cases o <;> simp [doublingCfg]
  · cases o <;> simp [doublingCfg] at h ⊢
  · simp [doublingCfg]
  · exact ⟨Or.inl hl, Or.inl hl⟩

-- a CRUD test of operations that take twice as long on twice the elements, where they should not: all attempts are made
example (T : TextEnv) (max : ℕ) (hmax : 1 ≤ max) : ∃ k, k + 1 = max ∧
    (testCrud (doublingEnv T) (doublingCfg .o1) max []).2 =
      (attempt (doublingEnv T) (doublingCfg .o1) k (beforeAttempt (doublingEnv T) (doublingCfg .o1) [] k)).2 := by
  have hw : CrudRanWell (doublingEnv T) [] (testCrud (doublingEnv T) (doublingCfg .o1) max []).2 := by
    refine ⟨fun pre ph op a b th _ _ => ⟨_, _, rfl, ?_, ?_⟩, fun _ _ _ _ => rfl⟩
    · cases ph <;> exact ⟨⟨by decide, by decide, by decide, by decide⟩, by unfold PlausibleTime; decide⟩
    · rintro rfl; exact ⟨by decide, by decide⟩
  obtain ⟨k, cfgs, -, -, hret, htr, -, h⟩ := C110_crud ideal_library (Or.inl rfl) (doublingEnv T) rfl (doublingCfg .o1) (doubling_proper _ (by decide)) max hmax [] hw
  refine ⟨k, ?_, htr⟩
  have slow : ∀ op m1 m2, BothMeasured (doublingEnv T) (cfgs k) (beforeAttempt (doublingEnv T) (doublingCfg .o1) [] k)
      (attempt (doublingEnv T) (doublingCfg .o1) k (beforeAttempt (doublingEnv T) (doublingCfg .o1) [] k)).2 op m1 m2 →
      ¬ OpTimeConforms (1 / 10) abitLess (cfgs k) op m1 m2 := by
    intro op m1 m2 hb hc
    obtain ⟨rfl, rfl⟩ := doubling_measures T hb.can
    cases op with
    | create | delete =>
      simp only [OpTimeConforms, (hret k).tmax] at hc
      simp only [MeetsResizingLimit, doublingCfg, seconds, abitLess] at hc
      norm_num at hc
    | read | update =>
      simp only [OpTimeConforms, (hret k).tmax] at hc
      have := hc _ rfl
      simp only [MeetsLimit, doublingCfg, seconds, abitLess] at this
      norm_num at this
  rcases h with ⟨-, h⟩ | ⟨-, op, ⟨h, -⟩ | ⟨-, m1, m2, hb, h, -⟩⟩
  · obtain ⟨-, m1, m2, hb, h, -⟩ := h .create (by decide)
    exact absurd h (slow _ _ _ hb)
  · exact h
  · exact absurd h (slow _ _ _ hb)

end BigO
