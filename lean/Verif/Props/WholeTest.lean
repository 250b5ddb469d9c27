import Verif.Props.Standard
import Verif.Props.Async
import Verif.Props.Crud
import Verif.Props.Shipped
import Verif.Props.Binary64
import Verif.Spec.TestSpec

/-!
# C85: whole tests in the shipped arithmetic

From what the passes measured to the outcome of the test, with IEEE binary64 and an accurate library.
-/
namespace BigO

theorem shippedEnv_laws (log2 : F → F) (powi : F → ℕ → F) (powf : F → F → F) {tol : ℝ} (ht : tol = 1 / 10 ∨ tol = 1 / 4) :
    FloatLaws (shippedEnv log2 powi powf tol) := by
  rcases ht with rfl | rfl
  · exact C17_laws_10 log2 powi powf
  · exact C17_laws_25 log2 powi powf

/-- the verdicts of two comparable passes, against limits that may be unset -/
theorem conforms_verdicts {log2 : F → F} {powi : F → ℕ → F} (powf : F → F → F) (H : AccurateLibrary log2 powi) {tol : ℝ}
    (ht : tol = 1 / 10 ∨ tol = 1 / 4) (p : Profile) {n1 n2 : ℕ} (hn : SaneSizes n1 n2) {tmax smax : Option Complexity}
    (hl : LimitCovered powf n1 n2 tmax) (hs : LimitCovered powf n1 n2 smax) {m1 m2 : PassResult} (hm : Comparable m1 m2) :
    ∃ c, analyseSpace (shippedEnv log2 powi powf tol) p ⟨n1, n2⟩ ⟨m1.space, m2.space⟩ = .ok c ∧
      (Conforms tol abitMore n1 n2 tmax smax m1 m2 →
        (∀ l, tmax = some l → (analyseTime (shippedEnv log2 powi powf tol) ⟨n1, n2⟩ ⟨m1.time, m2.time⟩).asU32 ≤ l.asU32) ∧
        (∀ l, smax = some l → c.asU32 ≤ l.asU32)) ∧
      ((∀ l, tmax = some l → (analyseTime (shippedEnv log2 powi powf tol) ⟨n1, n2⟩ ⟨m1.time, m2.time⟩).asU32 ≤ l.asU32) →
        (∀ l, smax = some l → c.asU32 ≤ l.asU32) → Conforms tol abitLess n1 n2 tmax smax m1 m2) := by
  obtain ⟨g1, g2, g3⟩ := hn
  have T := fun l hl => (C83_time log2 powi powf H tol ht m1.time m2.time hm.time1 hm.plausible1 hm.plausible2 l).1 n1 n2 g1 g2 g3 hl
  have S := fun l hl => (C83_space log2 powi powf H tol ht p m1.space m2.space hm.space1 hm.space2 hm.fits1 hm.fits2 l).1 n1 n2 g1 g2 g3 hl
  obtain ⟨c, hc, -⟩ := S .o1 (Or.inl (by decide))
  refine ⟨c, hc, fun h => ⟨fun l e => ?_, fun l e => ?_⟩, fun a b => ⟨fun l e => ?_, fun l e => ?_⟩⟩
  · exact (T l (hl l e)).1 (h.time l e)
  · obtain ⟨c', hc', h1, -⟩ := S l (hs l e)
    rw [hc] at hc'; cases hc'
    exact h1 (h.space l e)
  · exact (T l (hl l e)).2 (a l e)
  · obtain ⟨c', hc', -, h1⟩ := S l (hs l e)
    rw [hc] at hc'; cases hc'
    exact h1 (b l e)

/-! ## regular algorithms -/

section regular
variable {log2 : F → F} {powi : F → ℕ → F} {powf : F → F → F} (H : AccurateLibrary log2 powi) {tol : ℝ}
  (ht : tol = 1 / 10 ∨ tol = 1 / 4) (env : RegEnv) (hE : env.f64 = shippedEnv log2 powi powf tol) (cfg : RegCfg)
  (hn : SaneSizes cfg.n1 cfg.n2) (hl : LimitCovered powf cfg.n1 cfg.n2 (some cfg.tmax)) (hs : LimitCovered powf cfg.n1 cfg.n2 (some cfg.smax))
include H ht hE hn hl hs

theorem within_conforms {a : Attempt} (hm : Comparable a.m1 a.m2) (h : WithinLimits env cfg a) :
    Conforms tol abitLess cfg.n1 cfg.n2 (some cfg.tmax) (some cfg.smax) a.m1 a.m2 := by
  obtain ⟨c, hc, -, h2⟩ := conforms_verdicts powf H ht env.profile hn hl hs hm
  obtain ⟨⟨c', hc', hw⟩, htm⟩ := h
  unfold Attempt.space at hc'
  unfold TimeOk Attempt.time at htm
  rw [hE] at hc' htm
  rw [hc] at hc'; cases hc'
  exact h2 (fun l e => by cases e; exact htm) (fun l e => by cases e; exact hw)

theorem conforms_within {a : Attempt} (hm : Comparable a.m1 a.m2)
    (h : Conforms tol abitMore cfg.n1 cfg.n2 (some cfg.tmax) (some cfg.smax) a.m1 a.m2) : WithinLimits env cfg a := by
  obtain ⟨c, hc, h1, -⟩ := conforms_verdicts powf H ht env.profile hn hl hs hm
  obtain ⟨ha, hb⟩ := h1 h
  refine ⟨⟨c, ?_, hb _ rfl⟩, ?_⟩
  · unfold Attempt.space; rw [hE]; exact hc
  · unfold TimeOk Attempt.time; rw [hE]; exact ha _ rfl

/-- **C85** (regular algorithms, soundness): if a test succeeds then the passes of its last round conform to the limits (up to one
part in 2^40 of the second pass), provided they can be compared at all. -/
theorem C85_regular_sound (t : List RegEv) (h : (testAlgorithm env cfg t).1 = .ok ()) :
    ∃ (rounds : List Attempt) (a : Attempt) (ext : List RegEv), (testAlgorithm env cfg t).2 = t ++ ext ∧
      regCallsOf ext = (rounds.map Attempt.calls).flatten ++ a.calls ∧
      (Comparable a.m1 a.m2 → Conforms tol abitLess cfg.n1 cfg.n2 (some cfg.tmax) (some cfg.smax) a.m1 a.m2) := by
  obtain ⟨rounds, a, ext, h1, h2, -, -, h5⟩ := C61_accepted_sound env cfg t h
  exact ⟨rounds, a, ext, h1, h2, fun hm => within_conforms H ht env hE cfg hn hl hs hm h5⟩

/-- **C85** (regular algorithms, a slow algorithm is never accepted): if no two passes that the closures can ever make conform to
the limits, not even if one part in 2^40 is forgiven, then the test fails, whatever happens and however often it retries. -/
theorem C85_regular_rejects (t : List RegEv)
    (hbad : ∀ h1 h2 x1 x2, env.run h1 .pass1 = .ok x1 → env.run h2 .pass2 = .ok x2 → Comparable x1.1 x2.1 ∧
      ¬ Conforms tol abitLess cfg.n1 cfg.n2 (some cfg.tmax) (some cfg.smax) x1.1 x2.1) :
    ∃ e, (testAlgorithm env cfg t).1 = .error e := by
  obtain ⟨as, last, ext, h1, hsrc, h4, h5, h6⟩ := test_history (env := env) cfg t
  rcases h6 with ⟨-, -, a, rfl, -, hw⟩ | ⟨-, ⟨m, hm⟩, -⟩ | ⟨-, -, m, hm⟩ | ⟨-, -, h⟩
  · exfalso
    have hsub : ∀ ev ∈ a.calls, ev ∈ ext := by
      intro ev hev
      have : ev ∈ regCallsOf ext := by rw [h4]; exact List.mem_append_right _ hev
      exact (List.mem_filter.1 this).1
    obtain ⟨g1, r1, e1⟩ := hsrc.2 .pass1 a.m1 (hsub _ (by simp [Attempt.calls]))
    obtain ⟨g2, r2, e2⟩ := hsrc.2 .pass2 a.m2 (hsub _ (by simp [Attempt.calls]))
    obtain ⟨hc, hb⟩ := hbad _ _ _ _ e1 e2
    exact hb (within_conforms H ht env hE cfg hn hl hs hc hw)
  · exact ⟨_, hm⟩
  · exact ⟨_, hm⟩
  · exact h

/-- **C85** (regular algorithms, a good algorithm is always accepted): if the closures do not panic and any two passes they can
ever make conform to the limits with a margin of one part in 2^40, then the test succeeds after one round. -/
theorem C85_regular_accepts (t : List RegEv) (hb : Benign env) (hn32 : cfg.n2 < 2 ^ 32)
    (hgood : ∀ h1 h2 x1 x2, env.run h1 .pass1 = .ok x1 → env.run h2 .pass2 = .ok x2 → Comparable x1.1 x2.1 ∧
      Conforms tol abitMore cfg.n1 cfg.n2 (some cfg.tmax) (some cfg.smax) x1.1 x2.1) :
    (testAlgorithm env cfg t).1 = .ok () ∧
      ∃ (a : Attempt) (ext : List RegEv), (testAlgorithm env cfg t).2 = t ++ ext ∧ regCallsOf ext = a.calls := by
  have L : FloatLaws env.f64 := by rw [hE]; exact shippedEnv_laws _ _ _ ht
  have k1 := hn.1
  have k2 := hn.2.1
  obtain ⟨as, last, ext, h1, hsrc, h4, h5, h6⟩ := test_history (env := env) cfg t
  have good : ∀ a : Attempt, (∀ ev ∈ a.calls, ev ∈ ext) → WithinLimits env cfg a := by
    intro a hsub
    obtain ⟨g1, r1, e1⟩ := hsrc.2 .pass1 a.m1 (hsub _ (by simp [Attempt.calls]))
    obtain ⟨g2, r2, e2⟩ := hsrc.2 .pass2 a.m2 (hsub _ (by simp [Attempt.calls]))
    obtain ⟨hc, hg⟩ := hgood _ _ _ _ e1 e2
    exact conforms_within H ht env hE cfg hn hl hs hc hg
  have hsub : ∀ ev ∈ last, ev ∈ ext := by
    intro ev hev
    have : ev ∈ regCallsOf ext := by rw [h4]; exact List.mem_append_right _ hev
    exact (List.mem_filter.1 this).1
  have hno : as = [] := by
    cases as with
    | nil => rfl
    | cons b l =>
      exfalso
      refine (h5 b (by simp)).1.2 (good b ?_).2
      intro ev hev
      have : ev ∈ regCallsOf ext := by
        rw [h4]; exact List.mem_append_left _ (by simp only [roundCalls, List.map_cons, List.flatten_cons]; exact List.mem_append_left _ hev)
      exact (List.mem_filter.1 this).1
  subst hno
  rcases h6 with ⟨-, hr, a, rfl, -⟩ | ⟨-, -, a, rfl, -, c, c1, c2⟩ | ⟨h, -⟩ | ⟨-, h, -⟩
  · exact ⟨hr, a, ext, h1, by rw [h4]; simp [roundCalls]⟩
  · obtain ⟨⟨c', c1', c2'⟩, -⟩ := good a hsub
    rw [c1] at c1'; cases c1'
    omega
  · simp at h
  · exact absurd h (not_broken L hb (by omega) (by omega) (by omega) hn32 hsrc hsub)

end regular

/-! ## asynchronous regular algorithms -/

/-- what a complete attempt measured came from the closures -/
theorem around_sourced {D B : Type} {env : AEnv} {b : Builder D B} {t ext : List (AEv D)} (he : (testAsync env b t).2 = t ++ ext) {a : ARound D} (hf : a.Measured)
    (hsub : ∀ ev ∈ a.acts, ev ∈ ext) :
    ∃ f1 f2 h1 h2 i1 i2 d1, b.fn1 = some f1 ∧ b.fn2 = some f2 ∧ f1 h1 i1 = .ok (a.m1, d1) ∧ f2 h2 i2 = .ok (a.m2, a.data) := by
  obtain ⟨ext', he', hg⟩ := C62_genuine env b t
  rw [he] at he'
  have := List.append_cancel_left he'
  subst this
  obtain ⟨⟨i1, d1, m1⟩, ⟨i2, m2⟩⟩ := hf
  obtain ⟨s1, s2, e⟩ := List.append_of_mem (hsub _ m1)
  obtain ⟨r1, r2, e'⟩ := List.append_of_mem (hsub _ m2)
  obtain ⟨f1, hf1, q1⟩ := hg _ _ _ e
  obtain ⟨f2, hf2, q2⟩ := hg _ _ _ e'
  exact ⟨f1, f2, _, _, i1, i2, d1, hf1, hf2, q1, q2⟩

section async
variable {D B : Type} {log2 : F → F} {powi : F → ℕ → F} {powf : F → F → F} (H : AccurateLibrary log2 powi) {tol : ℝ}
  (ht : tol = 1 / 10 ∨ tol = 1 / 4) (env : AEnv) (hE : env.f64 = shippedEnv log2 powi powf tol) (b : Builder D B)
  (hn : SaneSizes b.n1 b.n2) (hl : LimitCovered powf b.n1 b.n2 b.tmax) (hs : LimitCovered powf b.n1 b.n2 b.smax)
include H ht hE hn hl hs

theorem awithin_conforms {a : ARound D} (hm : Comparable a.m1 a.m2) (h : AWithin env b a) :
    Conforms tol abitLess b.n1 b.n2 b.tmax b.smax a.m1 a.m2 := by
  obtain ⟨c, hc, -, h2⟩ := conforms_verdicts powf H ht env.profile hn hl hs hm
  obtain ⟨⟨c', hc', hw⟩, htm⟩ := h
  unfold ARound.space at hc'
  unfold ATimeOk ARound.time at htm
  rw [hE] at hc' htm
  rw [hc] at hc'; cases hc'
  exact h2 htm hw

theorem conforms_awithin {a : ARound D} (hm : Comparable a.m1 a.m2)
    (h : Conforms tol abitMore b.n1 b.n2 b.tmax b.smax a.m1 a.m2) : AWithin env b a := by
  obtain ⟨c, hc, h1, -⟩ := conforms_verdicts powf H ht env.profile hn hl hs hm
  obtain ⟨ha, hb⟩ := h1 h
  refine ⟨⟨c, ?_, hb⟩, ?_⟩
  · unfold ARound.space; rw [hE]; exact hc
  · unfold ATimeOk ARound.time; rw [hE]; exact ha

/-- **C85** (asynchronous algorithms, soundness). -/
theorem C85_async_sound (t : List (AEv D)) (h : (testAsync env b t).1 = .ok ()) :
    ∃ (rounds : List (ARound D)) (a : ARound D) (ext : List (AEv D)), (testAsync env b t).2 = t ++ ext ∧
      actsOf ext = (rounds.map ARound.acts).flatten ++ a.acts ∧ a.Follows b ∧
      (Comparable a.m1 a.m2 → Conforms tol abitLess b.n1 b.n2 b.tmax b.smax a.m1 a.m2) := by
  obtain ⟨rounds, a, ext, h1, h2, -, -, h5, h6⟩ := C64_accepted_sound env b t h
  exact ⟨rounds, a, ext, h1, h2, h5, fun hm => awithin_conforms H ht env hE b hn hl hs hm h6⟩

/-- **C85** (asynchronous algorithms, a slow algorithm is never accepted). -/
theorem C85_async_rejects (t : List (AEv D))
    (hbad : ∀ f1 f2 h1 h2 i1 i2 x1 x2, b.fn1 = some f1 → b.fn2 = some f2 → f1 h1 i1 = .ok x1 → f2 h2 i2 = .ok x2 →
      Comparable x1.1 x2.1 ∧ ¬ Conforms tol abitLess b.n1 b.n2 b.tmax b.smax x1.1 x2.1) :
    ∃ e, (testAsync env b t).1 = .error e := by
  obtain ⟨as, last, ext, p, h1, h2, -, h4, h5⟩ := async_history env b t
  rcases h5 with ⟨a1, hr, a, -, rfl, a3, a4⟩ | ⟨a1, ⟨m, hr⟩, -⟩ | ⟨a1, rfl, m, hr⟩ | ⟨a1, a2, e, t0, a3, -⟩
  · exfalso
    have hsub : ∀ ev ∈ a.acts, ev ∈ ext := by
      intro ev hev
      have : ev ∈ actsOf ext := by rw [h2]; exact List.mem_append_right _ hev
      exact (List.mem_filter.1 this).1
    obtain ⟨f1, f2, g1, g2, i1, i2, d1, e1, e2, q1, q2⟩ := around_sourced h1 a3.1 hsub
    obtain ⟨hc, hb⟩ := hbad _ _ _ _ _ _ _ _ e1 e2 q1 q2
    exact hb (awithin_conforms H ht env hE b hn hl hs hc a4)
  · exact ⟨_, hr⟩
  · exact ⟨_, hr⟩
  · exact ⟨_, a3⟩

/-- **C85** (asynchronous algorithms, a good algorithm is always accepted, after one attempt). -/
theorem C85_async_accepts (t : List (AEv D)) (hb : ABenign b)
    (hgood : ∀ f1 f2 h1 h2 i1 i2 x1 x2, b.fn1 = some f1 → b.fn2 = some f2 → f1 h1 i1 = .ok x1 → f2 h2 i2 = .ok x2 →
      Comparable x1.1 x2.1 ∧ Conforms tol abitMore b.n1 b.n2 b.tmax b.smax x1.1 x2.1) :
    (testAsync env b t).1 = .ok () ∧
      ∃ (a : ARound D) (ext : List (AEv D)), (testAsync env b t).2 = t ++ ext ∧ a.Follows b ∧ actsOf ext = a.acts := by
  have L : FloatLaws env.f64 := by rw [hE]; exact shippedEnv_laws _ _ _ ht
  obtain ⟨as, last, ext, p, h1, h2, -, h4, h5⟩ := async_history env b t
  have good : ∀ a : ARound D, a.Follows b → (∀ ev ∈ a.acts, ev ∈ ext) → AWithin env b a := by
    intro a hf hsub
    obtain ⟨f1, f2, g1, g2, i1, i2, d1, e1, e2, q1, q2⟩ := around_sourced h1 hf.1 hsub
    obtain ⟨hc, hg⟩ := hgood _ _ _ _ _ _ _ _ e1 e2 q1 q2
    exact conforms_awithin H ht env hE b hn hl hs hc hg
  have hsub : ∀ ev ∈ last, ev ∈ ext := by
    intro ev hev
    have : ev ∈ actsOf ext := by rw [h2]; exact List.mem_append_right _ hev
    exact (List.mem_filter.1 this).1
  have hno : as = [] := by
    cases as with
    | nil => rfl
    | cons c l =>
      exfalso
      refine (h4 c (by simp)).2.2 (good c (h4 c (by simp)).1 ?_).2
      intro ev hev
      have : ev ∈ actsOf ext := by
        rw [h2]; exact List.mem_append_left _ (by simp only [roundActs, List.map_cons, List.flatten_cons]; exact List.mem_append_left _ hev)
      exact (List.mem_filter.1 this).1
  subst hno
  rcases h5 with ⟨-, hr, a, -, rfl, a3, -⟩ | ⟨-, -, a, -, rfl, a3, c, l, c1, c2, c3⟩ | ⟨h, -⟩ | ⟨-, -, e, t0, -, -, a5⟩
  · exact ⟨hr, a, ext, h1, a3, by rw [h2]; simp [roundActs]⟩
  · obtain ⟨⟨c', c1', c2'⟩, -⟩ := good a a3 hsub
    rw [c1] at c1'; cases c1'
    have := c2' l c2
    omega
  · simp at h
  · obtain ⟨x, t', hx⟩ := raw_benign L hb p t0
    rw [hx] at a5; cases a5

end async

/-! ## CRUD algorithms -/

theorem BothMeasured.can {env : CrudEnv} {cfg : CrudCfg} {t0 tr : List Ev} {op : Op} {p1 p2 : PassResult}
    (h : BothMeasured env cfg t0 tr op p1 p2) : CanMeasure env cfg op p1 p2 := by
  obtain ⟨⟨_, _, x1, _, e1⟩, ⟨_, _, x2, _, e2⟩⟩ := h
  exact ⟨⟨_, x1, e1⟩, ⟨_, x2, e2⟩⟩

/-- in an accepted analysis, every requested operation was within its limits -/
theorem accepted_within {env : CrudEnv} {cfg : CrudCfg} (hn : NoOverflow cfg) {t t' : List Ev} {a : CrudAnalyses} {report : String}
    (h : internalAnalyse env cfg t = (.ok (a, report), t')) (op : Op) (hi : 0 < (cfg.op op).iters) : WithinIn env cfg t t' op := by
  obtain ⟨c1, c2, c3, c4⟩ := C51_analyses env cfg t a report t' h
  obtain ⟨hc, hd, hru⟩ := C58_accepted env cfg hn t a report t' h
  cases op with
  | create =>
    obtain ⟨an, han⟩ := Option.isSome_iff_exists.1 (c1.2 hi)
    obtain ⟨p1, p2, n, rfl, m1, m2, -, e1, e2, l1, l2⟩ := hc an han
    refine ⟨p1, p2, an.space, ⟨?_, ?_⟩, ?_, e2, l2⟩
    · simpa [opRange] using m1
    · simpa [opRange] using m2
    · rw [e1] at l1; exact l1
  | delete =>
    obtain ⟨an, han⟩ := Option.isSome_iff_exists.1 (c4.2 hi)
    obtain ⟨p1, p2, n, rfl, m1, m2, -, e1, e2, l1, l2⟩ := hd an han
    refine ⟨p1, p2, an.space, ⟨?_, ?_⟩, ?_, e2, l2⟩
    · simpa [opRange] using m1
    · simpa [opRange] using m2
    · rw [e1] at l1; exact l1
  | read =>
    obtain ⟨an, han⟩ := Option.isSome_iff_exists.1 (c2.2 hi)
    obtain ⟨p1, p2, n, m, rfl, rfl, m1, m2, -, e1, e2, l1, l2⟩ := hru .read (Or.inl rfl) an (by simpa using han)
    refine ⟨p1, p2, an.space, ⟨?_, ?_⟩, ?_, e2, l2⟩
    · simpa [opRange] using m1
    · simpa [opRange] using m2
    · rw [e1] at l1; exact l1
  | update =>
    obtain ⟨an, han⟩ := Option.isSome_iff_exists.1 (c3.2 hi)
    obtain ⟨p1, p2, n, m, rfl, rfl, m1, m2, -, e1, e2, l1, l2⟩ := hru .update (Or.inr rfl) an (by simpa using han)
    refine ⟨p1, p2, an.space, ⟨?_, ?_⟩, ?_, e2, l2⟩
    · simpa [opRange] using m1
    · simpa [opRange] using m2
    · rw [e1] at l1; exact l1

section crud
variable {log2 : F → F} {powi : F → ℕ → F} {powf : F → F → F} (H : AccurateLibrary log2 powi) {tol : ℝ}
  (ht : tol = 1 / 10 ∨ tol = 1 / 4) (env : CrudEnv) (hE : env.f64 = shippedEnv log2 powi powf tol)
include H ht hE

/-- the verdicts of the passes of an operation -/
theorem op_verdicts {cfg : CrudCfg} (hn : NoOverflow cfg) {op : Op} (hs : SaneOp powf cfg op) {m1 m2 : PassResult} (hm : Comparable m1 m2) :
    ∃ c, opSpace env cfg op m1 m2 = .ok c ∧
      (OpConforms tol abitMore cfg op m1 m2 →
        (opTime env cfg op m1 m2).asU32 ≤ (cfg.op op).tmax.asU32 ∧ c.asU32 ≤ (cfg.op op).smax.asU32) ∧
      ((opTime env cfg op m1 m2).asU32 ≤ (cfg.op op).tmax.asU32 → c.asU32 ≤ (cfg.op op).smax.asU32 →
        OpConforms tol abitLess cfg op m1 m2) := by
  have T := fun l => C83_time log2 powi powf H tol ht m1.time m2.time hm.time1 hm.plausible1 hm.plausible2 l
  have S := fun l => C83_space log2 powi powf H tol ht env.profile m1.space m2.space hm.space1 hm.space2 hm.fits1 hm.fits2 l
  rw [← hE] at T S
  have resizing : ∀ n : ℕ, 2 ≤ n → n ≤ 2 ^ 32 → ∀ tmax smax, ∃ c, analyseSpaceSetResizing env.f64 env.profile ⟨n⟩ ⟨m1.space, m2.space⟩ = .ok c ∧
      (ConformsResizing tol abitMore n tmax smax m1 m2 →
        (analyseTimeSetResizing env.f64 ⟨n⟩ ⟨m1.time, m2.time⟩).asU32 ≤ tmax.asU32 ∧ c.asU32 ≤ smax.asU32) ∧
      ((analyseTimeSetResizing env.f64 ⟨n⟩ ⟨m1.time, m2.time⟩).asU32 ≤ tmax.asU32 → c.asU32 ≤ smax.asU32 →
        ConformsResizing tol abitLess n tmax smax m1 m2) := by
    intro n h2 h32 tmax smax
    have t1 := (T tmax).2.2 n h2 h32
    obtain ⟨c, hc, s1⟩ := (S smax).2.2 n h2 h32
    exact ⟨c, hc, fun h => ⟨t1.1 h.time, s1.1 h.space⟩, fun a b => ⟨t1.2 a, s1.2 b⟩⟩
  have constant : ∀ n rep : ℕ, 3 ≤ n → 2 * n ≤ 2 ^ 32 → ∀ tmax smax : Complexity, Covered powf n (2 * n) tmax → Covered powf n (2 * n) smax →
      ∃ c, analyseSpaceConstantSet env.f64 env.profile ⟨n, 2 * n, rep⟩ ⟨m1.space, m2.space⟩ = .ok c ∧
      (Conforms tol abitMore n (2 * n) (some tmax) (some smax) m1 m2 →
        (analyseTimeConstantSet env.f64 ⟨n, 2 * n, rep⟩ ⟨m1.time, m2.time⟩).asU32 ≤ tmax.asU32 ∧ c.asU32 ≤ smax.asU32) ∧
      ((analyseTimeConstantSet env.f64 ⟨n, 2 * n, rep⟩ ⟨m1.time, m2.time⟩).asU32 ≤ tmax.asU32 → c.asU32 ≤ smax.asU32 →
        Conforms tol abitLess n (2 * n) (some tmax) (some smax) m1 m2) := by
    intro n rep h3 h32 tmax smax lt ls
    have e1 : min n (2 * n) = n := by omega
    have e2 : max n (2 * n) = 2 * n := by omega
    have t1 := (T tmax).2.1 n (2 * n) rep h3 (by omega) (by omega) h32 (by rw [e1, e2]; exact lt)
    obtain ⟨c, hc, s1⟩ := (S smax).2.1 n (2 * n) rep h3 (by omega) (by omega) h32 (by rw [e1, e2]; exact ls)
    rw [e1, e2] at t1 s1
    refine ⟨c, hc, fun h => ⟨t1.1 (h.time _ rfl), s1.1 (h.space _ rfl)⟩, fun a b => ⟨fun l e => ?_, fun l e => ?_⟩⟩
    · cases e; exact t1.2 a
    · cases e; exact s1.2 b
  cases op with
  | create => exact resizing _ hs (by have := (hn .create).1; omega) _ _
  | delete => exact resizing _ hs (by have := (hn .delete).1; omega) _ _
  | read => exact constant _ _ hs.1 (by have := (hn .create).1; omega) _ _ hs.2.1 hs.2.2
  | update => exact constant _ _ hs.1 (by have := (hn .create).1; omega) _ _ hs.2.1 hs.2.2

theorem withinIn_conforms {cfg : CrudCfg} (hn : NoOverflow cfg) {op : Op} (hs : SaneOp powf cfg op) {t0 tr : List Ev}
    (h : WithinIn env cfg t0 tr op) : ∃ m1 m2, BothMeasured env cfg t0 tr op m1 m2 ∧
      (Comparable m1 m2 → OpConforms tol abitLess cfg op m1 m2) := by
  obtain ⟨p1, p2, sp, hb, h1, h2, h3⟩ := h
  refine ⟨p1, p2, hb, fun hm => ?_⟩
  obtain ⟨c, hc, -, h4⟩ := op_verdicts H ht env hE hn hs hm
  rw [h2] at hc; cases hc
  exact h4 h1 h3

/-- **C85** (CRUD algorithms, a good algorithm is always accepted): if the closures do not panic and any two passes they can ever
make conform to the limits with a margin of one part in 2^40, then the first attempt succeeds. -/
theorem C85_crud_accepts (cfg : CrudCfg) (hb : BenignCrud env) (hf : Fits cfg) (hs : ∀ op, 0 < (cfg.op op).iters → SaneOp powf cfg op)
    (max : ℕ) (hmax : 1 ≤ max) (t : List Ev)
    (hgood : ∀ op, 0 < (cfg.op op).iters → ∀ m1 m2, CanMeasure env cfg op m1 m2 → Comparable m1 m2 ∧ OpConforms tol abitMore cfg op m1 m2) :
    (testCrud env cfg max t).1 = .ok () ∧ Accepted env cfg t 0 := by
  have L : FloatLaws env.f64 := by rw [hE]; exact shippedEnv_laws _ _ _ ht
  have h0 : Accepted env cfg t 0 := by
    unfold Accepted attempt
    have : adaptCfg env.profile 0 cfg = .ok cfg := by
      unfold adaptCfg adapt
      simp only [if_true, bind, Except.bind, pure, Except.pure]
      congr 1
      obtain ⟨nm, wu, f⟩ := cfg
      congr 1
      funext o
      cases o <;> rfl
    rw [this]
    rcases C58_accepted_or_rejected env L hb cfg hf (beforeAttempt env cfg t 0) with ⟨a, t', h⟩ | ⟨e, t', h, hbl⟩
    · exact ⟨a, by simp only [h]⟩
    · exfalso
      obtain ⟨op, p1, p2, hi, -, hm, hv, -⟩ := hbl
      obtain ⟨hc, hg⟩ := hgood op hi p1 p2 hm.can
      obtain ⟨c, hc', h1, -⟩ := op_verdicts H ht env hE hf.1 (hs op hi) hc
      obtain ⟨g1, g2⟩ := h1 hg
      rcases hv with ⟨-, -, hlt⟩ | ⟨-, -, hsp, hlt⟩
      · omega
      · rw [hc'] at hsp; cases hsp; omega
  exact ⟨(C53_accepts_iff env cfg max hmax t).2 ⟨0, hmax, h0, fun j hj => by omega⟩, h0⟩

omit H ht hE in
/-- the configuration of an attempt -/
theorem attempt_cfg {cfg : CrudCfg} (hr : RoomForRetries cfg) {k : ℕ} {cfg' : CrudCfg} (h : adaptCfg env.profile k cfg = .ok cfg') :
    RetryOf cfg cfg' ∧ NoOverflow cfg' := by
  have bounds : ∀ o, (cfg.op o).iters / 10 ≤ (cfg'.op o).iters ∧ 2 * (cfg'.op o).iters ≤ 3 * (cfg.op o).iters := by
    intro o
    have hr1 := (hr o).1
    exact (C55_adapt_bounds env.profile k (cfg.op o).iters (by omega)).2.1 _ (adaptCfg_ok h o).1 (Or.inl (by omega))
  refine ⟨⟨(adaptCfg_ok h .create).2.2.2.2, fun o => (adaptCfg_ok h o).2.1, fun o => (adaptCfg_ok h o).2.2.1, fun o => (adaptCfg_ok h o).2.2.2.1,
    fun o => (bounds o).1, fun o => (bounds o).2⟩, fun o => ⟨?_, ?_⟩⟩
  · have := (hr o).1
    have := (bounds o).2
    omega
  · rw [(adaptCfg_ok h o).2.2.2.2]
    refine lt_of_le_of_lt (Nat.mul_le_mul_right _ ?_) (hr o).2
    have := (bounds o).2
    omega

/-- **C85** (CRUD algorithms, soundness): if a test succeeds (with at least one attempt allowed), then it made an attempt, with the
requested element counts or those of a retry, in which both passes of every operation were measured and conform to its limits
(up to one part in 2^40), provided they can be compared at all. -/
theorem C85_crud_sound (cfg : CrudCfg) (hr : RoomForRetries cfg) (max : ℕ) (hmax : 1 ≤ max) (t : List Ev)
    (h : (testCrud env cfg max t).1 = .ok ()) :
    ∃ k cfg' t', k < max ∧ RetryOf cfg cfg' ∧ (attempt env cfg k (beforeAttempt env cfg t k)).2 = t' ∧
      ∀ op, 0 < (cfg'.op op).iters → SaneOp powf cfg' op → ∃ m1 m2, BothMeasured env cfg' (beforeAttempt env cfg t k) t' op m1 m2 ∧
        (Comparable m1 m2 → OpConforms tol abitLess cfg' op m1 m2) := by
  obtain ⟨k, hk, ⟨⟨a, rep⟩, ha⟩, -⟩ := (C53_accepts_iff env cfg max hmax t).1 h
  unfold attempt at ha
  cases hc : adaptCfg env.profile k cfg with
  | error e => rw [hc] at ha; cases ha
  | ok cfg' =>
    rw [hc] at ha
    obtain ⟨h1, h2⟩ := attempt_cfg env hr hc
    refine ⟨k, cfg', (internalAnalyse env cfg' (beforeAttempt env cfg t k)).2, hk, h1, by unfold attempt; rw [hc], fun op hi hs => ?_⟩
    exact withinIn_conforms H ht env hE h2 hs (accepted_within h2 (a := a) (report := rep) (by rw [← ha]) op hi)

/-- **C85** (CRUD algorithms, a slow algorithm is never accepted): if no two passes that the closure of an operation can ever
make, with the requested element counts or those of a retry, conform to its limits, then the test fails, whatever happens and
however often it retries. There must be at least 30 elements (retries may divide the counts by ten), and one attempt allowed. -/
theorem C85_crud_rejects (cfg : CrudCfg) (hr : RoomForRetries cfg) (max : ℕ) (hmax : 1 ≤ max) (t : List Ev) (op : Op)
    (h30 : 30 ≤ (cfg.op op).iters) (hc30 : op = .read ∨ op = .update → 30 ≤ (cfg.op .create).iters ∧
      ∀ n, Covered powf n (2 * n) (cfg.op op).tmax ∧ Covered powf n (2 * n) (cfg.op op).smax)
    (hbad : ∀ cfg', RetryOf cfg cfg' → ∀ m1 m2, CanMeasure env cfg' op m1 m2 → Comparable m1 m2 ∧ ¬ OpConforms tol abitLess cfg' op m1 m2) :
    (testCrud env cfg max t).1 ≠ .ok () := by
  intro h
  obtain ⟨k, cfg', t', -, h1, -, h2⟩ := C85_crud_sound H ht env hE cfg hr max hmax t h
  have g1 := h1.atLeast op
  have sane : SaneOp powf cfg' op := by
    have gc := h1.atLeast .create
    cases op with
    | create => show 2 ≤ _; omega
    | delete => show 2 ≤ _; omega
    | read => exact ⟨by have := (hc30 (Or.inl rfl)).1; omega, by rw [h1.tmax]; exact ((hc30 (Or.inl rfl)).2 _).1, by rw [h1.smax]; exact ((hc30 (Or.inl rfl)).2 _).2⟩
    | update => exact ⟨by have := (hc30 (Or.inr rfl)).1; omega, by rw [h1.tmax]; exact ((hc30 (Or.inr rfl)).2 _).1, by rw [h1.smax]; exact ((hc30 (Or.inr rfl)).2 _).2⟩
  obtain ⟨m1, m2, hm, hw⟩ := h2 op (by omega) sane
  obtain ⟨a, b⟩ := hbad cfg' h1 m1 m2 hm.can
  exact b (hw a)

end crud

/-! ## concrete cases -/

/-- the shipped arithmetic with an ideal library -/
noncomputable def idealShipped : FloatEnv := shippedEnv idealLog2 idealPowi (fun x _ => x) (1 / 10)

/-- an algorithm whose second pass, on twice the elements, takes four times the time and the bytes -/
def quadratic (second : Bool) : PassResult := if second then ⟨4 * 10 ^ 6, ⟨50, 50, 450, 50⟩⟩ else ⟨10 ^ 6, ⟨50, 50, 150, 50⟩⟩

theorem quadratic_comparable : Comparable (quadratic false) (quadratic true) where
  time1 := by decide
  plausible1 := by unfold PlausibleTime; decide
  plausible2 := by unfold PlausibleTime; decide
  space1 := by decide
  space2 := by decide
  fits1 := by decide
  fits2 := by decide

theorem quadratic_sizes : SaneSizes 1000 2000 := by unfold SaneSizes; decide

theorem quadratic_conforms : Conforms (1 / 10) abitMore 1000 2000 (some .oN2) (some .oN2) (quadratic false) (quadratic true) := by
  constructor <;> intro l h <;> cases h <;>
    simp only [MeetsLimit, grows, seconds, bytesUsed, abitMore, quadratic, if_true] <;> norm_num

theorem quadratic_not_linear (smax : Option Complexity) :
    ¬ Conforms (1 / 10) abitLess 1000 2000 (some .oN) smax (quadratic false) (quadratic true) := by
  intro h
  have := h.time _ rfl
  simp only [MeetsLimit, grows, seconds, abitLess, quadratic, if_true] at this
  norm_num at this

/-- the closures of a regular test of that algorithm -/
noncomputable def quadraticEnv (T : TextEnv) : RegEnv :=
  ⟨.checked, idealShipped, T, fun _ => "", fun _ c => .ok (quadratic (c = .pass2), 0)⟩

-- accepted as O(n²), never as O(n)
example (T : TextEnv) (retries : ℕ) : (testAlgorithm (quadraticEnv T) ⟨"quadratic", retries, 1000, 2000, .oN2, .oN2⟩ []).1 = .ok () := by
  refine (C85_regular_accepts ideal_library (Or.inl rfl) (quadraticEnv T) rfl _ quadratic_sizes ?_ ?_ [] ?_ (by norm_num) ?_).1
  · rintro c h; cases h; simp [Covered, Complexity.asU32]
  · rintro c h; cases h; simp [Covered, Complexity.asU32]
  · intro h c
    refine ⟨_, _, rfl, ?_, ?_⟩
    · cases c <;> exact ⟨by decide, by decide, by decide, by decide⟩
    · cases c <;> (unfold PlausibleTime; decide)
  · intro h1 h2 x1 x2 e1 e2
    cases e1; cases e2
    exact ⟨quadratic_comparable, quadratic_conforms⟩

example (T : TextEnv) (retries : ℕ) : ∃ e, (testAlgorithm (quadraticEnv T) ⟨"quadratic", retries, 1000, 2000, .oN, .oN2⟩ []).1 = .error e := by
  refine C85_regular_rejects ideal_library (Or.inl rfl) (quadraticEnv T) rfl _ quadratic_sizes ?_ ?_ [] ?_
  · rintro c h; cases h; simp [Covered, Complexity.asU32]
  · rintro c h; cases h; simp [Covered, Complexity.asU32]
  · intro h1 h2 x1 x2 e1 e2
    cases e1; cases e2
    exact ⟨quadratic_comparable, quadratic_not_linear _⟩

/-- an asynchronous test of that algorithm, with a reset and no limit on space -/
def quadraticBuilder (tmax : Complexity) : Builder Unit Unit :=
  ⟨"quadratic", some fun _ _ => .ok (quadratic false, ()), some 5, none, 1000, some fun _ _ => .ok (quadratic false, ()), none,
    2000, some fun _ _ => .ok (quadratic true, ()), none, some tmax, none, none, []⟩

example (T : TextEnv) : (testAsync ⟨.checked, idealShipped, T, fun _ => ""⟩ (quadraticBuilder .oN2) []).1 = .ok () := by
  refine (C85_async_accepts ideal_library (Or.inl rfl) _ rfl (quadraticBuilder .oN2) quadratic_sizes ?_ ?_ [] ?_ ?_).1
  · rintro c h; cases h; exact Or.inl (by decide)
  · rintro c h; cases h
  · refine ⟨?_, ?_, rfl, rfl, by decide, by decide⟩
    · rintro f (h | h | h | h) hh i <;> cases h <;>
        exact ⟨_, _, rfl, ⟨by decide, by decide, by decide, by decide⟩, by unfold PlausibleTime; decide⟩
    · rintro c (h | h) <;> cases h
  · intro f1 f2 h1 h2 i1 i2 x1 x2 e1 e2 q1 q2
    cases e1; cases e2; cases q1; cases q2
    exact ⟨quadratic_comparable, ⟨quadratic_conforms.time, fun l h => by cases h⟩⟩

example (T : TextEnv) : ∃ e, (testAsync ⟨.checked, idealShipped, T, fun _ => ""⟩ (quadraticBuilder .oN) []).1 = .error e := by
  refine C85_async_rejects ideal_library (Or.inl rfl) _ rfl (quadraticBuilder .oN) quadratic_sizes ?_ ?_ [] ?_
  · rintro c h; cases h; exact Or.inl (by decide)
  · rintro c h; cases h
  · intro f1 f2 h1 h2 i1 i2 x1 x2 e1 e2 q1 q2
    cases e1; cases e2; cases q1; cases q2
    exact ⟨quadratic_comparable, quadratic_not_linear _⟩

/-- a CRUD test of creating and reading elements, the second pass of which takes twice the resources -/
noncomputable def doublingEnv (T : TextEnv) : CrudEnv :=
  ⟨.checked, idealShipped, T, fun _ ph _ _ _ _ => .ok (if ph = .pass2 then ⟨2 * 10 ^ 6, ⟨50, 50, 250, 50⟩⟩ else ⟨10 ^ 6, ⟨50, 50, 150, 50⟩⟩, 0),
    fun _ => 10 ^ 6, fun _ _ => .ok ()⟩

def doublingCfg (limit : Complexity) : CrudCfg :=
  ⟨"doubling", 10, fun o => ⟨if o = .create ∨ o = .read then 1000 else 0, 2, limit, limit⟩⟩

theorem doubling_measures (T : TextEnv) {cfg : CrudCfg} {op : Op} {m1 m2 : PassResult} (h : CanMeasure (doublingEnv T) cfg op m1 m2) :
    m1 = ⟨10 ^ 6, ⟨50, 50, 150, 50⟩⟩ ∧ m2 = ⟨2 * 10 ^ 6, ⟨50, 50, 250, 50⟩⟩ := by
  obtain ⟨⟨t, x, e⟩, ⟨t', x', e'⟩⟩ := h
  cases e; cases e'
  exact ⟨rfl, rfl⟩

theorem doubling_comparable : Comparable ⟨10 ^ 6, ⟨50, 50, 150, 50⟩⟩ ⟨2 * 10 ^ 6, ⟨50, 50, 250, 50⟩⟩ where
  time1 := by decide
  plausible1 := by unfold PlausibleTime; decide
  plausible2 := by unfold PlausibleTime; decide
  space1 := by decide
  space2 := by decide
  fits1 := by decide
  fits2 := by decide

theorem doubling_fits (limit : Complexity) : Fits (doublingCfg limit) ∧ RoomForRetries (doublingCfg limit) := by
  refine ⟨⟨fun o => ?_, fun o _ => ?_⟩, fun o => ?_⟩ <;> cases o <;> simp [doublingCfg]

-- within O(n)
example (T : TextEnv) : (testCrud (doublingEnv T) (doublingCfg .oN) 3 []).1 = .ok () := by
  refine (C85_crud_accepts ideal_library (Or.inl rfl) (doublingEnv T) rfl (doublingCfg .oN) ?_ (doubling_fits _).1 ?_ 3 (by norm_num) [] ?_).1
  · refine ⟨fun _ _ => rfl, fun tr ph op a b th => ?_⟩
    refine ⟨_, _, rfl, ?_, ?_⟩
    · cases ph <;> exact ⟨by decide, by decide, by decide, by decide⟩
    · cases ph <;> (unfold PlausibleTime; decide)
  · intro op h
    cases op <;> simp [SaneOp, Covered, doublingCfg, Complexity.asU32] at h ⊢
  · intro op hop m1 m2 hm
    obtain ⟨rfl, rfl⟩ := doubling_measures T hm
    refine ⟨doubling_comparable, ?_⟩
    cases op with
    | update => simp [doublingCfg] at hop
    | delete => simp [doublingCfg] at hop
    | create =>
      constructor <;> left <;> simp only [seconds, bytesUsed, abitMore] <;> norm_num
    | read =>
      constructor <;> rintro l ⟨⟩ <;> simp only [MeetsLimit, grows, seconds, bytesUsed, abitMore, doublingCfg] <;> norm_num

-- never within O(1)
example (T : TextEnv) (max : ℕ) (h : 1 ≤ max) : (testCrud (doublingEnv T) (doublingCfg .o1) max []).1 ≠ .ok () := by
  refine C85_crud_rejects ideal_library (Or.inl rfl) (doublingEnv T) rfl (doublingCfg .o1) (doubling_fits _).2 max h [] .create
    (by decide) (by rintro (h | h) <;> cases h) ?_
  intro cfg' hr m1 m2 hm
  obtain ⟨rfl, rfl⟩ := doubling_measures T hm
  refine ⟨doubling_comparable, fun hc => ?_⟩
  have := hc.time
  rw [hr.tmax] at this
  simp only [MeetsResizingLimit, doublingCfg, seconds, abitLess] at this
  norm_num at this

/-- an exponential algorithm: 3 s on 10 elements, 9 s on 20; 3 and 9 bytes -/
def exponential (second : Bool) : PassResult := if second then ⟨9 * 10 ^ 9, ⟨50, 50, 59, 50⟩⟩ else ⟨3 * 10 ^ 9, ⟨50, 50, 53, 50⟩⟩

noncomputable def exponentialEnv (T : TextEnv) : RegEnv :=
  ⟨.checked, shippedEnv idealLog2 idealPowi idealPowf (1 / 10), T, fun _ => "", fun _ c => .ok (exponential (c = .pass2), 0)⟩

-- accepted as exponential
example (T : TextEnv) (retries : ℕ) : (testAlgorithm (exponentialEnv T) ⟨"exponential", retries, 10, 20, .okN, .okN⟩ []).1 = .ok () := by
  refine (C85_regular_accepts ideal_library (Or.inl rfl) (exponentialEnv T) rfl _ (by unfold SaneSizes; norm_num)
    (fun _ _ => Or.inr (Or.inr ⟨ideal_powf, by norm_num⟩)) (fun _ _ => Or.inr (Or.inr ⟨ideal_powf, by norm_num⟩)) [] ?_ (by norm_num) ?_).1
  · intro h c
    refine ⟨_, _, rfl, ?_, ?_⟩
    · cases c <;> exact ⟨by decide, by decide, by decide, by decide⟩
    · cases c <;> (unfold PlausibleTime; decide)
  · intro h1 h2 x1 x2 e1 e2
    cases e1; cases e2
    refine ⟨⟨by decide, by unfold PlausibleTime; decide, by unfold PlausibleTime; decide, by decide, by decide, by decide, by decide⟩, ?_⟩
    constructor <;> rintro l ⟨⟩ <;> right <;> simp only [seconds, bytesUsed, abitMore, exponential, if_true, decide_true, reduceCtorEq, decide_false, Bool.false_eq_true, if_false] <;> norm_num

end BigO
