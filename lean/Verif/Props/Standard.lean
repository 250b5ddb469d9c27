import Verif.Proofs.StandardMono

/-!
# Properties of the test of regular algorithms (C60, C61, and C57 for it)
-/
namespace BigO

/-! ## C60: attempts and calls -/

/-- **C60.** Whatever is measured and whatever panics: the closures are called in complete rounds of reset, pass 1, pass 2, except
that the last round may be cut short; there is at least one round and at most `max_retry_attempts + 1`; all rounds but the last
one exceeded the limit on time and were within the one on space. -/
theorem C60_attempts (env : RegEnv) (cfg : RegCfg) (t : List RegEv) :
    ∃ (rounds : List Attempt) (last ext : List RegEv), (testAlgorithm env cfg t).2 = t ++ ext ∧
      regCallsOf ext = (rounds.map Attempt.calls).flatten ++ last ∧
      last.map RegEv.kind <+: [some .reset, some .pass1, some .pass2] ∧
      rounds.length ≤ cfg.maxRetry ∧
      (∀ a ∈ rounds, TimeOnly env cfg a) ∧ last ≠ [] := by
  obtain ⟨as, last, ext, h1, -, h2, h3, h4⟩ := test_history (env := env) cfg t
  rcases h4 with ⟨a1, -, a, a2, -⟩ | ⟨a1, -, a, a2, -⟩ | ⟨a1, a2, -⟩ | ⟨a1, a2, -⟩
  · exact ⟨as, last, ext, h1, h2, by rw [a2]; simp [Attempt.calls, RegEv.kind], a1, fun a h => (h3 a h).1, by rw [a2]; simp [Attempt.calls]⟩
  · exact ⟨as, last, ext, h1, h2, by rw [a2]; simp [Attempt.calls, RegEv.kind], a1, fun a h => (h3 a h).1, by rw [a2]; simp [Attempt.calls]⟩
  · rcases List.eq_nil_or_concat as with rfl | ⟨l, b, rfl⟩
    · simp at a1
    · refine ⟨l, b.calls, ext, h1, ?_, by simp [Attempt.calls, RegEv.kind], by simpa using a1.le, fun a h => (h3 a (by simp [h])).1, by simp [Attempt.calls]⟩
      rw [h2, a2]; simp [roundCalls]
  · refine ⟨as, last, ext, h1, h2, a2.1, a1, fun a h => (h3 a h).1, ?_⟩
    obtain ⟨-, h⟩ := a2
    rcases h with ⟨c, hc⟩ | ⟨c, m, hc, -⟩ | ⟨a, ha, -⟩
    · intro h; rw [h] at hc; simp at hc
    · intro h; rw [h] at hc; simp at hc
    · rw [ha]; simp [Attempt.calls]

/-! ## C61: acceptance -/

/-- **C61** (soundness): whatever is measured, the test returns normally only after a round within both limits; the rounds before it
exceeded the limit on time only. -/
theorem C61_accepted_sound (env : RegEnv) (cfg : RegCfg) (t : List RegEv) (h : (testAlgorithm env cfg t).1 = .ok ()) :
    ∃ (rounds : List Attempt) (a : Attempt) (ext : List RegEv), (testAlgorithm env cfg t).2 = t ++ ext ∧
      regCallsOf ext = (rounds.map Attempt.calls).flatten ++ a.calls ∧ rounds.length ≤ cfg.maxRetry ∧
      (∀ b ∈ rounds, TimeOnly env cfg b) ∧ WithinLimits env cfg a := by
  obtain ⟨as, last, ext, h1, -, h2, h3, h4⟩ := test_history (env := env) cfg t
  rcases h4 with ⟨a1, -, a, rfl, -, a3⟩ | ⟨a1, ⟨m, hm⟩, -⟩ | ⟨a1, a2, m, hm⟩ | ⟨a1, a2, e, he⟩
  · exact ⟨as, a, ext, h1, h2, a1, fun a h => (h3 a h).1, a3⟩
  · rw [h] at hm; cases hm
  · rw [h] at hm; cases hm
  · rw [h] at he; cases he

/-- plausible measurements can be shown -/
theorem presentable_of_plausible {env : RegEnv} (L : FloatLaws env.f64) {cfg : RegCfg} (h1 : 0 < cfg.n1) (h1' : cfg.n1 < 2 ^ 32)
    (h2 : 0 < cfg.n2) (h2' : cfg.n2 < 2 ^ 32) {a : Attempt} (p1 : PlausibleReading a.m1.space) (p2 : PlausibleReading a.m2.space)
    (d1 : PlausibleTime a.m1.time) (d2 : PlausibleTime a.m2.time) : Presentable env cfg a := by
  have hs : ∃ c, a.space env cfg = .ok c := by
    unfold Attempt.space analyseSpace usizeSub
    rw [if_pos p1.before_le, if_pos p2.before_le]
    exact ⟨_, rfl⟩
  obtain ⟨c, hc⟩ := hs
  exact ⟨c, hc, (C74_no_panic_partial env.f64 L env.text env.profile _ _ p1 p2 d1 d2 cfg.name _ _).1 cfg.n1 cfg.n2 h1 h1' h2 h2'⟩

/-- nothing breaks if measurements are plausible -/
theorem not_broken {env : RegEnv} (L : FloatLaws env.f64) (hb : Benign env) {cfg : RegCfg} (h1 : 0 < cfg.n1) (h1' : cfg.n1 < 2 ^ 32)
    (h2 : 0 < cfg.n2) (h2' : cfg.n2 < 2 ^ 32) {ext last : List RegEv} (hs : Sourced env ext) (hsub : ∀ ev ∈ last, ev ∈ ext) :
    ¬ Broken env cfg last := by
  have plaus : ∀ c m, .call c (some m) ∈ last → PlausibleReading m.space ∧ PlausibleTime m.time := by
    intro c m h
    obtain ⟨hh, r, e⟩ := hs.2 c m (hsub _ h)
    obtain ⟨m', r', e', q⟩ := hb hh c
    rw [e] at e'; cases e'; exact q
  rintro ⟨-, h⟩
  rcases h with ⟨c, h⟩ | ⟨c, m, h, hd⟩ | ⟨a, rfl, hp⟩
  · obtain ⟨hh, e, he⟩ := hs.1 c (hsub _ h)
    obtain ⟨m', r', e', -⟩ := hb hh c
    rw [he] at e'; cases e'
  · exact hd (fmtOverN_ok env.text env.profile (plaus c m h).1 1)
  · have q1 := plaus .pass1 a.m1 (by simp [Attempt.calls])
    have q2 := plaus .pass2 a.m2 (by simp [Attempt.calls])
    exact hp (presentable_of_plausible L h1 h1' h2 h2' q1.1 q2.1 q1.2 q2.2)

/-- **C61.** If the closures do not panic and readings are plausible, then the test makes between 1 and `max_retry_attempts + 1`
complete rounds; it returns normally iff the last one is within both limits and all others exceeded the limit on time only;
otherwise it panics with a message, and then the last round exceeded the limit on space, or all `max_retry_attempts + 1` rounds
exceeded the limit on time only. -/
theorem C61_accepts_iff (env : RegEnv) (L : FloatLaws env.f64) (hb : Benign env) (cfg : RegCfg) (h1 : 0 < cfg.n1)
    (h1' : cfg.n1 < 2 ^ 32) (h2 : 0 < cfg.n2) (h2' : cfg.n2 < 2 ^ 32) (t : List RegEv) :
    ∃ (rounds : List Attempt) (ext : List RegEv), (testAlgorithm env cfg t).2 = t ++ ext ∧
      regCallsOf ext = (rounds.map Attempt.calls).flatten ∧ 1 ≤ rounds.length ∧ rounds.length ≤ cfg.maxRetry + 1 ∧
      ((testAlgorithm env cfg t).1 = .ok () ↔
        ∃ l a, rounds = l ++ [a] ∧ (∀ b ∈ l, TimeOnly env cfg b) ∧ WithinLimits env cfg a) ∧
      ((testAlgorithm env cfg t).1 ≠ .ok () → (∃ m, (testAlgorithm env cfg t).1 = .error (.msg m)) ∧
        ((∃ l a, rounds = l ++ [a] ∧ (∀ b ∈ l, TimeOnly env cfg b) ∧ SpaceBad env cfg a) ∨
         (rounds.length = cfg.maxRetry + 1 ∧ ∀ b ∈ rounds, TimeOnly env cfg b))) := by
  obtain ⟨as, last, ext, h3, hs, h4, h5, h6⟩ := test_history (env := env) cfg t
  have hsub : ∀ ev ∈ last, ev ∈ ext := by
    intro ev hev
    have : ev ∈ regCallsOf ext := by rw [h4]; exact List.mem_append_right _ hev
    exact (List.mem_filter.1 this).1
  rcases h6 with ⟨a1, hr, a, rfl, -, a3⟩ | ⟨a1, ⟨m, hr⟩, a, rfl, -, a3⟩ | ⟨a1, rfl, m, hr⟩ | ⟨a1, a2, -⟩
  · refine ⟨as ++ [a], ext, h3, by rw [h4]; simp [roundCalls], by simp, by simpa using a1, ?_, fun h => absurd hr h⟩
    exact ⟨fun _ => ⟨as, a, rfl, fun b hb => (h5 b hb).1, a3⟩, fun _ => hr⟩
  · refine ⟨as ++ [a], ext, h3, by rw [h4]; simp [roundCalls], by simp, by simpa using a1, ?_, fun _ => ⟨⟨m, hr⟩, Or.inl ⟨as, a, rfl, fun b hb => (h5 b hb).1, a3⟩⟩⟩
    constructor
    · intro h; rw [hr] at h; cases h
    · rintro ⟨l, b, hl, -, hw, -⟩
      have hba : b = a := by
        have := congrArg List.getLast? hl
        simpa using this.symm
      subst hba
      obtain ⟨c, c1, c2⟩ := a3
      obtain ⟨c', c1', c2'⟩ := hw
      rw [c1] at c1'; cases c1'
      omega
  · refine ⟨as, ext, h3, by rw [h4]; simp [roundCalls], by omega, by omega, ?_, fun _ => ⟨⟨m, hr⟩, Or.inr ⟨a1, fun b hb => (h5 b hb).1⟩⟩⟩
    constructor
    · intro h; rw [hr] at h; cases h
    · rintro ⟨l, b, rfl, -, -, hw⟩
      exact absurd hw (h5 b (by simp)).1.2
  · exact absurd a2 (not_broken L hb h1 h1' h2 h2' hs hsub)

/-! ## C57 for regular algorithms -/

/-- **C57** (regular algorithms): if the closures cannot see the output, a test that is accepted is also accepted with looser
limits and with more retries. -/
theorem C57_looser_regular (env : RegEnv) (hb : OutputBlind env) (cfg : RegCfg) (tmax smax : Complexity) (maxRetry : Nat)
    (ht : cfg.tmax.asU32 ≤ tmax.asU32) (hs : cfg.smax.asU32 ≤ smax.asU32) (hm : cfg.maxRetry ≤ maxRetry) (t : List RegEv)
    (h : (testAlgorithm env cfg t).1 = .ok ()) :
    (testAlgorithm env { cfg with tmax := tmax, smax := smax, maxRetry := maxRetry } t).1 = .ok () := by
  have hl : LooserReg cfg { cfg with tmax := tmax, smax := smax, maxRetry := maxRetry } :=
    { name := rfl, n1 := rfl, n2 := rfl, tmax := ht, smax := hs, maxRetry := hm }
  exact test_looser hb hl t t rfl h

/-! ## concrete cases -/

/-- a steady algorithm: every call takes 1 s and needs 100 bytes -/
noncomputable def steadyEnv (E : FloatEnv) (T : TextEnv) : RegEnv :=
  ⟨.checked, E, T, fun _ => "", fun _ _ => .ok (⟨10 ^ 9, ⟨50, 50, 150, 50⟩⟩, 0)⟩

theorem steady_benign (E : FloatEnv) (T : TextEnv) : Benign (steadyEnv E T) := by
  intro h c
  refine ⟨_, _, rfl, ⟨by norm_num, by norm_num, by norm_num, by norm_num⟩, ?_⟩
  show 10 ^ 9 / 10 ^ 9 < 2 ^ 53
  norm_num

theorem steady_blind (E : FloatEnv) (T : TextEnv) : OutputBlind (steadyEnv E T) := fun _ _ _ _ => rfl

/-- its measurements give `O(1)` -/
theorem steady_o1 (E : FloatEnv) (L : FloatLaws E) (T : TextEnv) (cfg : RegCfg) (a : Attempt)
    (h1 : a.m1 = ⟨10 ^ 9, ⟨50, 50, 150, 50⟩⟩) (h2 : a.m2 = ⟨10 ^ 9, ⟨50, 50, 150, 50⟩⟩) :
    a.time (steadyEnv E T) cfg = .o1 ∧ a.space (steadyEnv E T) cfg = .ok .o1 := by
  have hn : ∀ k : ℕ, 0 < k → k ≤ 2 ^ 53 → E.ofNat k = F.fin k := by
    intro k hk hk'
    unfold FloatEnv.ofNat FloatEnv.rnd0
    rw [if_neg (by exact_mod_cast hk.ne'), L.rnd_nat k hk']
  have h1s : asSecsF64 E (10 ^ 9) = F.fin 1 := by
    unfold asSecsF64
    have e1 : (10 ^ 9 / 10 ^ 9 : ℕ) = 1 := by norm_num
    have e2 : (10 ^ 9 % 10 ^ 9 : ℕ) = 0 := by norm_num
    rw [e1, e2, hn 1 (by norm_num) (by norm_num)]
    have e3 : E.ofNat 0 = F.fin 0 := by simp [FloatEnv.ofNat, FloatEnv.rnd0]
    have e4 : E.div (F.fin 0) (F.fin (10 ^ 9)) = F.fin 0 := by
      simp [FloatEnv.div, FloatEnv.divFin, F.val, F.zero, F.neg, Xor]
    rw [e3, e4]
    show E.rnd0 (((1:ℕ):ℝ) + 0) = _
    have := hn 1 (by norm_num) (by norm_num)
    rw [add_zero]
    simpa [FloatEnv.ofNat] using this
  unfold Attempt.time Attempt.space
  rw [h1, h2]
  constructor
  · show analyseTime E ⟨cfg.n1, cfg.n2⟩ ⟨10 ^ 9, 10 ^ 9⟩ = _
    unfold analyseTime
    rw [h1s]
    exact (C08_equal_usage_partial E L 1 (by norm_num) _ _).1
  · show analyseSpace E .checked ⟨cfg.n1, cfg.n2⟩ ⟨⟨50, 50, 150, 50⟩, ⟨50, 50, 150, 50⟩⟩ = _
    have e : usizeSub .checked 150 50 = .ok 100 := rfl
    unfold analyseSpace
    simp only [e, bind, Except.bind, pure, Except.pure]
    rw [hn 100 (by norm_num) (by norm_num)]
    rw [(C08_equal_usage_partial E L (100:ℕ) (by norm_num) _ _).1]

/-- every round of the steady algorithm is as expected -/
theorem steady_rounds (E : FloatEnv) (L : FloatLaws E) (T : TextEnv) (cfg : RegCfg) (rounds : List Attempt) (ext : List RegEv)
    (hs : Sourced (steadyEnv E T) ext) (h : regCallsOf ext = (rounds.map Attempt.calls).flatten) :
    ∀ a ∈ rounds, a.time (steadyEnv E T) cfg = .o1 ∧ a.space (steadyEnv E T) cfg = .ok .o1 := by
  intro a ha
  have hsub : ∀ ev ∈ a.calls, ev ∈ ext := by
    intro ev hev
    have : ev ∈ regCallsOf ext := by
      rw [h, List.mem_flatten]; exact ⟨a.calls, List.mem_map_of_mem ha, hev⟩
    exact (List.mem_filter.1 this).1
  have key : ∀ c m, .call c (some m) ∈ a.calls → m = ⟨10 ^ 9, ⟨50, 50, 150, 50⟩⟩ := by
    intro c m hm
    obtain ⟨hh, r, e⟩ := hs.2 c m (hsub _ hm)
    cases e; rfl
  exact steady_o1 E L T cfg a (key .pass1 _ (by simp [Attempt.calls])) (key .pass2 _ (by simp [Attempt.calls]))

-- accepted at once with limits of `O(1)`; rejected with a tighter limit, in the shipped arithmetic
example (log2 : F → F) (powi : F → ℕ → F) (powf : F → F → F) (T : TextEnv) :
    let E := binary64Env log2 powi powf (binary64.round (1 / 10))
    (testAlgorithm (steadyEnv E T) ⟨"steady", 3, 10, 20, .o1, .o1⟩ []).1 = .ok () ∧
    (∃ m, (testAlgorithm (steadyEnv E T) ⟨"steady", 3, 10, 20, .betterThanO1, .o1⟩ []).1 = .error (.msg m)) ∧
    (∃ m, (testAlgorithm (steadyEnv E T) ⟨"steady", 3, 10, 20, .o1, .betterThanO1⟩ []).1 = .error (.msg m)) := by
  intro E
  have L : FloatLaws E := C17_laws_10 log2 powi powf
  have key : ∀ cfg : RegCfg, cfg.n1 = 10 → cfg.n2 = 20 →
      ((testAlgorithm (steadyEnv E T) cfg []).1 = .ok () ↔ Complexity.o1.asU32 ≤ cfg.tmax.asU32 ∧ Complexity.o1.asU32 ≤ cfg.smax.asU32) ∧
      ((testAlgorithm (steadyEnv E T) cfg []).1 ≠ .ok () → ∃ m, (testAlgorithm (steadyEnv E T) cfg []).1 = .error (.msg m)) := by
    intro cfg e1 e2
    obtain ⟨as, last, ext, h3, hs, h4, h5, h6⟩ := test_history (env := steadyEnv E T) cfg []
    have hsub : ∀ ev ∈ last, ev ∈ ext := by
      intro ev hev
      have : ev ∈ regCallsOf ext := by rw [h4]; exact List.mem_append_right _ hev
      exact (List.mem_filter.1 this).1
    rcases h6 with ⟨a1, hr, a, rfl, -, a3⟩ | ⟨a1, ⟨m, hr⟩, a, rfl, -, a3⟩ | ⟨a1, rfl, m, hr⟩ | ⟨a1, a2, -⟩
    · have := steady_rounds E L T cfg (as ++ [a]) ext hs (by rw [h4]; simp [roundCalls]) a (by simp)
      obtain ⟨⟨c, hc, hc'⟩, ht⟩ := a3
      rw [this.2] at hc; cases hc
      unfold TimeOk at ht
      rw [this.1] at ht
      exact ⟨⟨fun _ => ⟨ht, hc'⟩, fun _ => hr⟩, fun h => absurd hr h⟩
    · have := steady_rounds E L T cfg (as ++ [a]) ext hs (by rw [h4]; simp [roundCalls]) a (by simp)
      obtain ⟨c, hc, hc'⟩ := a3
      rw [this.2] at hc; cases hc
      refine ⟨⟨fun h => ?_, fun h => ?_⟩, fun _ => ⟨m, hr⟩⟩
      · rw [hr] at h; cases h
      · exact absurd hc' (not_lt.2 h.2)
    · refine ⟨⟨fun h => ?_, fun h => ?_⟩, fun _ => ⟨m, hr⟩⟩
      · rw [hr] at h; cases h
      · cases as with
        | nil => simp at a1
        | cons b l =>
          have := steady_rounds E L T cfg (b :: l) ext hs (by rw [h4]; simp [roundCalls]) b (by simp)
          have ht := (h5 b (by simp)).1.2
          unfold TimeOk at ht
          rw [this.1] at ht
          exact absurd h.1 ht
    · exact absurd a2 (not_broken L (steady_benign E T) (by omega) (by omega) (by omega) (by omega) hs hsub)
  refine ⟨(key _ rfl rfl).1.2 ⟨by decide, by decide⟩, (key _ rfl rfl).2 ?_, (key _ rfl rfl).2 ?_⟩
  · intro h; exact absurd ((key _ rfl rfl).1.1 h).1 (by decide)
  · intro h; exact absurd ((key _ rfl rfl).1.1 h).2 (by decide)

-- the hypotheses of C61_accepts_iff are met
example (T : TextEnv) : FloatLaws (steadyEnv (binary64Env id (fun x _ => x) (fun x _ => x) (binary64.round (1 / 10))) T).f64 ∧
    Benign (steadyEnv (binary64Env id (fun x _ => x) (fun x _ => x) (binary64.round (1 / 10))) T) ∧
    OutputBlind (steadyEnv (binary64Env id (fun x _ => x) (fun x _ => x) (binary64.round (1 / 10))) T) :=
  ⟨C17_laws_10 _ _ _, steady_benign _ _, steady_blind _ _⟩

end BigO
