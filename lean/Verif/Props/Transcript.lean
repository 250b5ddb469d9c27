import Verif.Proofs.AsyncTranscriptOnly
import Verif.Props.Standard
import Verif.Props.Async

/-!
# What a test of a regular or asynchronous algorithm prints and what it fails with (C103)
-/
namespace BigO

/-- **C103** (regular algorithms): for every behaviour of the closures, the clock and the allocator, and whatever happened before, the
test adds to the history exactly the lines, calls and pauses that `RegTold` says, in that order, and ends as it says: normally, with
the message about space or time (which quotes the mismatch and the earlier ones), or with the panic of the attempt that was cut. -/
theorem C103_regular (env : RegEnv) (cfg : RegCfg) (h : List RegEv) :
    ∃ ext, (testAlgorithm env cfg h).2 = h ++ ext ∧ RegTold env cfg h ext (testAlgorithm env cfg h).1 :=
  test_exact env cfg h

/-- **C103** (asynchronous algorithms): the same, with the steps that were given to the builder. -/
theorem C103_async {D B : Type} (env : AEnv) (b : Builder D B) (h : List (AEv D)) :
    ∃ ext, (testAsync env b h).2 = h ++ ext ∧ AsyncTold env b h ext (testAsync env b h).1 :=
  async_exact env b h

/-- **C103** (the specification leaves no choice, regular algorithms): whatever `RegTold` allows is what happens. -/
theorem C103_regular_only (env : RegEnv) (cfg : RegCfg) (h ext : List RegEv) (r : Rs Unit) :
    RegTold env cfg h ext r ↔ testAlgorithm env cfg h = (r, h ++ ext) := by
  refine ⟨told_run, fun e => ?_⟩
  obtain ⟨ext', h2, ht⟩ := C103_regular env cfg h
  rw [e] at h2 ht
  rw [List.append_cancel_left h2]
  exact ht

/-- **C103** (the specification leaves no choice, asynchronous algorithms). -/
theorem C103_async_only {D B : Type} (env : AEnv) (b : Builder D B) (h ext : List (AEv D)) (r : Rs Unit) :
    AsyncTold env b h ext r ↔ testAsync env b h = (r, h ++ ext) := by
  refine ⟨atold_run, fun e => ?_⟩
  obtain ⟨ext', h2, ht⟩ := C103_async env b h
  rw [e] at h2 ht
  rw [List.append_cancel_left h2]
  exact ht

/-- **C103** (failures name what went wrong): a regular test that fails although no attempt was cut by a panic ends with a message
that contains the name of the test, the limit and the class that was measured. -/
theorem C103_message_names (env : RegEnv) (cfg : RegCfg) (h : List RegEv) {e : Panic} (he : (testAlgorithm env cfg h).1 = .error e)
    (hc : ∀ h cut e, ¬ RegCut env cfg h cut e) :
    ∃ m before after measured, e = .msg m ∧
      (m = before ++ spaceMismatch cfg.name cfg.smax measured ++ after ∧ cfg.smax.asU32 < measured.asU32 ∨
       m = before ++ timeMismatch cfg.name cfg.tmax measured ++ after ∧ cfg.tmax.asU32 < measured.asU32) := by
  obtain ⟨ext, -, ht⟩ := C103_regular env cfg h
  rw [he] at ht
  generalize hr : (Except.error e : Rs Unit) = r at ht
  cases ht with
  | accepted => cases hr
  | @space as a _ _ _ beyond =>
    cases hr
    unfold stoppedMsg
    split_ifs with h0
    · exact ⟨_, "", "", a.space, rfl, Or.inl ⟨by simp, beyond⟩⟩
    · exact ⟨_, "Stopped after retrying for " ++ toString cfg.maxRetry ++ " attempts due to the fatal outcome '",
        "'. Previous transient errors: " ++ env.errors (as.map (RegRun.timeMsg cfg)), a.space, rfl,
        Or.inl ⟨by simp only [String.append_assoc], beyond⟩⟩
  | @time as a _ _ _ beyond =>
    cases hr
    exact ⟨givenUpMsg env.errors cfg.maxRetry (as.map (RegRun.timeMsg cfg)) (a.timeMsg cfg), "Given up with '", "' after " ++ toString cfg.maxRetry ++ " attempts. Previous transient errors: " ++
      env.errors (as.map (RegRun.timeMsg cfg)), a.time, rfl,
      Or.inr ⟨by unfold givenUpMsg; simp only [RegRun.timeMsg, String.append_assoc], beyond.2⟩⟩
  | panic _ _ ended => exact absurd ended (hc _ _ _)

/-! ## concrete cases -/

/-- an attempt of the steady algorithm -/
theorem steady_run (E : FloatEnv) (L : FloatLaws E) (T : TextEnv) (cfg : RegCfg) {h : List RegEv} {a : RegRun} (v : a.Valid (steadyEnv E T) cfg h) :
    a.time = .o1 ∧ a.space = .o1 := by
  obtain ⟨r0, -⟩ := v.reset
  have e1 := v.pass1
  have e2 := v.pass2
  have q1 : a.m1 = ⟨10 ^ 9, ⟨50, 50, 150, 50⟩⟩ := (congrArg Prod.fst (Except.ok.inj e1)).symm
  have q2 : a.m2 = ⟨10 ^ 9, ⟨50, 50, 150, 50⟩⟩ := (congrArg Prod.fst (Except.ok.inj e2)).symm
  obtain ⟨k1, k2⟩ := steady_o1 E L T cfg ⟨a.m0, a.m1, a.m2⟩ q1 q2
  refine ⟨v.time.symm.trans k1, ?_⟩
  exact Except.ok.inj (v.space.symm.trans k2)

/-- nothing cuts an attempt of the steady algorithm -/
theorem steady_uncut (E : FloatEnv) (L : FloatLaws E) (T : TextEnv) (cfg : RegCfg) (h1 : 0 < cfg.n1) (h1' : cfg.n1 < 2 ^ 32)
    (h2 : 0 < cfg.n2) (h2' : cfg.n2 < 2 ^ 32) (h cut : List RegEv) (e : Panic) : ¬ RegCut (steadyEnv E T) cfg h cut e := by
  have pl : PlausibleReading ⟨50, 50, 150, 50⟩ := ⟨by norm_num, by norm_num, by norm_num, by norm_num⟩
  have pt : PlausibleTime (10 ^ 9) := by show 10 ^ 9 / 10 ^ 9 < 2 ^ 53; norm_num
  have tx : ∀ e, displaySpacePass T .checked ⟨50, 50, 150, 50⟩ ≠ .error e := by
    intro e he
    obtain ⟨s, hs⟩ := fmtOverN_ok T .checked pl 1
    have hs' : displaySpacePass T .checked ⟨50, 50, 150, 50⟩ = .ok s := hs
    rw [hs'] at he; cases he
  intro hc
  cases hc with
  | reset x => cases x
  | resetText x y => cases x; exact tx _ y
  | pass1 _ _ x => cases x
  | pass1Text _ _ x y => cases x; exact tx _ y
  | pass2 _ _ _ _ x => cases x
  | pass2Text _ _ _ _ x y => cases x; exact tx _ y
  | analysis _ _ x1 _ x2 _ z =>
    cases x1; cases x2
    obtain ⟨-, k2⟩ := steady_o1 E L T cfg ⟨⟨10 ^ 9, ⟨50, 50, 150, 50⟩⟩, ⟨10 ^ 9, ⟨50, 50, 150, 50⟩⟩, ⟨10 ^ 9, ⟨50, 50, 150, 50⟩⟩⟩ rfl rfl
    have := k2.symm.trans z
    cases this
  | report _ _ x1 _ x2 _ _ w =>
    cases x1; cases x2
    obtain ⟨s, hs⟩ := (C74_no_panic_partial E L T .checked ⟨10 ^ 9, 10 ^ 9⟩ ⟨⟨50, 50, 150, 50⟩, ⟨50, 50, 150, 50⟩⟩ pl pl pt pt cfg.name _ _).1
      cfg.n1 cfg.n2 h1 h1' h2 h2'
    exact absurd (hs.symm.trans w) (by simp)

-- the hypothesis of C103_message_names is met, and a test that fails exists
example (log2 : F → F) (powi : F → ℕ → F) (powf : F → F → F) (T : TextEnv) :
    let E := binary64Env log2 powi powf (binary64.round (1 / 10))
    let cfg : RegCfg := ⟨"steady", 3, 10, 20, .o1, .betterThanO1⟩
    (∀ h cut e, ¬ RegCut (steadyEnv E T) cfg h cut e) ∧ ∃ e, (testAlgorithm (steadyEnv E T) cfg []).1 = .error e := by
  intro E cfg
  have L : FloatLaws E := C17_laws_10 log2 powi powf
  have hu : ∀ h cut e, ¬ RegCut (steadyEnv E T) cfg h cut e :=
    steady_uncut E L T cfg (by norm_num [cfg]) (by norm_num [cfg]) (by norm_num [cfg]) (by norm_num [cfg])
  refine ⟨hu, ?_⟩
  obtain ⟨ext, -, ht⟩ := C103_regular (steadyEnv E T) cfg []
  generalize (testAlgorithm (steadyEnv E T) cfg []).1 = r at ht ⊢
  cases ht with
  | accepted _ _ v w => rw [(steady_run E L T cfg v).2] at w; exact absurd w.1 (by decide)
  | space => exact ⟨_, rfl⟩
  | time => exact ⟨_, rfl⟩
  | panic => exact ⟨_, rfl⟩

-- a test with a limit on time that is too tight, one retry allowed: the message, in the shipped arithmetic
example (log2 : F → F) (powi : F → ℕ → F) (powf : F → F → F) (T : TextEnv) :
    let E := binary64Env log2 powi powf (binary64.round (1 / 10))
    let mismatch := "\n ** TIME complexity mismatch on 'steady' operation: maximum: BetterThanO1, measured: O1 -- a reattempt may be performed...\n\n"
    (testAlgorithm { steadyEnv E T with errors := fun l => l.headD "" } ⟨"steady", 1, 10, 20, .betterThanO1, .o1⟩ []).1 =
      .error (.msg ("Given up with '" ++ mismatch ++ "' after 1 attempts. Previous transient errors: " ++ mismatch)) := by
  intro E mismatch
  have L : FloatLaws E := C17_laws_10 log2 powi powf
  have hm : timeMismatch "steady" .betterThanO1 .o1 = mismatch := by decide +kernel
  clear_value mismatch
  have hrun : ∀ {h : List RegEv} {a : RegRun},
      a.Valid { steadyEnv E T with errors := fun l => l.headD "" } ⟨"steady", 1, 10, 20, .betterThanO1, .o1⟩ h →
      a.time = .o1 ∧ a.space = .o1 := by
    intro h a v
    exact steady_run E L T ⟨"steady", 1, 10, 20, .betterThanO1, .o1⟩ (h := h)
      ⟨v.reset, v.pass1, v.pass2, v.s0, v.s1, v.s2, v.time, v.space, v.report⟩
  have huncut : ∀ {h cut : List RegEv} {e : Panic},
      ¬ RegCut { steadyEnv E T with errors := fun l => l.headD "" } ⟨"steady", 1, 10, 20, .betterThanO1, .o1⟩ h cut e := by
    intro h cut e hc
    refine steady_uncut E L T ⟨"steady", 1, 10, 20, .betterThanO1, .o1⟩ (by norm_num) (by norm_num) (by norm_num) (by norm_num) h cut e ?_
    cases hc with
    | reset x => exact .reset x
    | resetText x y => exact .resetText x y
    | pass1 a b x => exact .pass1 a b x
    | pass1Text a b x y => exact .pass1Text a b x y
    | pass2 a b c d x => exact .pass2 a b c d x
    | pass2Text a b c d x y => exact .pass2Text a b c d x y
    | analysis a b c d f g z => exact .analysis a b c d f g z
    | report a b c d f g z w => exact .report a b c d f g z w
  obtain ⟨ext, -, ht⟩ := C103_regular { steadyEnv E T with errors := fun l => l.headD "" }
    ⟨"steady", 1, 10, 20, .betterThanO1, .o1⟩ []
  generalize (testAlgorithm { steadyEnv E T with errors := fun l => l.headD "" }
    ⟨"steady", 1, 10, 20, .betterThanO1, .o1⟩ []).1 = r at ht ⊢
  cases ht with
  | accepted _ _ v w => rw [(hrun v).1] at w; exact absurd w.2 (by decide)
  | space _ _ v w => rw [(hrun v).2] at w; exact absurd w (by decide)
  | panic _ _ hc => exact absurd hc huncut
  | @time as a hr hl v _ =>
    obtain ⟨b, rfl⟩ := List.length_eq_one_iff.1 hl
    have hb := (hr [] b [] rfl).1
    have k1 : a.timeMsg ⟨"steady", 1, 10, 20, .betterThanO1, .o1⟩ = mismatch := by
      unfold RegRun.timeMsg; rw [(hrun v).1]; exact hm
    have k2 : b.timeMsg ⟨"steady", 1, 10, 20, .betterThanO1, .o1⟩ = mismatch := by
      unfold RegRun.timeMsg; rw [(hrun hb).1]; exact hm
    rw [k1, List.map_cons, List.map_nil, k2]
    have g : ∀ (er : List String → String) (n : ℕ) (m : String), er [m] = m → givenUpMsg er n [m] m =
        "Given up with '" ++ m ++ "' after " ++ toString n ++ " attempts. Previous transient errors: " ++ m :=
      fun er n m h => by unfold givenUpMsg; rw [h]
    rw [g _ _ _ rfl]
    have e : ∀ x : String, "' after " ++ (toString (1 : ℕ) ++ (" attempts. Previous transient errors: " ++ x)) =
        "' after 1 attempts. Previous transient errors: " ++ x := fun x => by
      rw [← String.append_assoc, ← String.append_assoc]; congr 1
    simp only [String.append_assoc, e]

end BigO
