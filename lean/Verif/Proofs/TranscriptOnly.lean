import Verif.Proofs.AsyncTranscript
import Mathlib.Data.List.Induction

namespace BigO

/-! ## the retry library, one attempt after the other -/

/-- `Chain step sleep h t o errs`: from the history `h` on, transient failures with the messages `errs` led to the history `t`, and `o` is
the input that the last of them gave back -/
inductive Chain {ε I : Type} (sleep : ε) (step : Option I → P ε (RetryResult I)) (h : List ε) : List ε → Option I → List String → Prop
  | nil : Chain sleep step h h none []
  | snoc {t t' : List ε} {o : Option I} {errs : List String} {i : I} {e : String} (c : Chain sleep step h t o errs)
      (s : step o t = (.ok (.transient i e), t')) : Chain sleep step h (t' ++ [sleep]) (some i) (errs ++ [e])

/-- what follows an attempt that was made after the failures `errs` -/
def afterAttempt {ε I : Type} (sleep : ε) (step : Option I → P ε (RetryResult I)) (n : Nat) (errs : List String) : RetryResult I → P ε ResolvedResult
  | .ok => pure (if errs = [] then .ok else .recovered errs)
  | .fatal e => pure (if errs = [] then .fatal e else .unrecoverable errs e)
  | .transient i e => retryLoop sleep (fun i => step (some i)) (n - errs.length) i errs e

theorem chain_run {ε I : Type} {sleep : ε} {step : Option I → P ε (RetryResult I)} {n : Nat} {h t : List ε} {o : Option I}
    {errs : List String} (c : Chain sleep step h t o errs) (hn : errs.length ≤ n) :
    retryWith sleep (step none) (fun i => step (some i)) n h = (step o >>= afterAttempt sleep step n errs) t := by
  induction c with
  | nil =>
    unfold retryWith
    refine congrArg (fun f => (step none >>= f) h) (funext fun x => ?_)
    cases x <;> simp [afterAttempt]
  | @snoc t t' o errs i e c s ih =>
    simp only [List.length_append, List.length_singleton] at hn
    rw [ih (by omega), P.bind_ok s]
    have : n - errs.length = (n - (errs ++ [e]).length) + 1 := by simp; omega
    unfold afterAttempt
    simp only
    rw [this, retryLoop, P.log_bind]
    refine congrArg (fun f => (step (some i) >>= f) (t' ++ [sleep])) (funext fun x => ?_)
    cases x <;> simp

/-! ## regular algorithms -/
section
variable {env : RegEnv} {cfg : RegCfg}

theorem verb_ok {pref s : String} {c : RegCall} {t : List RegEv} {m : PassResult} {n : Nat} (x : env.run t c = .ok (m, n))
    (y : displaySpacePass env.text env.profile m.space = .ok s) :
    runSyncVerbosely env pref "" c t = (.ok (m, n), t ++ regStep env c m pref s) := by
  generalize e : runSyncVerbosely env pref "" c t = z
  obtain ⟨r, t'⟩ := z
  rcases verbosely_exact e with ⟨_, a1, _, _⟩ | ⟨_, _, _, a1, a2, _, _⟩ | ⟨m', n', s', a1, a2, rfl, rfl⟩
  · rw [x] at a1; cases a1
  · rw [x] at a1; cases a1; rw [y] at a2; cases a2
  · rw [x] at a1; cases a1; rw [y] at a2; cases a2; rfl

theorem verb_err {pref : String} {c : RegCall} {t : List RegEv} {e : Panic} (x : env.run t c = .error e) :
    runSyncVerbosely env pref "" c t = (.error e, t ++ [.call c none]) := by
  generalize h : runSyncVerbosely env pref "" c t = z
  obtain ⟨r, t'⟩ := z
  rcases verbosely_exact h with ⟨_, a1, rfl, rfl⟩ | ⟨_, _, _, a1, _, _, _⟩ | ⟨m', n', s', a1, _, _, _⟩
  · rw [x] at a1; cases a1; rfl
  · rw [x] at a1; cases a1
  · rw [x] at a1; cases a1

theorem verb_text {pref : String} {c : RegCall} {t : List RegEv} {m : PassResult} {n : Nat} {e : Panic} (x : env.run t c = .ok (m, n))
    (y : displaySpacePass env.text env.profile m.space = .error e) :
    runSyncVerbosely env pref "" c t = (.error e, t ++ [.call c (some m)]) := by
  generalize h : runSyncVerbosely env pref "" c t = z
  obtain ⟨r, t'⟩ := z
  rcases verbosely_exact h with ⟨_, a1, _, _⟩ | ⟨_, _, _, a1, a2, rfl, rfl⟩ | ⟨m', n', s', a1, a2, _, _⟩
  · rw [x] at a1; cases a1
  · rw [x] at a1; cases a1; rw [y] at a2; cases a2; rfl
  · rw [x] at a1; cases a1; rw [y] at a2; cases a2

theorem lift_err_bind {ε α β : Type} {x : Rs α} {e : Panic} (h : x = .error e) (f : α → P ε β) (t : List ε) :
    ((P.lift x : P ε α) >>= f) t = (.error e, t) := by
  subst h; rfl

/-- an attempt that was cut -/
theorem cut_run {t cut : List RegEv} {e : Panic} (c : RegCut env cfg t cut e) : analyseAlgorithm env cfg t = (.error e, t ++ cut) := by
  unfold analyseAlgorithm
  rw [P.log_bind]
  have hh : t ++ [RegEv.out ("Running '" ++ cfg.name ++ "' algorithm:\n")] = t ++ regHead cfg := rfl
  rw [hh]
  cases c with
  | reset x => rw [P.bind_err (verb_err x)]; simp
  | resetText x y => rw [P.bind_err (verb_text x y)]; simp
  | pass1 x0 y0 x => rw [P.bind_ok (verb_ok x0 y0), P.bind_err (verb_err x)]; simp
  | pass1Text x0 y0 x y => rw [P.bind_ok (verb_ok x0 y0), P.bind_err (verb_text x y)]; simp
  | pass2 x0 y0 x1 y1 x => rw [P.bind_ok (verb_ok x0 y0), P.bind_ok (verb_ok x1 y1), P.bind_err (verb_err x)]; simp
  | pass2Text x0 y0 x1 y1 x y => rw [P.bind_ok (verb_ok x0 y0), P.bind_ok (verb_ok x1 y1), P.bind_err (verb_text x y)]; simp
  | analysis x0 y0 x1 y1 x2 y2 z =>
    rw [P.bind_ok (verb_ok x0 y0), P.bind_ok (verb_ok x1 y1), P.bind_ok (verb_ok x2 y2)]
    exact (lift_err_bind z _ _).trans (by simp)
  | report x0 y0 x1 y1 x2 y2 z w =>
    rw [P.bind_ok (verb_ok x0 y0), P.bind_ok (verb_ok x1 y1), P.bind_ok (verb_ok x2 y2)]
    exact (P.lift_ok_bind z _ _).trans ((P.log_bind ..).trans ((lift_err_bind w _ _).trans (by simp)))

theorem reg_valid_unique {t : List RegEv} {a a' : RegRun} (v : a.Valid env cfg t) (v' : a'.Valid env cfg t) : a = a' := by
  obtain ⟨m0, m1, m2, r1, r2, s0, s1, s2, ti, sp, re⟩ := a
  obtain ⟨m0', m1', m2', r1', r2', s0', s1', s2', ti', sp', re'⟩ := a'
  obtain ⟨⟨q, a0⟩, a1, a2, b0, b1, b2, c1, c2, c3⟩ := v
  obtain ⟨⟨q', a0'⟩, a1', a2', b0', b1', b2', c1', c2', c3'⟩ := v'
  simp only at *
  rw [a0] at a0'; cases a0'
  rw [b0] at b0'; cases b0'
  rw [a1] at a1'; cases a1'
  rw [b1] at b1'; cases b1'
  rw [a2] at a2'; cases a2'
  rw [b2] at b2'; cases b2'
  rw [c1] at c1'; cases c1'
  rw [c2] at c2'; cases c2'
  rw [c3] at c3'; cases c3'
  rfl

/-- an attempt that was not cut -/
theorem valid_run {t : List RegEv} {a : RegRun} (v : a.Valid env cfg t) :
    (a.space.asU32 ≤ cfg.smax.asU32 → a.time.asU32 ≤ cfg.tmax.asU32 → analyseAlgorithm env cfg t =
      (.ok .ok, t ++ (a.shown env cfg ++ [.out ("r=" ++ toString (a.r1 ^^^ a.r2) ++ "\n\n")]))) ∧
    (cfg.smax.asU32 < a.space.asU32 → analyseAlgorithm env cfg t = (.ok (.fatal (spaceMismatch cfg.name cfg.smax a.space)),
      t ++ (a.shown env cfg ++ [.out (spaceMismatch cfg.name cfg.smax a.space)]))) ∧
    (a.space.asU32 ≤ cfg.smax.asU32 → cfg.tmax.asU32 < a.time.asU32 → analyseAlgorithm env cfg t =
      (.ok (.transient () (a.timeMsg cfg)), t ++ (a.shown env cfg ++ [.out (a.timeMsg cfg)]))) := by
  generalize h : analyseAlgorithm env cfg t = z
  obtain ⟨r, t'⟩ := z
  have no : ∀ cut e, ¬ RegCut env cfg t cut e := by
    intro cut e c
    obtain ⟨⟨q, a0⟩, a1, a2, b0, b1, b2, c1, c2, c3⟩ := v
    cases c with
    | reset x => rw [a0] at x; cases x
    | resetText x y => rw [a0] at x; cases x; rw [b0] at y; cases y
    | pass1 x0 y0 x => rw [a0] at x0; cases x0; rw [b0] at y0; cases y0; rw [a1] at x; cases x
    | pass1Text x0 y0 x y => rw [a0] at x0; cases x0; rw [b0] at y0; cases y0; rw [a1] at x; cases x; rw [b1] at y; cases y
    | pass2 x0 y0 x1 y1 x =>
      rw [a0] at x0; cases x0; rw [b0] at y0; cases y0; rw [a1] at x1; cases x1; rw [b1] at y1; cases y1; rw [a2] at x; cases x
    | pass2Text x0 y0 x1 y1 x y =>
      rw [a0] at x0; cases x0; rw [b0] at y0; cases y0; rw [a1] at x1; cases x1; rw [b1] at y1; cases y1; rw [a2] at x; cases x
      rw [b2] at y; cases y
    | analysis x0 y0 x1 y1 x2 y2 z =>
      rw [a0] at x0; cases x0; rw [b0] at y0; cases y0; rw [a1] at x1; cases x1; rw [b1] at y1; cases y1; rw [a2] at x2; cases x2
      rw [c2] at z; cases z
    | report x0 y0 x1 y1 x2 y2 z w =>
      rw [a0] at x0; cases x0; rw [b0] at y0; cases y0; rw [a1] at x1; cases x1; rw [b1] at y1; cases y1; rw [a2] at x2; cases x2
      rw [c2] at z; cases z; rw [← c1] at c3; rw [c3] at w; cases w
  rcases analyse_exact h with ⟨cut, e, hc, -⟩ | ⟨a', v', hx⟩
  · exact absurd hc (no _ _)
  obtain rfl := reg_valid_unique v v'
  rcases hx with ⟨k1, k2, rfl, rfl⟩ | ⟨k1, rfl, rfl⟩ | ⟨k1, k2, rfl, rfl⟩
  · exact ⟨fun _ _ => rfl, fun q => absurd q (by omega), fun _ q => absurd q (by omega)⟩
  · exact ⟨fun q _ => absurd q (by omega), fun _ => rfl, fun q _ => absurd q (by omega)⟩
  · exact ⟨fun _ q => absurd q (by omega), fun q => absurd q (by omega), fun _ _ => rfl⟩

theorem reg_chain {h : List RegEv} {as : List RegRun} (r : RegRetried env cfg h as) :
    ∃ o, Chain .sleep (fun _ : Option Unit => analyseAlgorithm env cfg) h (h ++ as.flatMap (RegRun.retried env cfg)) o (as.map (RegRun.timeMsg cfg)) := by
  induction as using List.reverseRecOn with
  | nil => exact ⟨none, by simpa using Chain.nil⟩
  | append_singleton as a ih =>
    obtain ⟨v, s, t⟩ := r as a [] (by simp)
    obtain ⟨o, c⟩ := ih fun l b l' e => r l b (l' ++ [a]) (by rw [e]; simp)
    have := c.snoc ((valid_run v).2.2 s t)
    refine ⟨some (), ?_⟩
    simpa [RegRun.retried] using this

/-- what the specification says is what happens -/
theorem told_run {h ext : List RegEv} {r : Rs Unit} (x : RegTold env cfg h ext r) : testAlgorithm env cfg h = (r, h ++ ext) := by
  have go : ∀ {as : List RegRun}, RegRetried env cfg h as → as.length ≤ cfg.maxRetry → testAlgorithm env cfg h =
      (analyseAlgorithm env cfg >>= fun y => afterAttempt .sleep (fun _ : Option Unit => analyseAlgorithm env cfg) cfg.maxRetry
        (as.map (RegRun.timeMsg cfg)) y >>= resolveOrPanic env.errors cfg.maxRetry) (h ++ as.flatMap (RegRun.retried env cfg)) := by
    intro as hr hl
    obtain ⟨o, c⟩ := reg_chain hr
    have := chain_run c (n := cfg.maxRetry) (by simpa using hl)
    rw [← P.bind_assoc_at]
    unfold testAlgorithm
    rw [P.bind_eq, P.bind_eq, this]
  cases x with
  | @accepted as a retried few valid within =>
    rw [go retried few, P.bind_ok ((valid_run valid).1 within.1 within.2)]
    by_cases h0 : as.map (RegRun.timeMsg cfg) = []
    · simp only [afterAttempt, if_pos h0]
      exact congrArg (Prod.mk _) (by simp)
    · simp only [afterAttempt, if_neg h0]
      exact congrArg (Prod.mk _) (by simp)
  | @space as a retried few valid beyond =>
    rw [go retried few, P.bind_ok ((valid_run valid).2.1 beyond)]
    unfold stoppedMsg
    by_cases h0 : as.map (RegRun.timeMsg cfg) = []
    · simp only [afterAttempt, if_pos h0]
      exact congrArg (Prod.mk _) (by simp)
    · simp only [afterAttempt, if_neg h0]
      exact congrArg (Prod.mk _) (by simp)
  | @time as a retried all valid beyond =>
    rw [go retried all.le, P.bind_ok ((valid_run valid).2.2 beyond.1 beyond.2)]
    simp only [afterAttempt, List.length_map, all, Nat.sub_self]
    unfold givenUpMsg
    exact congrArg (Prod.mk _) (by simp)
  | panic retried few ended =>
    rw [go retried few, P.bind_err (cut_run ended), List.append_assoc]

end
end BigO
