import Verif.Proofs.Retry
import Verif.Spec.TranscriptSpec

namespace BigO

theorem P.bind_assoc_at {ε α β γ : Type} (m : P ε α) (f : α → P ε β) (g : β → P ε γ) (t : List ε) :
    ((m >>= f) >>= g) t = (m >>= fun a => f a >>= g) t := by
  simp only [P.bind_eq]
  cases m t with
  | mk y t2 => cases y <;> rfl

variable {env : RegEnv} {cfg : RegCfg}

/-- one pass, exactly -/
theorem verbosely_exact {pref : String} {c : RegCall} {t t' : List RegEv} {r : Rs (PassResult × Nat)}
    (h : runSyncVerbosely env pref "" c t = (r, t')) :
    (∃ e, env.run t c = .error e ∧ r = .error e ∧ t' = t ++ [.call c none]) ∨
    (∃ m n e, env.run t c = .ok (m, n) ∧ displaySpacePass env.text env.profile m.space = .error e ∧ r = .error e ∧
      t' = t ++ [.call c (some m)]) ∨
    (∃ m n s, env.run t c = .ok (m, n) ∧ displaySpacePass env.text env.profile m.space = .ok s ∧ r = .ok (m, n) ∧
      t' = t ++ regStep env c m pref s) := by
  unfold runSyncVerbosely at h
  rcases P.bind_cases h with ⟨p, h1, rfl⟩ | ⟨a, t1, h1, h2⟩
  · unfold runSync at h1
    split at h1
    · rename_i e he
      cases h1
      exact Or.inl ⟨_, he, rfl, rfl⟩
    · cases h1
  · unfold runSync at h1
    split at h1
    · cases h1
    · rename_i x he
      cases h1
      obtain ⟨m, n⟩ := a
      rcases P.bind_cases h2 with ⟨p, h3, rfl⟩ | ⟨s, t2, h3, h4⟩
      · have h5 := congrArg Prod.fst h3
        have h6 := congrArg Prod.snd h3
        simp only [P.lift] at h5 h6
        exact Or.inr (Or.inl ⟨m, n, p, he, h5, rfl, h6.symm⟩)
      · have h5 := congrArg Prod.fst h3
        have h6 := congrArg Prod.snd h3
        simp only [P.lift] at h5 h6
        subst h6
        rw [P.log_bind, P.pure_eq] at h4
        cases h4
        exact Or.inr (Or.inr ⟨m, n, s, he, h5, rfl, by simp [regStep]⟩)

/-- one attempt, exactly -/
theorem analyse_exact {t t' : List RegEv} {r : Rs (RetryResult Unit)} (h : analyseAlgorithm env cfg t = (r, t')) :
    (∃ cut e, RegCut env cfg t cut e ∧ r = .error e ∧ t' = t ++ cut) ∨
    ∃ a : RegRun, a.Valid env cfg t ∧
      ((a.space.asU32 ≤ cfg.smax.asU32 ∧ a.time.asU32 ≤ cfg.tmax.asU32 ∧ r = .ok .ok ∧
          t' = t ++ (a.shown env cfg ++ [.out ("r=" ++ toString (a.r1 ^^^ a.r2) ++ "\n\n")])) ∨
       (cfg.smax.asU32 < a.space.asU32 ∧ r = .ok (.fatal (spaceMismatch cfg.name cfg.smax a.space)) ∧
          t' = t ++ (a.shown env cfg ++ [.out (spaceMismatch cfg.name cfg.smax a.space)])) ∨
       (a.space.asU32 ≤ cfg.smax.asU32 ∧ cfg.tmax.asU32 < a.time.asU32 ∧ r = .ok (.transient () (a.timeMsg cfg)) ∧
          t' = t ++ (a.shown env cfg ++ [.out (a.timeMsg cfg)]))) := by
  unfold analyseAlgorithm at h
  rw [P.log_bind] at h
  have hh : t ++ [RegEv.out ("Running '" ++ cfg.name ++ "' algorithm:\n")] = t ++ regHead cfg := rfl
  rw [hh] at h
  rcases P.bind_cases h with ⟨p, h1, rfl⟩ | ⟨x0, t0, h1, h2⟩
  · left
    rcases verbosely_exact h1 with ⟨e, a1, a2, rfl⟩ | ⟨m, n, e, a1, a2, a3, rfl⟩ | ⟨m, n, s, a1, a2, a3, -⟩
    · cases a2; exact ⟨_, _, .reset a1, rfl, by simp⟩
    · cases a3; exact ⟨_, _, .resetText a1 a2, rfl, by simp⟩
    · cases a3
  rcases verbosely_exact h1 with ⟨e, -, a2, -⟩ | ⟨m, n, e, -, -, a3, -⟩ | ⟨m0, r0, s0, x0', y0, a3, rfl⟩
  · cases a2
  · cases a3
  cases a3
  rcases P.bind_cases h2 with ⟨p, h3, rfl⟩ | ⟨x1, t1, h3, h4⟩
  · left
    rcases verbosely_exact h3 with ⟨e, a1, a2, rfl⟩ | ⟨m, n, e, a1, a2, a3, rfl⟩ | ⟨m, n, s, a1, a2, a3, -⟩
    · cases a2; exact ⟨_, _, .pass1 x0' y0 a1, rfl, by simp⟩
    · cases a3; exact ⟨_, _, .pass1Text x0' y0 a1 a2, rfl, by simp⟩
    · cases a3
  rcases verbosely_exact h3 with ⟨e, -, a2, -⟩ | ⟨m, n, e, -, -, a3, -⟩ | ⟨m1, r1, s1, x1', y1, a3, rfl⟩
  · cases a2
  · cases a3
  cases a3
  rcases P.bind_cases h4 with ⟨p, h5, rfl⟩ | ⟨x2, t2, h5, h6⟩
  · left
    rcases verbosely_exact h5 with ⟨e, a1, a2, rfl⟩ | ⟨m, n, e, a1, a2, a3, rfl⟩ | ⟨m, n, s, a1, a2, a3, -⟩
    · cases a2; exact ⟨_, _, .pass2 x0' y0 x1' y1 a1, rfl, by simp⟩
    · cases a3; exact ⟨_, _, .pass2Text x0' y0 x1' y1 a1 a2, rfl, by simp⟩
    · cases a3
  rcases verbosely_exact h5 with ⟨e, -, a2, -⟩ | ⟨m, n, e, -, -, a3, -⟩ | ⟨m2, r2, s2, x2', y2, a3, rfl⟩
  · cases a2
  · cases a3
  cases a3
  have lc : ∀ {α : Type} {x : Rs α} {y : Rs α} {t t' : List RegEv}, (P.lift x : P RegEv α) t = (y, t') → x = y ∧ t = t' := by
    intro α x y t t' h; exact ⟨congrArg Prod.fst h, congrArg Prod.snd h⟩
  rcases P.bind_cases h6 with ⟨p, h7, rfl⟩ | ⟨space, t3, h7, h8⟩
  · left
    obtain ⟨e1, rfl⟩ := lc h7
    exact ⟨_, _, .analysis x0' y0 x1' y1 x2' y2 e1, rfl, by simp⟩
  obtain ⟨e1, rfl⟩ := lc h7
  rw [P.log_bind] at h8
  rcases P.bind_cases h8 with ⟨p, h9, rfl⟩ | ⟨report, t4, h9, h10⟩
  · left
    obtain ⟨e2, rfl⟩ := lc h9
    exact ⟨_, _, .report x0' y0 x1' y1 x2' y2 e1 e2, rfl, by simp⟩
  obtain ⟨e2, rfl⟩ := lc h9
  right
  refine ⟨⟨m0, m1, m2, r1, r2, s0, s1, s2, analyseTime env.f64 ⟨cfg.n1, cfg.n2⟩ ⟨m1.time, m2.time⟩, space, report⟩, ⟨⟨r0, x0'⟩, x1', x2', y0, y1, y2, rfl, e1, e2⟩, ?_⟩
  have m1' : ∀ c, regSpaceMsg cfg c = spaceMismatch cfg.name cfg.smax c := fun c => by unfold regSpaceMsg spaceMismatch; rfl
  have m2' : ∀ c, regTimeMsg cfg c = timeMismatch cfg.name cfg.tmax c := fun c => by unfold regTimeMsg timeMismatch; rfl
  rw [P.log_bind] at h10
  simp only [regMeasurements, m1', m2', Nat.zero_xor] at h10
  simp only [RegRun.timeMsg, RegRun.shown]
  generalize analyseTime env.f64 ⟨cfg.n1, cfg.n2⟩ ⟨m1.time, m2.time⟩ = time at h10 ⊢
  generalize spaceMismatch cfg.name cfg.smax space = sm at h10 ⊢
  generalize timeMismatch cfg.name cfg.tmax time = tm at h10 ⊢
  generalize "r=" ++ toString (r1 ^^^ r2) ++ "\n\n" = rm at h10 ⊢
  by_cases hsp : space.asU32 > cfg.smax.asU32
  · rw [if_pos hsp, P.log_bind, P.pure_eq] at h10
    cases h10
    exact Or.inr (Or.inl ⟨hsp, rfl, by simp⟩)
  rw [if_neg hsp] at h10
  by_cases htm : time.asU32 > cfg.tmax.asU32
  · rw [if_pos htm, P.log_bind, P.pure_eq] at h10
    cases h10
    exact Or.inr (Or.inr ⟨not_lt.1 hsp, htm, rfl, by simp⟩)
  · rw [if_neg htm, P.log_bind, P.pure_eq] at h10
    cases h10
    exact Or.inl ⟨not_lt.1 hsp, not_lt.1 htm, rfl, by simp⟩

theorem RegRetried.nil (h : List RegEv) : RegRetried env cfg h [] := by
  intro l a l' e; simp at e

theorem RegRetried.snoc {h : List RegEv} {as : List RegRun} {a : RegRun} (r : RegRetried env cfg h as)
    (v : a.Valid env cfg (h ++ as.flatMap (RegRun.retried env cfg))) (s : a.space.asU32 ≤ cfg.smax.asU32)
    (t : cfg.tmax.asU32 < a.time.asU32) : RegRetried env cfg h (as ++ [a]) := by
  intro l b l' e
  rcases List.eq_nil_or_concat l' with rfl | ⟨l'', c, rfl⟩
  · obtain ⟨rfl, e2⟩ := List.append_inj' e (by simp)
    cases e2; exact ⟨v, s, t⟩
  · have : as ++ [a] = (l ++ b :: l'') ++ [c] := by rw [e]; simp
    obtain ⟨rfl, -⟩ := List.append_inj' this (by simp)
    exact r l b l'' rfl

/-- the loop over the delays; `as` are the retried attempts, `a` is the last one -/
theorem loop_exact (h : List RegEv) (n : Nat) :
    ∀ (as : List RegRun) (a : RegRun), as.length + n = cfg.maxRetry → RegRetried env cfg h as →
      a.Valid env cfg (h ++ as.flatMap (RegRun.retried env cfg)) → a.space.asU32 ≤ cfg.smax.asU32 → cfg.tmax.asU32 < a.time.asU32 →
      ∀ r t', (retryLoop .sleep (fun _ => analyseAlgorithm env cfg) n () (as.map (RegRun.timeMsg cfg)) (a.timeMsg cfg) >>=
          resolveOrPanic env.errors cfg.maxRetry)
        (h ++ as.flatMap (RegRun.retried env cfg) ++ (a.shown env cfg ++ [.out (a.timeMsg cfg)])) = (r, t') →
      ∃ ext, t' = h ++ ext ∧ RegTold env cfg h ext r := by
  induction n with
  | zero =>
    intro as a hl hr hv hs ht r t' e
    unfold retryLoop at e
    rw [P.bind_ok (P.pure_eq _ _)] at e
    unfold resolveOrPanic at e
    cases e
    refine ⟨as.flatMap (RegRun.retried env cfg) ++ a.shown env cfg ++ [.out (a.timeMsg cfg)], by simp, ?_⟩
    exact RegTold.time hr (by simpa using hl) hv ⟨hs, ht⟩
  | succ n ih =>
    intro as a hl hr hv hs ht r t' e
    have hr' := hr.snoc hv hs ht
    have hflat : h ++ as.flatMap (RegRun.retried env cfg) ++ (a.shown env cfg ++ [.out (a.timeMsg cfg)]) ++ [.sleep] =
        h ++ (as ++ [a]).flatMap (RegRun.retried env cfg) := by simp [RegRun.retried]
    have hm : as.map (RegRun.timeMsg cfg) ++ [a.timeMsg cfg] = (as ++ [a]).map (RegRun.timeMsg cfg) := by simp
    unfold retryLoop at e
    rw [P.bind_assoc_at, P.log_bind, P.bind_assoc_at, hflat, hm] at e
    rcases P.bind_cases e with ⟨p, h1, rfl⟩ | ⟨x, t1, h1, h2⟩
    · rcases analyse_exact h1 with ⟨cut, e0, hc, he, rfl⟩ | ⟨b, -, ⟨-, -, he, -⟩ | ⟨-, he, -⟩ | ⟨-, -, he, -⟩⟩
      · cases he
        exact ⟨_, List.append_assoc .., RegTold.panic hr' (by simp; omega) hc⟩
      all_goals cases he
    · rcases analyse_exact h1 with ⟨cut, e0, hc, he, -⟩ | ⟨b, hb, ⟨q1, q2, he, rfl⟩ | ⟨q1, he, rfl⟩ | ⟨q1, q2, he, rfl⟩⟩
      · cases he
      · cases he
        cases h2
        exact ⟨_, by simp only [List.append_assoc]; rfl, by simpa using RegTold.accepted hr' (by simp; omega) hb ⟨q1, q2⟩⟩
      · cases he
        cases h2
        refine ⟨_, by simp only [List.append_assoc]; rfl, ?_⟩
        have := RegTold.space hr' (by simp; omega) hb q1
        unfold stoppedMsg at this
        rw [if_neg (by simp)] at this
        simpa using this
      · cases he
        simp only at h2
        exact ih (as ++ [a]) b (by simp; omega) hr' hb q1 q2 r t' h2

/-- a whole test, exactly -/
theorem test_exact (env : RegEnv) (cfg : RegCfg) (h : List RegEv) :
    ∃ ext, (testAlgorithm env cfg h).2 = h ++ ext ∧ RegTold env cfg h ext (testAlgorithm env cfg h).1 := by
  generalize e : testAlgorithm env cfg h = x
  obtain ⟨r, t'⟩ := x
  simp only
  unfold testAlgorithm retryWith at e
  rw [P.bind_assoc_at] at e
  rcases P.bind_cases e with ⟨p, h1, rfl⟩ | ⟨x, t1, h1, h2⟩
  · rcases analyse_exact h1 with ⟨cut, e0, hc, he, rfl⟩ | ⟨b, -, ⟨-, -, he, -⟩ | ⟨-, he, -⟩ | ⟨-, -, he, -⟩⟩
    · cases he
      exact ⟨_, rfl, by simpa using RegTold.panic (RegRetried.nil h) (by simp) (by simpa using hc)⟩
    all_goals cases he
  · rcases analyse_exact h1 with ⟨cut, e0, hc, he, -⟩ | ⟨b, hb, ⟨q1, q2, he, rfl⟩ | ⟨q1, he, rfl⟩ | ⟨q1, q2, he, rfl⟩⟩
    · cases he
    · cases he
      cases h2
      exact ⟨_, rfl, by simpa using RegTold.accepted (RegRetried.nil h) (by simp) (by simpa using hb) ⟨q1, q2⟩⟩
    · cases he
      cases h2
      refine ⟨_, rfl, ?_⟩
      have := RegTold.space (RegRetried.nil h) (by simp) (by simpa using hb) q1
      simpa [stoppedMsg] using this
    · cases he
      exact loop_exact h cfg.maxRetry [] b (by simp) (RegRetried.nil h) (by simpa using hb) q1 q2 r t' (by simpa using h2)

end BigO
