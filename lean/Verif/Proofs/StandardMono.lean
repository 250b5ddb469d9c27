import Verif.Proofs.Standard
import Verif.Props.Display

namespace BigO

/-- closures that cannot see the output -/
def OutputBlind (env : RegEnv) : Prop := ∀ h h' c, regCallsOf h = regCallsOf h' → env.run h c = env.run h' c

variable {env : RegEnv}

theorem regCallsOf_log_out (t : List RegEv) (s : String) : regCallsOf (t ++ [.out s]) = regCallsOf t := by
  rw [regCallsOf_append, regCallsOf_out, List.append_nil]

theorem verbosely_blind (hb : OutputBlind env) {pref suff pref' suff' : String} {c : RegCall} {t t' t1 : List RegEv} {x : PassResult × Nat}
    (hc : regCallsOf t = regCallsOf t') (h : runSyncVerbosely env pref suff c t = (.ok x, t1)) :
    ∃ t1', runSyncVerbosely env pref' suff' c t' = (.ok x, t1') ∧ regCallsOf t1 = regCallsOf t1' := by
  unfold runSyncVerbosely at h ⊢
  rcases P.bind_cases h with ⟨p, h1, h2⟩ | ⟨a, t2, h1, h2⟩
  · cases h2
  · unfold runSync at h1
    split at h1
    · cases h1
    · rename_i y he
      cases h1
      have he' : env.run t' c = .ok a := by rw [← hb t t' c hc]; exact he
      have h1' : runSync env c t' = (.ok a, t' ++ [.call c (some a.1)]) := by unfold runSync; rw [he']
      rw [P.bind_ok h1']
      rcases P.bind_cases h2 with ⟨p, h3, h4⟩ | ⟨s, t3, h3, h4⟩
      · cases h4
      · have e1 : displaySpacePass env.text env.profile a.1.space = .ok s := congrArg Prod.fst h3
        have e2 : t ++ [.call c (some a.1)] = t3 := congrArg Prod.snd h3
        subst e2
        rw [P.log_bind, P.pure_eq] at h4
        cases h4
        rw [P.lift_ok_bind e1, P.log_bind, P.pure_eq]
        refine ⟨_, rfl, ?_⟩
        simp only [regCallsOf_append, hc, regCallsOf_out, regCallsOf_call]

/-- looser limits, the rest unchanged -/
structure LooserReg (cfg cfg' : RegCfg) : Prop where
  name : cfg'.name = cfg.name
  n1 : cfg'.n1 = cfg.n1
  n2 : cfg'.n2 = cfg.n2
  tmax : cfg.tmax.asU32 ≤ cfg'.tmax.asU32
  smax : cfg.smax.asU32 ≤ cfg'.smax.asU32
  maxRetry : cfg.maxRetry ≤ cfg'.maxRetry

theorem analyse_looser (hb : OutputBlind env) {cfg cfg' : RegCfg} (hl : LooserReg cfg cfg') {t t' t1 : List RegEv} {r : RetryResult Unit}
    (hc : regCallsOf t = regCallsOf t') (h : analyseAlgorithm env cfg t = (.ok r, t1)) :
    ∃ r' t1', analyseAlgorithm env cfg' t' = (.ok r', t1') ∧ regCallsOf t1 = regCallsOf t1' ∧
      (r = .ok → r' = .ok) ∧ ((∃ e, r = .transient () e) → r' = .ok ∨ ∃ e, r' = .transient () e) := by
  unfold analyseAlgorithm at h ⊢
  rw [P.log_bind] at h ⊢
  have hc0 : regCallsOf (t ++ [.out ("Running '" ++ cfg.name ++ "' algorithm:\n")]) =
      regCallsOf (t' ++ [.out ("Running '" ++ cfg'.name ++ "' algorithm:\n")]) := by rw [regCallsOf_log_out, regCallsOf_log_out, hc]
  rcases P.bind_cases h with ⟨p, -, h2⟩ | ⟨x0, t2, h1, h⟩
  · cases h2
  obtain ⟨t2', g1, hc1⟩ := verbosely_blind hb (pref' := "  Resetting: ") (suff' := "") hc0 h1
  rw [P.bind_ok g1]
  rcases P.bind_cases h with ⟨p, -, h2⟩ | ⟨x1, t3, h1, h⟩
  · cases h2
  obtain ⟨t3', g2, hc2⟩ := verbosely_blind hb (pref' := "; Pass 1: ") (suff' := "") hc1 h1
  rw [P.bind_ok g2]
  rcases P.bind_cases h with ⟨p, -, h2⟩ | ⟨x2, t4, h1, h⟩
  · cases h2
  obtain ⟨t4', g3, hc3⟩ := verbosely_blind hb (pref' := "; Pass 2: ") (suff' := "") hc2 h1
  rw [P.bind_ok g3]
  have hm : regMeasurements cfg' x1.1 x2.1 = regMeasurements cfg x1.1 x2.1 := by
    unfold regMeasurements; rw [hl.name, hl.n1, hl.n2]
  rw [hm]
  simp only at h ⊢
  rcases P.bind_cases h with ⟨p, -, h2⟩ | ⟨space, t5, h1, h⟩
  · cases h2
  have e1 := congrArg Prod.fst h1
  have e2 : t4 = t5 := congrArg Prod.snd h1
  subst e2
  simp only [P.lift] at e1
  rw [P.lift_ok_bind e1, P.log_bind]
  rw [P.log_bind] at h
  rcases P.bind_cases h with ⟨p, -, h2⟩ | ⟨report, t6, h2, h⟩
  · cases h2
  have e3 := congrArg Prod.fst h2
  have e4 : t4 ++ [.out "\n\n"] = t6 := congrArg Prod.snd h2
  subst e4
  simp only [P.lift] at e3
  rw [P.lift_ok_bind e3, P.log_bind]
  rw [P.log_bind] at h
  generalize htm : analyseTime env.f64 (regMeasurements cfg x1.1 x2.1).info (regMeasurements cfg x1.1 x2.1).time = time at h ⊢
  have k1 := hl.tmax
  have k2 := hl.smax
  have hcall : ∀ (a b : RegEv) (l m : List RegEv), (∃ s, a = .out s) → (∃ s, b = .out s) → regCallsOf l = regCallsOf m →
      regCallsOf (l ++ [a]) = regCallsOf (m ++ [b]) := by
    rintro _ _ l m ⟨s, rfl⟩ ⟨s', rfl⟩ h
    rw [regCallsOf_log_out, regCallsOf_log_out, h]
  have hcall3 : ∀ (a b : RegEv), (∃ s, a = .out s) → (∃ s, b = .out s) →
      regCallsOf (t4 ++ [.out "\n\n"] ++ [.out (report ++ "\n")] ++ [a]) =
        regCallsOf (t4' ++ [.out "\n\n"] ++ [.out (report ++ "\n")] ++ [b]) := by
    intro a b ha hb
    exact hcall _ _ _ _ ha hb (hcall _ _ _ _ ⟨_, rfl⟩ ⟨_, rfl⟩ (hcall _ _ _ _ ⟨_, rfl⟩ ⟨_, rfl⟩ hc3))
  by_cases s' : space.asU32 > cfg'.smax.asU32
  · rw [if_pos s', P.log_bind, P.pure_eq]
    rw [if_pos (lt_of_le_of_lt k2 s'), P.log_bind, P.pure_eq] at h
    cases h
    exact ⟨_, _, rfl, hcall3 _ _ ⟨_, rfl⟩ ⟨_, rfl⟩, by simp, by simp⟩
  · rw [if_neg s']
    by_cases t' : time.asU32 > cfg'.tmax.asU32
    · rw [if_pos t', P.log_bind, P.pure_eq]
      refine ⟨_, _, rfl, ?_, ?_, fun _ => Or.inr ⟨_, rfl⟩⟩
      all_goals
        split at h
        · rw [P.log_bind, P.pure_eq] at h; cases h
          first | exact hcall3 _ _ ⟨_, rfl⟩ ⟨_, rfl⟩ | simp
        · rw [if_pos (lt_of_le_of_lt k1 t'), P.log_bind, P.pure_eq] at h; cases h
          first | exact hcall3 _ _ ⟨_, rfl⟩ ⟨_, rfl⟩ | simp
    · rw [if_neg t', P.log_bind, P.pure_eq]
      refine ⟨_, _, rfl, ?_, fun _ => rfl, fun _ => Or.inl rfl⟩
      split at h
      · rw [P.log_bind, P.pure_eq] at h; cases h
        exact hcall3 _ _ ⟨_, rfl⟩ ⟨_, rfl⟩
      · split at h
        · rw [P.log_bind, P.pure_eq] at h; cases h
          exact hcall3 _ _ ⟨_, rfl⟩ ⟨_, rfl⟩
        · rw [P.log_bind, P.pure_eq] at h; cases h
          exact hcall3 _ _ ⟨_, rfl⟩ ⟨_, rfl⟩

/-- the loop -/
theorem retryLoop_looser (hb : OutputBlind env) {cfg cfg' : RegCfg} (hl : LooserReg cfg cfg') {n n' : Nat} (hn : n ≤ n')
    {t t' t1 : List RegEv} {errs errs' l : List String} {e e' : String} (hc : regCallsOf t = regCallsOf t')
    (h : retryLoop .sleep (fun _ => analyseAlgorithm env cfg) n () errs e t = (.ok (.recovered l), t1)) :
    ∃ l' t1', retryLoop .sleep (fun _ => analyseAlgorithm env cfg') n' () errs' e' t' = (.ok (.recovered l'), t1') := by
  induction n generalizing n' t t' errs errs' e e' with
  | zero => unfold retryLoop at h; rw [P.pure_eq] at h; cases h
  | succ n ih =>
    obtain ⟨n', rfl⟩ : ∃ k, n' = k + 1 := ⟨n' - 1, by omega⟩
    unfold retryLoop at h ⊢
    rw [P.log_bind] at h ⊢
    have hc0 : regCallsOf (t ++ [.sleep]) = regCallsOf (t' ++ [.sleep]) := by rw [regCallsOf_append, regCallsOf_append, hc]
    rcases P.bind_cases h with ⟨p, -, h2⟩ | ⟨a, t2, h1, h⟩
    · cases h2
    obtain ⟨r', t2', g1, hc1, i1, i2⟩ := analyse_looser hb hl hc0 h1
    rw [P.bind_ok g1]
    cases a with
    | ok => rw [i1 rfl]; exact ⟨_, _, rfl⟩
    | fatal x => cases h
    | transient i x =>
      rcases i2 ⟨x, rfl⟩ with rfl | ⟨y, rfl⟩
      · exact ⟨_, _, rfl⟩
      · exact ih (by omega) hc1 h

/-- the test -/
theorem test_looser (hb : OutputBlind env) {cfg cfg' : RegCfg} (hl : LooserReg cfg cfg') (t t' : List RegEv)
    (hc : regCallsOf t = regCallsOf t') (h : (testAlgorithm env cfg t).1 = .ok ()) : (testAlgorithm env cfg' t').1 = .ok () := by
  generalize hx : testAlgorithm env cfg t = x at h
  obtain ⟨r, t1⟩ := x
  simp only at h
  subst h
  unfold testAlgorithm at hx ⊢
  rcases P.bind_cases hx with ⟨p, -, h2⟩ | ⟨res, t2, h1, h2⟩
  · cases h2
  obtain ⟨-, hr⟩ := resolve_eq h2
  have hres : res = .ok ∨ ∃ l, res = .recovered l := by
    rcases hr with ⟨-, h⟩ | ⟨m, hm, -⟩
    · exact h
    · cases hm
  have key : ∃ res' t2', retryWith .sleep (analyseAlgorithm env cfg') (fun _ => analyseAlgorithm env cfg') cfg'.maxRetry t' =
      (.ok res', t2') ∧ (res' = .ok ∨ ∃ l, res' = .recovered l) := by
    rcases retryWith_cases h1 with ⟨g1, -⟩ | ⟨x, -, hh⟩ | ⟨p, -, hh⟩ | ⟨i, e, t3, g1, g2⟩
    · obtain ⟨r', t1', g3, -, i1, -⟩ := analyse_looser hb hl hc g1
      rw [i1 rfl] at g3
      refine ⟨.ok, t1', ?_, Or.inl rfl⟩
      unfold retryWith
      rw [P.bind_ok g3]; rfl
    · cases hh; rcases hres with h | ⟨l, h⟩ <;> cases h
    · cases hh
    · obtain ⟨r', t1', g3, hc3, -, i2⟩ := analyse_looser hb hl hc g1
      rcases i2 ⟨e, rfl⟩ with rfl | ⟨y, rfl⟩
      · refine ⟨.ok, t1', ?_, Or.inl rfl⟩
        unfold retryWith
        rw [P.bind_ok g3]; rfl
      · have : ∃ l, res = .recovered l := by
          rcases hres with rfl | h
          · exfalso
            obtain ⟨es, j, t4, -, hcs⟩ := retryLoop_cases g2
            rcases hcs with ⟨-, -, l, x, hh, -⟩ | ⟨-, -, hh⟩ | ⟨-, x, -, hh⟩ | ⟨-, p, -, hh⟩ <;> cases hh
          · exact h
        obtain ⟨l, rfl⟩ := this
        obtain ⟨l', t5, g4⟩ := retryLoop_looser hb hl hl.maxRetry (errs' := []) (e' := y) hc3 g2
        refine ⟨_, t5, ?_, Or.inr ⟨l', rfl⟩⟩
        unfold retryWith
        rw [P.bind_ok g3]
        exact g4
  obtain ⟨res', t2', g, hg⟩ := key
  rw [P.bind_ok g]
  rcases hg with rfl | ⟨l, rfl⟩ <;> rfl

end BigO
