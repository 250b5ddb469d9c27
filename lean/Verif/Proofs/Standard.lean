import Verif.Proofs.Retry
import Verif.Spec.RegularSpec

namespace BigO

/-- recorded calls come from the environment -/
def Sourced (env : RegEnv) (ext : List RegEv) : Prop :=
  (∀ c, .call c none ∈ ext → ∃ h e, env.run h c = .error e) ∧
  (∀ c m, .call c (some m) ∈ ext → ∃ h r, env.run h c = .ok (m, r))

theorem Sourced.append {env : RegEnv} {a b : List RegEv} (ha : Sourced env a) (hb : Sourced env b) : Sourced env (a ++ b) := by
  refine ⟨fun c h => ?_, fun c m h => ?_⟩
  · rcases List.mem_append.1 h with h | h
    · exact ha.1 c h
    · exact hb.1 c h
  · rcases List.mem_append.1 h with h | h
    · exact ha.2 c m h
    · exact hb.2 c m h

theorem Sourced.out {env : RegEnv} (s : String) : Sourced env [.out s] := ⟨fun c h => by simp at h, fun c m h => by simp at h⟩
theorem Sourced.sleep {env : RegEnv} : Sourced env [.sleep] := ⟨fun c h => by simp at h, fun c m h => by simp at h⟩
theorem Sourced.nil {env : RegEnv} : Sourced env [] := ⟨fun c h => by simp at h, fun c m h => by simp at h⟩

theorem regCallsOf_append (a b : List RegEv) : regCallsOf (a ++ b) = regCallsOf a ++ regCallsOf b := List.filter_append ..
@[simp] theorem regCallsOf_out (s : String) : regCallsOf [.out s] = [] := rfl
@[simp] theorem regCallsOf_sleep : regCallsOf [.sleep] = [] := rfl
@[simp] theorem regCallsOf_call (c m) : regCallsOf [.call c m] = [.call c m] := rfl
@[simp] theorem regCallsOf_nil : regCallsOf [] = [] := rfl

variable {env : RegEnv}

/-- one pass -/
theorem verbosely_cases {pref suff : String} {c : RegCall} {t t' : List RegEv} {r : Rs (PassResult × Nat)}
    (h : runSyncVerbosely env pref suff c t = (r, t')) :
    ∃ ext, t' = t ++ ext ∧ Sourced env ext ∧
      ((∃ e, r = .error e ∧ regCallsOf ext = [.call c none]) ∨
       (∃ e m, r = .error e ∧ regCallsOf ext = [.call c (some m)] ∧ ¬ ∃ s, displaySpacePass env.text env.profile m.space = .ok s) ∨
       (∃ x, r = .ok x ∧ regCallsOf ext = [.call c (some x.1)])) := by
  unfold runSyncVerbosely at h
  rcases P.bind_cases h with ⟨p, h1, rfl⟩ | ⟨a, t1, h1, h2⟩
  · unfold runSync at h1
    split at h1
    · rename_i e he
      cases h1
      refine ⟨_, rfl, ⟨fun c' h => ?_, fun c' m h => ?_⟩, Or.inl ⟨_, rfl, rfl⟩⟩
      · simp only [List.mem_singleton, RegEv.call.injEq, and_true] at h; subst h; exact ⟨_, _, he⟩
      · simp at h
    · cases h1
  · unfold runSync at h1
    split at h1
    · cases h1
    · rename_i x he
      cases h1
      have hs : Sourced env [.call c (some a.1)] := by
        refine ⟨fun c' h => ?_, fun c' m h => ?_⟩
        · simp at h
        · simp only [List.mem_singleton, RegEv.call.injEq, Option.some.injEq] at h
          obtain ⟨rfl, rfl⟩ := h
          exact ⟨_, _, he⟩
      rcases P.bind_cases h2 with ⟨p, h3, rfl⟩ | ⟨s, t2, h3, h4⟩
      · have h5 := congrArg Prod.fst h3
        have h6 := congrArg Prod.snd h3
        simp only [P.lift] at h5 h6
        refine ⟨_, h6.symm, hs, Or.inr (Or.inl ⟨p, a.1, rfl, rfl, ?_⟩)⟩
        rintro ⟨s, hs⟩
        rw [hs] at h5; cases h5
      · have h6 := congrArg Prod.snd h3
        simp only [P.lift] at h6
        subst h6
        rw [P.log_bind, P.pure_eq] at h4
        cases h4
        refine ⟨[.call c (some a.1)] ++ [.out (pref ++ env.text.dur a.1.time ++ "/" ++ s ++ suff)], by simp, hs.append (.out _),
          Or.inr (Or.inr ⟨a, rfl, ?_⟩)⟩
        rw [regCallsOf_append]; rfl

/-- one attempt -/
theorem analyse_cases {cfg : RegCfg} {t t' : List RegEv} {r : Rs (RetryResult Unit)}
    (h : analyseAlgorithm env cfg t = (r, t')) :
    ∃ ext, t' = t ++ ext ∧ Sourced env ext ∧
      ((∃ e, r = .error e ∧ Broken env cfg (regCallsOf ext)) ∨
       ∃ a : Attempt, regCallsOf ext = a.calls ∧ Presentable env cfg a ∧
         ((r = .ok .ok ∧ WithinLimits env cfg a) ∨
          (∃ e, r = .ok (.fatal e) ∧ SpaceBad env cfg a) ∨
          (∃ e, r = .ok (.transient () e) ∧ TimeOnly env cfg a))) := by
  unfold analyseAlgorithm at h
  rw [P.log_bind] at h
  rcases P.bind_cases h with ⟨p, h1, rfl⟩ | ⟨x0, t0, h1, h2⟩
  · obtain ⟨ext, rfl, hs, hc⟩ := verbosely_cases h1
    refine ⟨[.out ("Running '" ++ cfg.name ++ "' algorithm:\n")] ++ ext, by simp, (Sourced.out _).append hs, Or.inl ⟨p, rfl, ?_⟩⟩
    rw [regCallsOf_append, regCallsOf_out, List.nil_append]
    rcases hc with ⟨e, -, hc⟩ | ⟨e, m, -, hc, hd⟩ | ⟨x, hx, -⟩
    · rw [hc]; exact ⟨by simp [RegEv.kind], Or.inl ⟨_, List.mem_singleton_self _⟩⟩
    · rw [hc]; exact ⟨by simp [RegEv.kind], Or.inr (Or.inl ⟨_, m, List.mem_singleton_self _, hd⟩)⟩
    · cases hx
  obtain ⟨ext0, rfl, hs0, hc0⟩ := verbosely_cases h1
  have hc0 : regCallsOf ext0 = [.call .reset (some x0.1)] := by
    rcases hc0 with ⟨e, he, -⟩ | ⟨e, m, he, -⟩ | ⟨x, he, hc⟩
    · cases he
    · cases he
    · cases he; exact hc
  rcases P.bind_cases h2 with ⟨p, h3, rfl⟩ | ⟨x1, t1, h3, h4⟩
  · obtain ⟨ext, rfl, hs, hc⟩ := verbosely_cases h3
    refine ⟨[.out ("Running '" ++ cfg.name ++ "' algorithm:\n")] ++ ext0 ++ ext, by simp, ((Sourced.out _).append hs0).append hs,
      Or.inl ⟨p, rfl, ?_⟩⟩
    rw [regCallsOf_append, regCallsOf_append, regCallsOf_out, List.nil_append, hc0]
    rcases hc with ⟨e, -, hc⟩ | ⟨e, m, -, hc, hd⟩ | ⟨x, hx, -⟩
    · rw [hc]; exact ⟨by simp [RegEv.kind], Or.inl ⟨.pass1, by simp⟩⟩
    · rw [hc]; exact ⟨by simp [RegEv.kind], Or.inr (Or.inl ⟨.pass1, m, by simp, hd⟩)⟩
    · cases hx
  obtain ⟨ext1, rfl, hs1, hc1⟩ := verbosely_cases h3
  have hc1 : regCallsOf ext1 = [.call .pass1 (some x1.1)] := by
    rcases hc1 with ⟨e, he, -⟩ | ⟨e, m, he, -⟩ | ⟨x, he, hc⟩
    · cases he
    · cases he
    · cases he; exact hc
  rcases P.bind_cases h4 with ⟨p, h5, rfl⟩ | ⟨x2, t2, h5, h6⟩
  · obtain ⟨ext, rfl, hs, hc⟩ := verbosely_cases h5
    refine ⟨[.out ("Running '" ++ cfg.name ++ "' algorithm:\n")] ++ ext0 ++ ext1 ++ ext, by simp,
      (((Sourced.out _).append hs0).append hs1).append hs, Or.inl ⟨p, rfl, ?_⟩⟩
    rw [regCallsOf_append, regCallsOf_append, regCallsOf_append, regCallsOf_out, List.nil_append, hc0, hc1]
    rcases hc with ⟨e, -, hc⟩ | ⟨e, m, -, hc, hd⟩ | ⟨x, hx, -⟩
    · rw [hc]; exact ⟨by simp [RegEv.kind], Or.inl ⟨.pass2, by simp⟩⟩
    · rw [hc]; exact ⟨by simp [RegEv.kind], Or.inr (Or.inl ⟨.pass2, m, by simp, hd⟩)⟩
    · cases hx
  obtain ⟨ext2, rfl, hs2, hc2⟩ := verbosely_cases h5
  have hc2 : regCallsOf ext2 = [.call .pass2 (some x2.1)] := by
    rcases hc2 with ⟨e, he, -⟩ | ⟨e, m, he, -⟩ | ⟨x, he, hc⟩
    · cases he
    · cases he
    · cases he; exact hc
  -- all closures returned
  have key : ∀ tail : List RegEv, (∀ ev ∈ tail, ∃ s, ev = .out s) →
      Sourced env ([RegEv.out ("Running '" ++ cfg.name ++ "' algorithm:\n")] ++ ext0 ++ ext1 ++ ext2 ++ tail) ∧
      regCallsOf ([RegEv.out ("Running '" ++ cfg.name ++ "' algorithm:\n")] ++ ext0 ++ ext1 ++ ext2 ++ tail) =
        (⟨x0.1, x1.1, x2.1⟩ : Attempt).calls := by
    intro tail ht
    have h1 : regCallsOf tail = [] := by
      unfold regCallsOf; rw [List.filter_eq_nil_iff]
      intro ev hev; obtain ⟨s, rfl⟩ := ht ev hev; simp [RegEv.isCall]
    refine ⟨(((((Sourced.out _).append hs0).append hs1).append hs2).append ⟨fun c h => ?_, fun c m h => ?_⟩), ?_⟩
    · obtain ⟨s, hs⟩ := ht _ h; cases hs
    · obtain ⟨s, hs⟩ := ht _ h; cases hs
    · rw [regCallsOf_append, regCallsOf_append, regCallsOf_append, regCallsOf_append, regCallsOf_out, hc0, hc1, hc2, h1]; rfl
  have hkind : (⟨x0.1, x1.1, x2.1⟩ : Attempt).calls.map RegEv.kind = [some .reset, some .pass1, some .pass2] := rfl
  generalize ha : (⟨x0.1, x1.1, x2.1⟩ : Attempt) = a at key hkind
  have htime : analyseTime env.f64 (regMeasurements cfg x1.1 x2.1).info (regMeasurements cfg x1.1 x2.1).time = a.time env cfg := by
    subst ha; rfl
  have hspace : analyseSpace env.f64 env.profile (regMeasurements cfg x1.1 x2.1).info (regMeasurements cfg x1.1 x2.1).space =
      a.space env cfg := by subst ha; rfl
  simp only [htime, hspace] at h6
  have lift_cases : ∀ {α : Type} {x : Rs α} {y : Rs α} {t t' : List RegEv}, (P.lift x : P RegEv α) t = (y, t') → x = y ∧ t = t' := by
    intro α x y t t' h; exact ⟨congrArg Prod.fst h, congrArg Prod.snd h⟩
  rcases P.bind_cases h6 with ⟨p, h7, rfl⟩ | ⟨space, t3, h7, h8⟩
  · obtain ⟨e1, rfl⟩ := lift_cases h7
    obtain ⟨k1, k2⟩ := key [] (by simp)
    refine ⟨_, by simp only [List.append_assoc]; rfl, by simpa using k1, Or.inl ⟨p, rfl, ?_⟩⟩
    have k3 : regCallsOf ([RegEv.out ("Running '" ++ cfg.name ++ "' algorithm:\n")] ++ (ext0 ++ (ext1 ++ ext2))) = a.calls := by
      simpa using k2
    rw [k3]
    refine ⟨by rw [hkind]; exact List.prefix_rfl, Or.inr (Or.inr ⟨a, rfl, ?_⟩)⟩
    rintro ⟨c, hc, -⟩; rw [e1] at hc; cases hc
  obtain ⟨e1, rfl⟩ := lift_cases h7
  rw [P.log_bind] at h8
  rcases P.bind_cases h8 with ⟨p, h9, rfl⟩ | ⟨report, t4, h9, h10⟩
  · obtain ⟨e2, rfl⟩ := lift_cases h9
    obtain ⟨k1, k2⟩ := key [.out "\n\n"] (by simp)
    refine ⟨_, by simp only [List.append_assoc]; rfl, by simpa using k1, Or.inl ⟨p, rfl, ?_⟩⟩
    have k3 : regCallsOf ([RegEv.out ("Running '" ++ cfg.name ++ "' algorithm:\n")] ++ (ext0 ++ (ext1 ++ (ext2 ++ [.out "\n\n"])))) = a.calls := by
      simpa using k2
    rw [k3]
    refine ⟨by rw [hkind]; exact List.prefix_rfl, Or.inr (Or.inr ⟨a, rfl, ?_⟩)⟩
    rintro ⟨c, hc, s, hs⟩
    rw [e1] at hc; cases hc
    subst ha
    exact absurd (e2.symm.trans hs) (by simp)
  obtain ⟨e2, rfl⟩ := lift_cases h9
  have hpres : Presentable env cfg a := by
    subst ha; exact ⟨space, e1, report, e2⟩
  rw [P.log_bind] at h10
  split at h10
  · rename_i hsp
    rw [P.log_bind, P.pure_eq] at h10
    cases h10
    obtain ⟨k1, k2⟩ := key [.out "\n\n", .out (report ++ "\n"), .out (regSpaceMsg cfg space)] (by simp)
    refine ⟨_, by simp only [List.append_assoc]; rfl, by simpa using k1, Or.inr ⟨a, by simpa using k2, hpres, Or.inr (Or.inl ⟨_, rfl, space, e1, hsp⟩)⟩⟩
  · rename_i hsp
    split at h10
    · rename_i htm
      rw [P.log_bind, P.pure_eq] at h10
      cases h10
      obtain ⟨k1, k2⟩ := key [.out "\n\n", .out (report ++ "\n"), .out (regTimeMsg cfg (a.time env cfg))] (by simp)
      refine ⟨_, by simp only [List.append_assoc]; rfl, by simpa using k1, Or.inr ⟨a, by simpa using k2, hpres, Or.inr (Or.inr ⟨_, rfl, ⟨space, e1, not_lt.1 hsp⟩, not_le.2 htm⟩)⟩⟩
    · rename_i htm
      rw [P.log_bind, P.pure_eq] at h10
      cases h10
      obtain ⟨k1, k2⟩ := key [.out "\n\n", .out (report ++ "\n"), .out ("r=" ++ toString (0 ^^^ x1.2 ^^^ x2.2) ++ "\n\n")] (by simp)
      refine ⟨_, by simp only [List.append_assoc]; rfl, by simpa using k1, Or.inr ⟨a, by simpa using k2, hpres, Or.inl ⟨rfl, ⟨space, e1, not_lt.1 hsp⟩, not_lt.1 htm⟩⟩⟩

/-- the calls of a list of complete attempts -/
def roundCalls (as : List Attempt) : List RegEv := (as.map Attempt.calls).flatten

theorem transients_attempts {cfg : RegCfg} {i j : Unit} {t t' : List RegEv} {es : List String}
    (h : Transients .sleep (fun _ => analyseAlgorithm env cfg) i t es j t') :
    ∃ as ext, t' = t ++ ext ∧ Sourced env ext ∧ regCallsOf ext = roundCalls as ∧ as.length = es.length ∧
      (∀ a ∈ as, TimeOnly env cfg a ∧ Presentable env cfg a) := by
  induction h with
  | nil i t => exact ⟨[], [], by simp, .nil, rfl, rfl, by simp⟩
  | @cons i i' j t t1 t2 e es h rest ih =>
    obtain ⟨ext, rfl, hs, hc⟩ := analyse_cases h
    obtain ⟨as, ext', rfl, hs', hc', hl, ha⟩ := ih
    rcases hc with ⟨e, he, -⟩ | ⟨a, hc, hp, hr⟩
    · cases he
    · have ht : TimeOnly env cfg a := by
        rcases hr with ⟨he, -⟩ | ⟨e, he, -⟩ | ⟨e, he, ht⟩
        · cases he
        · cases he
        · exact ht
      refine ⟨a :: as, [.sleep] ++ ext ++ ext', by simp, (Sourced.sleep.append hs).append hs', ?_, by simp [hl], ?_⟩
      · rw [regCallsOf_append, regCallsOf_append, regCallsOf_sleep, hc, hc']; rfl
      · intro b hb
        rcases List.mem_cons.1 hb with rfl | hb
        · exact ⟨ht, hp⟩
        · exact ha b hb

theorem resolve_eq {errors : List String → String} {max : Nat} {res : ResolvedResult} {t t' : List RegEv} {r : Rs Unit}
    (h : resolveOrPanic errors max res t = (r, t')) : t' = t ∧
      ((r = .ok () ∧ (res = .ok ∨ ∃ l, res = .recovered l)) ∨ (∃ m, r = .error (.msg m) ∧ ¬ (res = .ok ∨ ∃ l, res = .recovered l))) := by
  cases res <;> (unfold resolveOrPanic at h; cases h; simp)

/-- the history of a test -/
theorem test_history (cfg : RegCfg) (t : List RegEv) :
    ∃ as last ext, (testAlgorithm env cfg t).2 = t ++ ext ∧ Sourced env ext ∧ regCallsOf ext = roundCalls as ++ last ∧
      (∀ a ∈ as, TimeOnly env cfg a ∧ Presentable env cfg a) ∧
      ((as.length ≤ cfg.maxRetry ∧ (testAlgorithm env cfg t).1 = .ok () ∧
          ∃ a : Attempt, last = a.calls ∧ Presentable env cfg a ∧ WithinLimits env cfg a) ∨
       (as.length ≤ cfg.maxRetry ∧ (∃ m, (testAlgorithm env cfg t).1 = .error (.msg m)) ∧
          ∃ a : Attempt, last = a.calls ∧ Presentable env cfg a ∧ SpaceBad env cfg a) ∨
       (as.length = cfg.maxRetry + 1 ∧ last = [] ∧ ∃ m, (testAlgorithm env cfg t).1 = .error (.msg m)) ∨
       (as.length ≤ cfg.maxRetry ∧ Broken env cfg last ∧ ∃ e, (testAlgorithm env cfg t).1 = .error e)) := by
  generalize h : testAlgorithm env cfg t = x
  obtain ⟨r, t'⟩ := x
  simp only
  unfold testAlgorithm at h
  have conv : ∀ {res : Rs ResolvedResult} {t1 : List RegEv},
      retryWith .sleep (analyseAlgorithm env cfg) (fun _ => analyseAlgorithm env cfg) cfg.maxRetry t = (res, t1) →
      t1 = t' ∧ ((∃ e, res = .error e ∧ r = .error e) ∨
        (∃ y, res = .ok y ∧ ((r = .ok () ∧ (y = .ok ∨ ∃ l, y = .recovered l)) ∨
          (∃ m, r = .error (.msg m) ∧ ¬ (y = .ok ∨ ∃ l, y = .recovered l))))) := by
    intro res t1 hr
    rcases P.bind_cases h with ⟨p, h1, rfl⟩ | ⟨a, t2, h1, h2⟩
    · rw [hr] at h1; cases h1; exact ⟨rfl, Or.inl ⟨p, rfl, rfl⟩⟩
    · rw [hr] at h1; cases h1
      obtain ⟨rfl, h3⟩ := resolve_eq h2
      exact ⟨rfl, Or.inr ⟨a, rfl, h3⟩⟩
  generalize hr : retryWith .sleep (analyseAlgorithm env cfg) (fun _ => analyseAlgorithm env cfg) cfg.maxRetry t = y
  obtain ⟨res, t1⟩ := y
  obtain ⟨rfl, hres⟩ := conv hr
  rcases retryWith_cases hr with ⟨h1, rfl⟩ | ⟨x, h1, rfl⟩ | ⟨p, h1, rfl⟩ | ⟨i, e, t2, h1, h2⟩
  · obtain ⟨ext, rfl, hs, hc⟩ := analyse_cases h1
    rcases hc with ⟨e, he, -⟩ | ⟨a, hc, hp, hr⟩
    · cases he
    rcases hr with ⟨-, hw⟩ | ⟨e, he, -⟩ | ⟨e, he, -⟩
    · refine ⟨[], a.calls, ext, rfl, hs, by rw [hc]; rfl, by simp, Or.inl ⟨by simp, ?_, a, rfl, hp, hw⟩⟩
      rcases hres with ⟨e, he, -⟩ | ⟨y, hy, h⟩
      · cases he
      · cases hy
        rcases h with ⟨rfl, -⟩ | ⟨m, -, hn⟩
        · rfl
        · exact absurd (Or.inl rfl) hn
    · cases he
    · cases he
  · obtain ⟨ext, rfl, hs, hc⟩ := analyse_cases h1
    rcases hc with ⟨e, he, -⟩ | ⟨a, hc, hp, hr⟩
    · cases he
    rcases hr with ⟨he, -⟩ | ⟨e, -, hb⟩ | ⟨e, he, -⟩
    · cases he
    · refine ⟨[], a.calls, ext, rfl, hs, by rw [hc]; rfl, by simp, Or.inr (Or.inl ⟨by simp, ?_, a, rfl, hp, hb⟩)⟩
      rcases hres with ⟨e, he, -⟩ | ⟨y, hy, h⟩
      · cases he
      · cases hy
        rcases h with ⟨-, h⟩ | ⟨m, hm, -⟩
        · simp at h
        · exact ⟨m, hm⟩
    · cases he
  · obtain ⟨ext, rfl, hs, hc⟩ := analyse_cases h1
    rcases hc with ⟨e, he, hb⟩ | ⟨a, hc, hp, hr⟩
    · refine ⟨[], regCallsOf ext, ext, rfl, hs, rfl, by simp, Or.inr (Or.inr (Or.inr ⟨by simp, hb, ?_⟩))⟩
      rcases hres with ⟨e, -, he⟩ | ⟨y, hy, h⟩
      · exact ⟨e, he⟩
      · cases hy
    · rcases hr with ⟨he, -⟩ | ⟨e, he, -⟩ | ⟨e, he, -⟩ <;> cases he
  · obtain ⟨ext, rfl, hs, hc⟩ := analyse_cases h1
    rcases hc with ⟨e, he, -⟩ | ⟨a, hc, hp, hr⟩
    · cases he
    rcases hr with ⟨he, -⟩ | ⟨e, he, -⟩ | ⟨e', he, hto⟩
    · cases he
    · cases he
    obtain ⟨es, j, t3, htr, hcases⟩ := retryLoop_cases h2
    obtain ⟨as, ext', rfl, hs', hc', hl, has⟩ := transients_attempts htr
    have hall : ∀ b ∈ a :: as, TimeOnly env cfg b ∧ Presentable env cfg b := by
      intro b hb
      rcases List.mem_cons.1 hb with rfl | hb
      · exact ⟨hto, hp⟩
      · exact has b hb
    have hcalls : regCallsOf (ext ++ ext') = roundCalls (a :: as) := by rw [regCallsOf_append, hc, hc']; rfl
    rcases hcases with ⟨hn, rfl, l, x, rfl, -⟩ | ⟨hn, h3, rfl⟩ | ⟨hn, x, h3, rfl⟩ | ⟨hn, p, h3, rfl⟩
    · refine ⟨a :: as, [], ext ++ ext', by simp, hs.append hs', by rw [hcalls]; simp, hall, Or.inr (Or.inr (Or.inl ⟨by simp [hl, hn], rfl, ?_⟩))⟩
      rcases hres with ⟨e, he, -⟩ | ⟨y, hy, h⟩
      · cases he
      · cases hy
        rcases h with ⟨-, h⟩ | ⟨m, hm, -⟩
        · simp at h
        · exact ⟨m, hm⟩
    all_goals
      obtain ⟨ext2, rfl, hs2, hc2⟩ := analyse_cases h3
      have hfull : regCallsOf (ext ++ ext' ++ [.sleep] ++ ext2) = roundCalls (a :: as) ++ regCallsOf ext2 := by
        rw [regCallsOf_append, regCallsOf_append, hcalls]; simp
      have hlen : (a :: as).length ≤ cfg.maxRetry := by simp [hl]; omega
      refine ⟨a :: as, regCallsOf ext2, ext ++ ext' ++ [.sleep] ++ ext2, by simp, ((hs.append hs').append .sleep).append hs2, hfull, hall, ?_⟩
    · rcases hc2 with ⟨e, he, -⟩ | ⟨b, hc2, hp2, hr2⟩
      · cases he
      rcases hr2 with ⟨-, hw⟩ | ⟨e, he, -⟩ | ⟨e, he, -⟩
      · refine Or.inl ⟨hlen, ?_, b, hc2, hp2, hw⟩
        rcases hres with ⟨e, he, -⟩ | ⟨y, hy, h⟩
        · cases he
        · cases hy
          rcases h with ⟨rfl, -⟩ | ⟨m, -, hn⟩
          · rfl
          · exact absurd (Or.inr ⟨_, rfl⟩) hn
      · cases he
      · cases he
    · rcases hc2 with ⟨e, he, -⟩ | ⟨b, hc2, hp2, hr2⟩
      · cases he
      rcases hr2 with ⟨he, -⟩ | ⟨e, -, hb⟩ | ⟨e, he, -⟩
      · cases he
      · refine Or.inr (Or.inl ⟨hlen, ?_, b, hc2, hp2, hb⟩)
        rcases hres with ⟨e, he, -⟩ | ⟨y, hy, h⟩
        · cases he
        · cases hy
          rcases h with ⟨-, h⟩ | ⟨m, hm, -⟩
          · simp at h
          · exact ⟨m, hm⟩
      · cases he
    · rcases hc2 with ⟨e, he, hb⟩ | ⟨b, hc2, hp2, hr2⟩
      · refine Or.inr (Or.inr (Or.inr ⟨hlen, hb, ?_⟩))
        rcases hres with ⟨e, -, he⟩ | ⟨y, hy, h⟩
        · exact ⟨e, he⟩
        · cases hy
      · rcases hr2 with ⟨he, -⟩ | ⟨e, he, -⟩ | ⟨e, he, -⟩ <;> cases he

end BigO
