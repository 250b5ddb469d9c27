import Verif.Proofs.Async

namespace BigO
variable {D B : Type} {env : AEnv}

/-- the calls of a list of complete attempts -/
def roundActs (as : List (ARound D)) : List (AEv D) := (as.map ARound.acts).flatten

/-- an attempt after the first one -/
noncomputable def againAsync (env : AEnv) (b : Builder D B) (data : D) : P (AEv D) (RetryResult D) := do
  P.log (.out "retrying...\n")
  rawAnalyse env b (some data)

theorem Linked.append {p q r : Option D} {as bs : List (ARound D)} (h : Linked p as q) (h' : Linked q bs r) : Linked p (as ++ bs) r := by
  induction h with
  | nil p => exact h'
  | cons _ ih => exact .cons (ih h')

theorem atransients {b : Builder D B} {i j : D} {t t' : List (AEv D)} {es : List String}
    (h : Transients .sleep (againAsync env b) i t es j t') :
    ∃ as, Did t t' (roundActs as) ∧ as.length = es.length ∧ Linked (some i) as (some j) ∧
      (∀ a ∈ as, a.Follows b ∧ ATimeOnly env b a) := by
  induction h with
  | nil i t => exact ⟨[], Did.refl _, rfl, .nil _, by simp⟩
  | @cons i i' j t t1 t2 e es h rest ih =>
    unfold againAsync at h
    rw [P.log_bind] at h
    obtain ⟨ex, hd, hc⟩ := raw_cases h
    obtain ⟨as, hd', hl, hk, ha⟩ := ih
    rcases hc with ⟨e, he, -⟩ | ⟨a, hp, rfl, hf, hr⟩
    · cases he
    rcases hr with ⟨he, -⟩ | ⟨e, he, -⟩ | ⟨e, he, ht⟩
    · cases he
    · cases he
    · cases he
      refine ⟨a :: as, ?_, by simp [hl], hp ▸ .cons hk, ?_⟩
      · have := (((Did.sleep t).trans (Did.out _ _)).trans hd).trans hd'
        simpa [roundActs] using this
      · intro x hx
        rcases List.mem_cons.1 hx with rfl | hx
        · exact ⟨hf, ht⟩
        · exact ha x hx

theorem aresolve_eq {ε : Type} {errors : List String → String} {max : Nat} {res : ResolvedResult} {t t' : List ε} {r : Rs Unit}
    (h : resolveOrPanic errors max res t = (r, t')) : t' = t ∧
      ((r = .ok () ∧ (res = .ok ∨ ∃ l, res = .recovered l)) ∨ (∃ m, r = .error (.msg m) ∧ ¬ (res = .ok ∨ ∃ l, res = .recovered l))) := by
  cases res <;> (unfold resolveOrPanic at h; cases h; simp)

/-- the history of a test -/
theorem async_history (env : AEnv) (b : Builder D B) (t : List (AEv D)) :
    ∃ as last ext p, (testAsync env b t).2 = t ++ ext ∧ actsOf ext = roundActs as ++ last ∧ Linked none as p ∧
      (∀ a ∈ as, a.Follows b ∧ ATimeOnly env b a) ∧
      ((as.length ≤ b.maxReattempts.getD 0 ∧ (testAsync env b t).1 = .ok () ∧
          ∃ a : ARound D, a.prev = p ∧ last = a.acts ∧ a.Follows b ∧ AWithin env b a) ∨
       (as.length ≤ b.maxReattempts.getD 0 ∧ (∃ m, (testAsync env b t).1 = .error (.msg m)) ∧
          ∃ a : ARound D, a.prev = p ∧ last = a.acts ∧ a.Follows b ∧ ASpaceBad env b a) ∨
       (as.length = b.maxReattempts.getD 0 + 1 ∧ last = [] ∧ ∃ m, (testAsync env b t).1 = .error (.msg m)) ∨
       (as.length ≤ b.maxReattempts.getD 0 ∧ CutShort b p last ∧
          ∃ e t0, (testAsync env b t).1 = .error e ∧ Did t t0 (roundActs as) ∧ rawAnalyse env b p t0 = (.error e, (testAsync env b t).2))) := by
  generalize h : testAsync env b t = x
  obtain ⟨r, t'⟩ := x
  simp only
  have h0 : (retryWith .sleep (rawAnalyse env b none) (againAsync env b) (b.maxReattempts.getD 0) >>=
      resolveOrPanic env.errors (b.maxReattempts.getD 0)) t = (r, t') := h
  generalize hn : b.maxReattempts.getD 0 = n at *
  have conv : ∀ {res : Rs ResolvedResult} {t1 : List (AEv D)},
      retryWith .sleep (rawAnalyse env b none) (againAsync env b) n t = (res, t1) →
      t1 = t' ∧ ((∃ e, res = .error e ∧ r = .error e) ∨
        (∃ y, res = .ok y ∧ ((r = .ok () ∧ (y = .ok ∨ ∃ l, y = .recovered l)) ∨
          (∃ m, r = .error (.msg m) ∧ ¬ (y = .ok ∨ ∃ l, y = .recovered l))))) := by
    intro res t1 hr
    rcases P.bind_cases h0 with ⟨p, h1, rfl⟩ | ⟨a, t2, h1, h2⟩
    · rw [hr] at h1; cases h1; exact ⟨rfl, Or.inl ⟨p, rfl, rfl⟩⟩
    · rw [hr] at h1; cases h1
      obtain ⟨rfl, h3⟩ := aresolve_eq h2
      exact ⟨rfl, Or.inr ⟨a, rfl, h3⟩⟩
  generalize hr : retryWith .sleep (rawAnalyse env b none) (againAsync env b) n t = y
  obtain ⟨res, t1⟩ := y
  obtain ⟨rfl, hres⟩ := conv hr
  clear conv h h0
  have okCase : ∀ {l}, res = .ok l → (l = .ok ∨ ∃ x, l = .recovered x) → r = .ok () := by
    intro l hl hl'
    rcases hres with ⟨e, he, -⟩ | ⟨y, hy, h⟩
    · rw [hl] at he; cases he
    · rw [hl] at hy; cases hy
      rcases h with ⟨rfl, -⟩ | ⟨m, -, hn⟩
      · rfl
      · exact absurd hl' hn
  have badCase : ∀ {l}, res = .ok l → ¬ (l = .ok ∨ ∃ x, l = .recovered x) → ∃ m, r = .error (.msg m) := by
    intro l hl hl'
    rcases hres with ⟨e, he, -⟩ | ⟨y, hy, h⟩
    · rw [hl] at he; cases he
    · rw [hl] at hy; cases hy
      rcases h with ⟨-, h⟩ | ⟨m, hm, -⟩
      · exact absurd h hl'
      · exact ⟨m, hm⟩
  have errCase : ∀ {e}, res = .error e → r = .error e := by
    intro e he
    rcases hres with ⟨e', he', h⟩ | ⟨y, hy, h⟩
    · rw [he] at he'; cases he'; exact h
    · rw [he] at hy; cases hy
  have last : ∀ {as : List (ARound D)} {p : Option D} {t0 : List (AEv D)} {res0 : Rs (RetryResult D)}, Did t t0 (roundActs as) → Linked none as p →
      (∀ a ∈ as, a.Follows b ∧ ATimeOnly env b a) → as.length ≤ n → rawAnalyse env b p t0 = (res0, t1) →
      ((res0 = .ok .ok ∧ r = .ok ()) ∨ (∃ e, res0 = .ok (.fatal e) ∧ ∃ m, r = .error (.msg m)) ∨ (∃ e, res0 = .error e ∧ r = .error e)) →
      ∃ as last ext p, t1 = t ++ ext ∧ actsOf ext = roundActs as ++ last ∧ Linked none as p ∧
      (∀ a ∈ as, a.Follows b ∧ ATimeOnly env b a) ∧
      ((as.length ≤ n ∧ r = .ok () ∧
          ∃ a : ARound D, a.prev = p ∧ last = a.acts ∧ a.Follows b ∧ AWithin env b a) ∨
       (as.length ≤ n ∧ (∃ m, r = .error (.msg m)) ∧
          ∃ a : ARound D, a.prev = p ∧ last = a.acts ∧ a.Follows b ∧ ASpaceBad env b a) ∨
       (as.length = n + 1 ∧ last = [] ∧ ∃ m, r = .error (.msg m)) ∨
       (as.length ≤ n ∧ CutShort b p last ∧
          ∃ e t0, r = .error e ∧ Did t t0 (roundActs as) ∧ rawAnalyse env b p t0 = (.error e, t1))) := by
    intro as p t0 res0 hd hk ha hlen hraw hout
    obtain ⟨ex, hd', hc⟩ := raw_cases hraw
    obtain ⟨ext, he1, he2⟩ := hd.trans hd'
    rcases hc with ⟨e, rfl, hcut⟩ | ⟨a, hp, rfl, hf, hx⟩
    · refine ⟨as, ex, ext, p, he1, he2, hk, ha, Or.inr (Or.inr (Or.inr ⟨hlen, hcut, e, t0, ?_, hd, hraw⟩))⟩
      rcases hout with ⟨h, -⟩ | ⟨e, h, -⟩ | ⟨e, h, h'⟩
      · cases h
      · cases h
      · cases h; exact h'
    · rcases hx with ⟨rfl, hw⟩ | ⟨e, rfl, hw⟩ | ⟨e, rfl, -⟩
      · refine ⟨as, a.acts, ext, p, he1, he2, hk, ha, Or.inl ⟨hlen, ?_, a, hp, rfl, hf, hw⟩⟩
        rcases hout with ⟨-, h⟩ | ⟨e, h, -⟩ | ⟨e, h, h'⟩
        · exact h
        · cases h
        · cases h
      · refine ⟨as, a.acts, ext, p, he1, he2, hk, ha, Or.inr (Or.inl ⟨hlen, ?_, a, hp, rfl, hf, hw⟩)⟩
        rcases hout with ⟨h, -⟩ | ⟨e, h, h'⟩ | ⟨e, h, h'⟩
        · cases h
        · exact h'
        · cases h
      · rcases hout with ⟨h, -⟩ | ⟨e, h, h'⟩ | ⟨e, h, h'⟩ <;> cases h
  rcases retryWith_cases hr with ⟨h1, e1⟩ | ⟨x, h1, e1⟩ | ⟨p, h1, e1⟩ | ⟨i, e, t2, h1, h2⟩
  · exact last (as := []) (Did.refl t) (.nil _) (by simp) (by simp) h1 (Or.inl ⟨rfl, okCase e1 (Or.inl rfl)⟩)
  · exact last (as := []) (Did.refl t) (.nil _) (by simp) (by simp) h1 (Or.inr (Or.inl ⟨x, rfl, badCase e1 (by simp)⟩))
  · exact last (as := []) (Did.refl t) (.nil _) (by simp) (by simp) h1 (Or.inr (Or.inr ⟨p, rfl, errCase e1⟩))
  · obtain ⟨ex, hd, hc⟩ := raw_cases h1
    rcases hc with ⟨e, he, -⟩ | ⟨a, hp, rfl, hf, hx⟩
    · cases he
    rcases hx with ⟨he, -⟩ | ⟨e, he, -⟩ | ⟨e', he, hto⟩
    · cases he
    · cases he
    cases he
    obtain ⟨es, j, t3, htr, hcases⟩ := retryLoop_cases h2
    obtain ⟨as, hd', hl, hk, has⟩ := atransients htr
    have hall : ∀ x ∈ a :: as, x.Follows b ∧ ATimeOnly env b x := by
      intro x hx
      rcases List.mem_cons.1 hx with rfl | hx
      · exact ⟨hf, hto⟩
      · exact has x hx
    have hlink : Linked none (a :: as) (some j) := hp ▸ .cons hk
    have hdid : Did t t3 (roundActs (a :: as)) := by
      have := hd.trans hd'
      simpa [roundActs] using this
    have hnext : Did t (t3 ++ [.sleep] ++ [.out "retrying...\n"]) (roundActs (a :: as)) := by
      simpa using (hdid.trans (Did.sleep t3)).trans (Did.out _ _)
    have hl' : (a :: as).length ≤ n ∨ es.length = n := by simp [hl]; rcases hcases with ⟨h, -⟩ | ⟨h, -⟩ | ⟨h, -⟩ | ⟨h, -⟩ <;> omega
    rcases hcases with ⟨hn, rfl, l, x, e1, -⟩ | ⟨hn, h3, e1⟩ | ⟨hn, x, h3, e1⟩ | ⟨hn, p, h3, e1⟩
    · obtain ⟨ext, he1, he2⟩ := hdid
      exact ⟨a :: as, [], ext, some j, he1, by simpa using he2, hlink, hall, Or.inr (Or.inr (Or.inl ⟨by simp [hl, hn], rfl, badCase e1 (by simp)⟩))⟩
    · have hlen : (a :: as).length ≤ n := by simp [hl]; omega
      exact last hnext hlink hall hlen h3 (Or.inl ⟨rfl, okCase e1 (Or.inr ⟨_, rfl⟩)⟩)
    · have hlen : (a :: as).length ≤ n := by simp [hl]; omega
      exact last hnext hlink hall hlen h3 (Or.inr (Or.inl ⟨x, rfl, badCase e1 (by simp)⟩))
    · have hlen : (a :: as).length ≤ n := by simp [hl]; omega
      exact last hnext hlink hall hlen h3 (Or.inr (Or.inr ⟨p, rfl, errCase e1⟩))

/-! ### benign closures -/

theorem averb_benign {f : AFn D} (hf : ∀ h i, ∃ m d, f h i = .ok (m, d) ∧ PlausibleReading m.space ∧ PlausibleTime m.time)
    (pref suff : String) (s : AStep) (i : Option D) (t : List (AEv D)) :
    ∃ m d t', runAsyncVerbosely env pref suff s f i t = (.ok (m, d), t') ∧ PlausibleReading m.space ∧ PlausibleTime m.time := by
  obtain ⟨m, d, h, hp, ht⟩ := hf t i
  obtain ⟨sp, hsp⟩ := fmtOverN_ok env.text env.profile hp 1
  unfold runAsyncVerbosely
  have h1 : runAsync s f i t = (.ok (m, d), t ++ [.call s i (some (m, d))]) := by unfold runAsync; rw [h]
  rw [P.bind_ok h1, P.lift_ok_bind (show displaySpacePass env.text env.profile m.space = .ok sp from hsp), P.log_bind, P.pure_eq]
  exact ⟨m, d, _, rfl, hp, ht⟩

theorem check_benign {c : Option (ACheck D)} (hc : ∀ x, c = some x → ∀ h d, x h d = .ok ()) (second : Bool) (d : D) (t : List (AEv D)) :
    ∃ t', runCheck second c d t = (.ok (), t') := by
  cases c with
  | none => exact ⟨t, rfl⟩
  | some x => unfold runCheck; simp only; rw [hc x rfl t d]; exact ⟨_, rfl⟩

/-- an attempt does not panic -/
theorem raw_benign (L : FloatLaws env.f64) {b : Builder D B} (hb : ABenign b) (prev : Option D) (t : List (AEv D)) :
    ∃ x t', rawAnalyse env b prev t = (.ok x, t') := by
  have hf : ∀ {f}, (b.resetFn = some f ∨ b.warmupFn = some f ∨ b.fn1 = some f ∨ b.fn2 = some f) →
      ∀ (pref suff : String) (s : AStep) (i : Option D) (t : List (AEv D)),
      ∃ m d t', runAsyncVerbosely env pref suff s f i t = (.ok (m, d), t') ∧ PlausibleReading m.space ∧ PlausibleTime m.time :=
    fun h => averb_benign (hb.fns _ h)
  unfold rawAnalyse
  rw [P.log_bind]
  generalize t ++ [AEv.out ("Running '" ++ b.name ++ "' async algorithm:\n")] = t0
  have s1 : ∃ d t', firstReset env b prev t0 = (.ok d, t') := by
    unfold firstReset
    cases hr : b.resetFn with
    | none => exact ⟨_, _, rfl⟩
    | some f =>
      obtain ⟨m, d, t', h, -⟩ := hf (Or.inl hr) "  Resetting: " ";" .reset prev t0
      simp only
      rw [P.bind_ok h]
      exact ⟨_, _, rfl⟩
  obtain ⟨d0, t1, h1⟩ := s1
  rw [P.bind_ok h1]
  have s2 : ∃ d t', warmUp env b d0 t1 = (.ok d, t') := by
    unfold warmUp
    cases hw : b.warmupFn with
    | none => exact ⟨_, _, rfl⟩
    | some f =>
      obtain ⟨m, d, t', h, -⟩ := hf (Or.inr (Or.inl hw)) "  Warming up: " ";" .warmup d0 t1
      simp only
      rw [P.bind_ok h]
      unfold resetAgain
      cases hr : b.resetFn with
      | none => exact ⟨_, _, rfl⟩
      | some f =>
        obtain ⟨m, d, t', h, -⟩ := hf (Or.inl hr) "  Resetting again: " ";" .reset none t'
        simp only
        rw [P.bind_ok h]
        exact ⟨_, _, rfl⟩
  obtain ⟨d1, t2, h2⟩ := s2
  rw [P.bind_ok h2]
  obtain ⟨f1, e1⟩ := Option.isSome_iff_exists.1 hb.fn1
  obtain ⟨f2, e2⟩ := Option.isSome_iff_exists.1 hb.fn2
  have g1 : expectFn b.fn1 "BUG! First pass function not present" t2 = (.ok f1, t2) := by unfold expectFn; rw [e1]; rfl
  have g2 : expectFn b.fn2 "BUG! Second pass function not present" t2 = (.ok f2, t2) := by unfold expectFn; rw [e2]; rfl
  rw [P.bind_ok g1, P.bind_ok g2]
  obtain ⟨m1, x1, t3, h3, p1, q1⟩ := hf (Or.inr (Or.inr (Or.inl e1))) "  Pass 1: " ";" .pass1 d1 t2
  rw [P.bind_ok h3]
  obtain ⟨t4, h4⟩ := check_benign (fun x hx => hb.checks x (Or.inl hx)) false x1 t3
  rw [P.bind_ok h4]
  have s3 : ∃ d t', resetBetween env b x1 t4 = (.ok d, t') := by
    unfold resetBetween
    cases hr : b.resetFn with
    | none => exact ⟨_, _, rfl⟩
    | some f =>
      obtain ⟨m, d, t', h, -⟩ := hf (Or.inl hr) "  In-between-passes Reset: " ";" .reset (some x1) t4
      simp only
      rw [P.bind_ok h]
      exact ⟨_, _, rfl⟩
  obtain ⟨d2, t5, h5⟩ := s3
  rw [P.bind_ok h5]
  obtain ⟨m2, x2, t6, h6, p2, q2⟩ := hf (Or.inr (Or.inr (Or.inr e2))) "  Pass 2: " "" .pass2 d2 t5
  rw [P.bind_ok h6]
  obtain ⟨t7, h7⟩ := check_benign (fun x hx => hb.checks x (Or.inr hx)) true x2 t6
  rw [P.bind_ok h7]
  unfold analyseAsync
  have hs : ∃ c, analyseSpace env.f64 env.profile (asyncMeasurements b m1 m2).info (asyncMeasurements b m1 m2).space = .ok c := by
    unfold analyseSpace usizeSub asyncMeasurements
    simp only
    rw [if_pos p1.before_le, if_pos p2.before_le]
    exact ⟨_, rfl⟩
  obtain ⟨c, hc⟩ := hs
  obtain ⟨rep, hrep⟩ := (C74_no_panic_partial env.f64 L env.text env.profile ⟨m1.time, m2.time⟩ ⟨m1.space, m2.space⟩ p1 p2 q1 q2 b.name
    (analyseTime env.f64 (asyncMeasurements b m1 m2).info (asyncMeasurements b m1 m2).time) c).1 b.n1 b.n2 hb.n1.1 hb.n1.2 hb.n2.1 hb.n2.2
  simp only
  rw [P.lift_ok_bind hc, P.log_bind, P.lift_ok_bind (show reportRegular env.f64 env.text env.profile ⟨_, c, asyncMeasurements b m1 m2⟩ = .ok rep from hrep),
    P.log_bind]
  generalize t7 ++ [AEv.out "\n\n"] ++ [AEv.out (rep ++ "\n")] = t8
  have jt : ∀ time : Complexity, ∃ x t', judgeTime b x2 time t8 = (.ok x, t') := by
    intro time
    unfold judgeTime
    cases b.tmax with
    | none => exact ⟨_, _, rfl⟩
    | some l => simp only; split_ifs <;> exact ⟨_, _, rfl⟩
  unfold judgeSpace
  cases b.smax with
  | none => exact jt _
  | some l =>
    simp only
    split_ifs
    · exact ⟨_, _, rfl⟩
    · exact jt _

end BigO
