import Verif.Proofs.Transcript

namespace BigO
variable {D B : Type} {env : AEnv} {b : Builder D B}

theorem Played.append {h evs evs' : List (AEv D)} {d d' d'' : Option D} {ls ls' : List ALine} (r : Played env b h d ls evs d') :
    Played env b (h ++ evs) d' ls' evs' d'' → Played env b h d (ls ++ ls') (evs ++ evs') d'' := by
  induction r with
  | nil h d => intro r'; simpa using r'
  | step fn run text rest ih => intro r'; rw [List.append_assoc]; exact .step fn run text (ih (by simpa using r'))
  | check fn run rest ih => intro r'; rw [List.append_assoc]; exact .check fn run (ih (by simpa using r'))

/-- the outcome of a part of an attempt -/
def Plays (env : AEnv) (b : Builder D B) {α : Type} (m : P (AEv D) α) (out : α → Option D) (h : List (AEv D)) (d : Option D) (ls : List ALine) : Prop :=
  (∃ evs e, m h = (.error e, h ++ evs) ∧ ∀ ls', PlayedCut env b h d (ls ++ ls') evs e) ∨ (∃ evs a, m h = (.ok a, h ++ evs) ∧ Played env b h d ls evs (out a))

/-- a step -/
theorem averb_plays {title suff : String} {s : AStep} {f : AFn D} (fresh : Bool) (fn : fnOf b s = some f) (h : List (AEv D)) (d : Option D) :
    (∃ evs e, runAsyncVerbosely env title suff s f (given fresh d) h = (.error e, h ++ evs) ∧
      ∀ ls, PlayedCut env b h d (.step title suff s fresh :: ls) evs e) ∨
    (∃ evs m x, runAsyncVerbosely env title suff s f (given fresh d) h = (.ok (m, x), h ++ evs) ∧
      Played env b h d [.step title suff s fresh] evs (some x) ∧ .call s (given fresh d) (some (m, x)) ∈ evs) := by
  unfold runAsyncVerbosely
  cases run : f h (given fresh d) with
  | error e =>
    left
    have h1 : runAsync s f (given fresh d) h = (.error e, h ++ [.call s (given fresh d) none]) := by unfold runAsync; rw [run]
    exact ⟨_, e, P.bind_err h1, fun ls => .call fn run⟩
  | ok y =>
    obtain ⟨m, x⟩ := y
    have h1 : runAsync s f (given fresh d) h = (.ok (m, x), h ++ [.call s (given fresh d) (some (m, x))]) := by unfold runAsync; rw [run]
    rw [P.bind_ok h1]
    cases text : displaySpacePass env.text env.profile m.space with
    | error e =>
      left
      exact ⟨_, e, P.bind_err rfl, fun ls => .text fn run text⟩
    | ok sp =>
      right
      refine ⟨asyncStep env s (given fresh d) m x title sp suff, m, x, ?_, ?_, by simp [asyncStep]⟩
      · rw [P.lift_ok_bind rfl, P.log_bind, P.pure_eq]
        simp [asyncStep]
      · simpa using Played.step (title := title) (suff := suff) fn run text (.nil _ _)

theorem firstReset_plays (h : List (AEv D)) (prev : Option D) :
    Plays env b (firstReset env b prev) id h (startData b prev) (if b.resetFn.isSome then [.step "  Resetting: " ";" .reset false] else []) := by
  unfold firstReset startData Plays
  cases hr : b.resetFn with
  | none => exact Or.inr ⟨[], none, by rw [List.append_nil]; rfl, .nil _ _⟩
  | some f =>
    simp only [Option.isSome_some, if_true]
    rcases averb_plays (env := env) (title := "  Resetting: ") (suff := ";") (s := .reset) false (show fnOf b .reset = some f from hr) h prev with
      ⟨evs, e, h1, h2⟩ | ⟨evs, m, x, h1, h2, -⟩
    · exact Or.inl ⟨evs, e, P.bind_err h1, h2⟩
    · exact Or.inr ⟨evs, some x, (P.bind_ok (a := (m, x)) h1).trans rfl, h2⟩

theorem resetAgain_plays (h : List (AEv D)) (w : D) :
    Plays env b (resetAgain env b w) id h (some w) (if b.resetFn.isSome then [.step "  Resetting again: " ";" .reset true] else []) := by
  unfold resetAgain Plays
  cases hr : b.resetFn with
  | none => exact Or.inr ⟨[], some w, by rw [List.append_nil]; rfl, .nil _ _⟩
  | some f =>
    simp only [Option.isSome_some, if_true]
    rcases averb_plays (env := env) (title := "  Resetting again: ") (suff := ";") (s := .reset) true (show fnOf b .reset = some f from hr) h (some w) with
      ⟨evs, e, h1, h2⟩ | ⟨evs, m, x, h1, h2, -⟩
    · exact Or.inl ⟨evs, e, P.bind_err h1, h2⟩
    · exact Or.inr ⟨evs, some x, (P.bind_ok (a := (m, x)) h1).trans rfl, h2⟩

theorem warmUp_plays (h : List (AEv D)) (d : Option D) :
    Plays env b (warmUp env b d) id h d (if b.warmupFn.isSome then
      [.step "  Warming up: " ";" .warmup false] ++ (if b.resetFn.isSome then [.step "  Resetting again: " ";" .reset true] else []) else []) := by
  unfold warmUp
  cases hw : b.warmupFn with
  | none => exact Or.inr ⟨[], d, by rw [List.append_nil]; rfl, .nil _ _⟩
  | some f =>
    simp only [Option.isSome_some, if_true]
    rcases averb_plays (env := env) (title := "  Warming up: ") (suff := ";") (s := .warmup) false (show fnOf b .warmup = some f from hw) h d with
      ⟨evs, e, h1, h2⟩ | ⟨evs, m, x, h1, h2, -⟩
    · exact Or.inl ⟨evs, e, P.bind_err h1, fun ls => h2 _⟩
    · rcases resetAgain_plays (env := env) (b := b) (h ++ evs) x with ⟨evs', e, g1, g2⟩ | ⟨evs', y, g1, g2⟩
      · refine Or.inl ⟨evs ++ evs', e, ?_, fun ls => ?_⟩
        · exact (P.bind_ok (a := (m, x)) h1).trans (by rw [← List.append_assoc]; exact g1)
        · rw [List.append_assoc]; exact .later h2 (g2 ls)
      · refine Or.inr ⟨evs ++ evs', y, ?_, h2.append g2⟩
        exact (P.bind_ok (a := (m, x)) h1).trans (by rw [← List.append_assoc]; exact g1)

theorem resetBetween_plays (h : List (AEv D)) (x : D) :
    Plays env b (resetBetween env b x) id h (some x) (if b.resetFn.isSome then [.step "  In-between-passes Reset: " ";" .reset false] else []) := by
  unfold resetBetween Plays
  cases hr : b.resetFn with
  | none => exact Or.inr ⟨[], some x, by rw [List.append_nil]; rfl, .nil _ _⟩
  | some f =>
    simp only [Option.isSome_some, if_true]
    rcases averb_plays (env := env) (title := "  In-between-passes Reset: ") (suff := ";") (s := .reset) false (show fnOf b .reset = some f from hr) h (some x) with
      ⟨evs, e, h1, h2⟩ | ⟨evs, m, x, h1, h2, -⟩
    · exact Or.inl ⟨evs, e, P.bind_err h1, h2⟩
    · exact Or.inr ⟨evs, some x, (P.bind_ok (a := (m, x)) h1).trans rfl, h2⟩

theorem runCheck_plays (second : Bool) (h : List (AEv D)) (x : D) :
    Plays env b (runCheck second (checkOf b second) x) (fun _ => some x) h (some x) (if (checkOf b second).isSome then [.check second] else []) := by
  unfold runCheck Plays
  cases hc : checkOf b second with
  | none => exact Or.inr ⟨[], (), by rw [List.append_nil]; rfl, .nil _ _⟩
  | some c =>
    simp only [Option.isSome_some, if_true]
    cases run : c h x with
    | error e => exact Or.inl ⟨_, e, rfl, fun ls => .check hc run⟩
    | ok u => exact Or.inr ⟨[.check second x true], (), rfl, by simpa using Played.check hc run (.nil _ _)⟩

/-- the part before the passes -/
theorem before_plays (h : List (AEv D)) (prev : Option D) :
    Plays env b (firstReset env b prev >>= warmUp env b) id h (startData b prev) (linesBefore b) := by
  unfold linesBefore
  rcases firstReset_plays (env := env) (b := b) h prev with ⟨evs, e, g1, g2⟩ | ⟨evs, y, g1, g2⟩
  · exact Or.inl ⟨evs, e, P.bind_err g1, fun ls => by rw [List.append_assoc]; exact g2 _⟩
  · rcases warmUp_plays (env := env) (b := b) (h ++ evs) y with ⟨evs', e, k1, k2⟩ | ⟨evs', z, k1, k2⟩
    · refine Or.inl ⟨evs ++ evs', e, ?_, fun ls => ?_⟩
      · rw [P.bind_ok g1, k1, List.append_assoc]
      · rw [List.append_assoc]; exact .later g2 (k2 ls)
    · exact Or.inr ⟨evs ++ evs', z, by rw [P.bind_ok g1, k1, List.append_assoc], g2.append k2⟩

/-- the passes -/
theorem passes_plays {f1 f2 : AFn D} (e1 : b.fn1 = some f1) (e2 : b.fn2 = some f2) (h : List (AEv D)) (d : Option D)
    {α : Type} (k : PassResult → PassResult → D → P (AEv D) α) :
    let m : P (AEv D) α := do
      let x1 ← runAsyncVerbosely env "  Pass 1: " ";" .pass1 f1 d
      runCheck false b.check1 x1.2
      let d2 ← resetBetween env b x1.2
      let x2 ← runAsyncVerbosely env "  Pass 2: " "" .pass2 f2 d2
      runCheck true b.check2 x2.2
      k x1.1 x2.1 x2.2
    (∃ evs e, m h = (.error e, h ++ evs) ∧ PlayedCut env b h d (linesOfPasses b) evs e) ∨
    (∃ evs m1 m2 x, m h = k m1 m2 x (h ++ evs) ∧ Played env b h d (linesOfPasses b) evs (some x) ∧
      (∃ i d, .call .pass1 i (some (m1, d)) ∈ evs) ∧ ∃ i d, .call .pass2 i (some (m2, d)) ∈ evs) := by
  intro m
  have hl : linesOfPasses b = [.step "  Pass 1: " ";" .pass1 false] ++ ((if (checkOf b false).isSome then [.check false] else []) ++
      ((if b.resetFn.isSome then [.step "  In-between-passes Reset: " ";" .reset false] else []) ++
      ([.step "  Pass 2: " "" .pass2 false] ++ (if (checkOf b true).isSome then [.check true] else [])))) := by
    simp [linesOfPasses, checkOf]
  rw [hl]
  rcases averb_plays (env := env) (title := "  Pass 1: ") (suff := ";") (s := .pass1) false (show fnOf b .pass1 = some f1 from e1) h d with
    ⟨evs, e, g1, g2⟩ | ⟨evs1, m1, x1, a1, r1, c1⟩
  · exact Or.inl ⟨evs, e, P.bind_err g1, g2 _⟩
  have k1 : ∀ {β} (g : PassResult × D → P (AEv D) β), (runAsyncVerbosely env "  Pass 1: " ";" .pass1 f1 d >>= g) h = g (m1, x1) (h ++ evs1) :=
    fun g => P.bind_ok a1
  rcases runCheck_plays (env := env) (b := b) false (h ++ evs1) x1 with ⟨evs, e, g1, g2⟩ | ⟨evs2, u, a2, r2⟩
  · refine Or.inl ⟨evs1 ++ evs, e, ?_, .later r1 (g2 _)⟩
    show (runAsyncVerbosely env "  Pass 1: " ";" .pass1 f1 d >>= _) h = _
    rw [k1]
    have g1' : runCheck false b.check1 x1 (h ++ evs1) = (.error e, h ++ evs1 ++ evs) := g1
    rw [P.bind_err g1', List.append_assoc]
  have a2' : runCheck false b.check1 x1 (h ++ evs1) = (.ok u, h ++ evs1 ++ evs2) := a2
  rcases resetBetween_plays (env := env) (b := b) (h ++ evs1 ++ evs2) x1 with ⟨evs, e, g1, g2⟩ | ⟨evs3, d3, a3, r3⟩
  · refine Or.inl ⟨evs1 ++ (evs2 ++ evs), e, ?_, .later r1 (.later r2 (g2 _))⟩
    show (runAsyncVerbosely env "  Pass 1: " ";" .pass1 f1 d >>= _) h = _
    rw [k1, P.bind_ok a2', P.bind_err g1, List.append_assoc, List.append_assoc]
  rcases averb_plays (env := env) (title := "  Pass 2: ") (suff := "") (s := .pass2) false (show fnOf b .pass2 = some f2 from e2)
    (h ++ evs1 ++ evs2 ++ evs3) d3 with ⟨evs, e, g1, g2⟩ | ⟨evs4, m2, x2, a4, r4, c4⟩
  · refine Or.inl ⟨evs1 ++ (evs2 ++ (evs3 ++ evs)), e, ?_, .later r1 (.later r2 (.later r3 (g2 _)))⟩
    show (runAsyncVerbosely env "  Pass 1: " ";" .pass1 f1 d >>= _) h = _
    have g1' : runAsyncVerbosely env "  Pass 2: " "" .pass2 f2 d3 (h ++ evs1 ++ evs2 ++ evs3) = _ := g1
    rw [k1, P.bind_ok a2', P.bind_ok a3, P.bind_err g1']
    simp
  have a4' : runAsyncVerbosely env "  Pass 2: " "" .pass2 f2 d3 (h ++ evs1 ++ evs2 ++ evs3) = _ := a4
  rcases runCheck_plays (env := env) (b := b) true (h ++ evs1 ++ evs2 ++ evs3 ++ evs4) x2 with ⟨evs, e, g1, g2⟩ | ⟨evs5, u5, a5, r5⟩
  · refine Or.inl ⟨evs1 ++ (evs2 ++ (evs3 ++ (evs4 ++ evs))), e, ?_, .later r1 (.later r2 (.later r3 (.later r4 (by simpa using g2 []))))⟩
    show (runAsyncVerbosely env "  Pass 1: " ";" .pass1 f1 d >>= _) h = _
    have g1' : runCheck true b.check2 x2 (h ++ evs1 ++ evs2 ++ evs3 ++ evs4) = _ := g1
    rw [k1, P.bind_ok a2', P.bind_ok a3, P.bind_ok a4', P.bind_err g1']
    simp
  · have a5' : runCheck true b.check2 x2 (h ++ evs1 ++ evs2 ++ evs3 ++ evs4) = _ := a5
    refine Or.inr ⟨evs1 ++ (evs2 ++ (evs3 ++ (evs4 ++ evs5))), m1, m2, x2, ?_, r1.append (r2.append (r3.append (r4.append r5))),
      ⟨_, x1, by simp only [List.mem_append]; exact Or.inl c1⟩, ⟨_, x2, by simp only [List.mem_append]; exact Or.inr (Or.inr (Or.inr (Or.inl c4)))⟩⟩
    show (runAsyncVerbosely env "  Pass 1: " ";" .pass1 f1 d >>= _) h = _
    rw [k1, P.bind_ok a2', P.bind_ok a3, P.bind_ok a4', P.bind_ok a5']
    simp

/-- one attempt, exactly -/
theorem raw_exact (t : List (AEv D)) (prev : Option D) :
    (∃ cut e, AsyncCut env b t prev cut e ∧ rawAnalyse env b prev t = (.error e, t ++ cut)) ∨
    ∃ a : AsyncRun D, a.Valid env b t prev ∧
      ((a.spaceOk b ∧ a.timeOk b ∧ rawAnalyse env b prev t = (.ok .ok, t ++ a.shown b)) ∨
       (∃ l, b.smax = some l ∧ l.asU32 < a.space.asU32 ∧
          rawAnalyse env b prev t = (.ok (.fatal (spaceMismatch b.name l a.space)), t ++ (a.shown b ++ [.out (spaceMismatch b.name l a.space)]))) ∨
       (a.spaceOk b ∧ ¬ a.timeOk b ∧ rawAnalyse env b prev t = (.ok (.transient a.data (a.timeMsg b)), t ++ (a.shown b ++ [.out (a.timeMsg b)])))) := by
  have hh : rawAnalyse env b prev t = ((firstReset env b prev >>= warmUp env b) >>= fun d1 => do
      let f1 ← expectFn b.fn1 "BUG! First pass function not present"
      let f2 ← expectFn b.fn2 "BUG! Second pass function not present"
      let x1 ← runAsyncVerbosely env "  Pass 1: " ";" .pass1 f1 d1
      runCheck false b.check1 x1.2
      let d2 ← resetBetween env b x1.2
      let x2 ← runAsyncVerbosely env "  Pass 2: " "" .pass2 f2 d2
      runCheck true b.check2 x2.2
      analyseAsync env b x1.1 x2.1 x2.2) (t ++ asyncHead b) := by
    rw [P.bind_assoc_at]; rfl
  rw [hh]
  rcases before_plays (env := env) (b := b) (t ++ asyncHead b) prev with ⟨evs, e, g1, g2⟩ | ⟨evs, d1, g1, g2⟩
  · left
    exact ⟨_, e, .before (by simpa using g2 []), by rw [P.bind_err g1, List.append_assoc]⟩
  rw [P.bind_ok g1]
  cases e1 : b.fn1 with
  | none =>
    left
    exact ⟨_, _, .noFirst g2 e1, (P.bind_err rfl).trans (by rw [List.append_assoc])⟩
  | some f1 =>
  have x1 : expectFn (some f1) "BUG! First pass function not present" (t ++ asyncHead b ++ evs) = (.ok f1, t ++ asyncHead b ++ evs) := rfl
  rw [P.bind_ok x1]
  cases e2 : b.fn2 with
  | none =>
    left
    exact ⟨_, _, .noSecond g2 (by rw [e1]; rfl) e2, (P.bind_err rfl).trans (by rw [List.append_assoc])⟩
  | some f2 =>
  have x2 : expectFn (some f2) "BUG! Second pass function not present" (t ++ asyncHead b ++ evs) = (.ok f2, t ++ asyncHead b ++ evs) := rfl
  rw [P.bind_ok x2]
  rcases passes_plays (env := env) (b := b) e1 e2 (t ++ asyncHead b ++ evs) d1 (analyseAsync env b) with ⟨evs', e, k1, k2⟩ | ⟨evs', m1, m2, x, k1, k2, k3, k4⟩
  · left
    refine ⟨_, e, .passes g2 (by rw [e1]; rfl) (by rw [e2]; rfl) k2, ?_⟩
    rw [k1]; simp
  rw [k1]
  have ran := g2.append k2
  have q1 : ∃ i d, .call .pass1 i (some (m1, d)) ∈ evs ++ evs' := by
    obtain ⟨i, d, hm⟩ := k3; exact ⟨i, d, List.mem_append_right _ hm⟩
  have q2 : ∃ i d, .call .pass2 i (some (m2, d)) ∈ evs ++ evs' := by
    obtain ⟨i, d, hm⟩ := k4; exact ⟨i, d, List.mem_append_right _ hm⟩
  unfold analyseAsync
  cases z : analyseSpace env.f64 env.profile ⟨b.n1, b.n2⟩ ⟨m1.space, m2.space⟩ with
  | error e =>
    left
    refine ⟨_, e, .analysis ran q1 q2 z, ?_⟩
    have z' : (P.lift (analyseSpace env.f64 env.profile (asyncMeasurements b m1 m2).info (asyncMeasurements b m1 m2).space) : P (AEv D) _)
        (t ++ asyncHead b ++ evs ++ evs') = (.error e, t ++ asyncHead b ++ evs ++ evs') := by
      show (analyseSpace env.f64 env.profile ⟨b.n1, b.n2⟩ ⟨m1.space, m2.space⟩, _) = _
      rw [z]
    rw [P.bind_err z']
    simp
  | ok c =>
  have z' : analyseSpace env.f64 env.profile (asyncMeasurements b m1 m2).info (asyncMeasurements b m1 m2).space = .ok c := z
  rw [P.lift_ok_bind z', P.log_bind]
  cases w : reportRegular env.f64 env.text env.profile ⟨analyseTime env.f64 ⟨b.n1, b.n2⟩ ⟨m1.time, m2.time⟩, c,
        ⟨b.name, ⟨b.n1, b.n2⟩, ⟨m1.time, m2.time⟩, ⟨m1.space, m2.space⟩⟩⟩ with
  | error e =>
    left
    refine ⟨_, e, .report ran q1 q2 z w, ?_⟩
    have w' : (P.lift (reportRegular env.f64 env.text env.profile ⟨analyseTime env.f64 (asyncMeasurements b m1 m2).info
        (asyncMeasurements b m1 m2).time, c, asyncMeasurements b m1 m2⟩) : P (AEv D) _)
        (t ++ asyncHead b ++ evs ++ evs' ++ [.out "\n\n"]) = (.error e, t ++ asyncHead b ++ evs ++ evs' ++ [.out "\n\n"]) := by
      show (reportRegular env.f64 env.text env.profile ⟨analyseTime env.f64 ⟨b.n1, b.n2⟩ ⟨m1.time, m2.time⟩, c,
        ⟨b.name, ⟨b.n1, b.n2⟩, ⟨m1.time, m2.time⟩, ⟨m1.space, m2.space⟩⟩⟩, _) = _
      rw [w]
    rw [P.bind_err w']
    simp
  | ok report =>
  have w' : reportRegular env.f64 env.text env.profile ⟨analyseTime env.f64 (asyncMeasurements b m1 m2).info
        (asyncMeasurements b m1 m2).time, c, asyncMeasurements b m1 m2⟩ = .ok report := w
  rw [P.lift_ok_bind w', P.log_bind]
  right
  refine ⟨⟨evs ++ evs', m1, m2, x, analyseTime env.f64 ⟨b.n1, b.n2⟩ ⟨m1.time, m2.time⟩, c, report⟩, ⟨ran, q1, q2, rfl, z, w⟩, ?_⟩
  have m1' : ∀ l c, asyncSpaceMsg b.name l c = spaceMismatch b.name l c := fun l c => by unfold asyncSpaceMsg spaceMismatch; rfl
  have m2' : ∀ l c, asyncTimeMsg b.name l c = timeMismatch b.name l c := fun l c => by unfold asyncTimeMsg timeMismatch; rfl
  simp only [asyncMeasurements, AsyncRun.spaceOk, AsyncRun.timeOk, AsyncRun.timeMsg, AsyncRun.shown]
  clear w w' z z' hh
  generalize analyseTime env.f64 ⟨b.n1, b.n2⟩ ⟨m1.time, m2.time⟩ = time
  have tl : t ++ asyncHead b ++ evs ++ evs' ++ [.out "\n\n"] ++ [.out (report ++ "\n")] =
      t ++ (asyncHead b ++ (evs ++ evs') ++ [.out "\n\n", .out (report ++ "\n")]) := by simp
  rw [tl]
  generalize asyncHead b ++ (evs ++ evs') ++ [.out "\n\n", .out (report ++ "\n")] = sh
  have judge : (∀ l, b.smax = some l → c.asU32 ≤ l.asU32) → judgeSpace b x time c (t ++ sh) = judgeTime b x time (t ++ sh) →
      (((∀ l, b.smax = some l → c.asU32 ≤ l.asU32) ∧ (∀ l, b.tmax = some l → time.asU32 ≤ l.asU32) ∧ judgeSpace b x time c (t ++ sh) = (.ok .ok, t ++ sh)) ∨
      ((∀ l, b.smax = some l → c.asU32 ≤ l.asU32) ∧ ¬ (∀ l, b.tmax = some l → time.asU32 ≤ l.asU32) ∧
        judgeSpace b x time c (t ++ sh) = (.ok (.transient x (match b.tmax with | some l => timeMismatch b.name l time | none => "")),
          t ++ (sh ++ [.out (match b.tmax with | some l => timeMismatch b.name l time | none => "")])))) := by
    intro hs hj
    rw [hj]
    unfold judgeTime
    cases ht : b.tmax with
    | none => exact Or.inl ⟨hs, by simp, rfl⟩
    | some l =>
      simp only
      by_cases hc : time.asU32 > l.asU32
      · right
        refine ⟨hs, fun h => absurd (h l rfl) (not_le.2 hc), ?_⟩
        rw [if_pos hc, P.log_bind, m2', P.pure_eq, List.append_assoc]
      · left
        exact ⟨hs, fun l' hl' => by cases hl'; exact not_lt.1 hc, by rw [if_neg hc]; rfl⟩
  cases hs : b.smax with
  | none =>
    rw [hs] at judge
    rcases judge (by simp) (by unfold judgeSpace; rw [hs]) with h | h
    · exact Or.inl h
    · exact Or.inr (Or.inr h)
  | some l =>
    by_cases hc : c.asU32 > l.asU32
    · refine Or.inr (Or.inl ⟨l, rfl, hc, ?_⟩)
      unfold judgeSpace
      rw [hs]
      simp only
      rw [if_pos hc, P.log_bind, m1', P.pure_eq, List.append_assoc]
    · rw [hs] at judge
      rcases judge (fun l' hl' => by cases hl'; exact not_lt.1 hc) (by unfold judgeSpace; rw [hs]; simp only; rw [if_neg hc]) with h | h
      · exact Or.inl h
      · exact Or.inr (Or.inr h)

theorem AsyncRetried.nil (h : List (AEv D)) : AsyncRetried env b h [] := by
  intro l a l' e; simp at e

theorem AsyncRetried.snoc {h : List (AEv D)} {as : List (AsyncRun D)} {a : AsyncRun D} (r : AsyncRetried env b h as)
    (v : a.Valid env b (h ++ as.flatMap (AsyncRun.retried b)) (lastData as)) (s : a.spaceOk b) (t : ¬ a.timeOk b) :
    AsyncRetried env b h (as ++ [a]) := by
  intro l c l' e
  rcases List.eq_nil_or_concat l' with rfl | ⟨l'', y, rfl⟩
  · obtain ⟨rfl, e2⟩ := List.append_inj' e (by simp)
    cases e2; exact ⟨v, s, t⟩
  · have : as ++ [a] = (l ++ c :: l'') ++ [y] := by rw [e]; simp
    obtain ⟨rfl, -⟩ := List.append_inj' this (by simp)
    exact r l c l'' rfl

/-- an attempt after the first one -/
noncomputable def anewAsync (env : AEnv) (b : Builder D B) (data : D) : P (AEv D) (RetryResult D) := do
  P.log (.out "retrying...\n")
  rawAnalyse env b (some data)

/-- the loop over the delays; `as` are the retried attempts, `a` is the last one -/
theorem aloop_exact (h : List (AEv D)) (n : Nat) :
    ∀ (as : List (AsyncRun D)) (a : AsyncRun D), as.length + n = reattempts b → AsyncRetried env b h as →
      a.Valid env b (h ++ as.flatMap (AsyncRun.retried b)) (lastData as) → a.spaceOk b → ¬ a.timeOk b →
      ∀ r t', (retryLoop .sleep (anewAsync env b) n a.data (as.map (AsyncRun.timeMsg b)) (a.timeMsg b) >>=
          resolveOrPanic env.errors (reattempts b))
        (h ++ as.flatMap (AsyncRun.retried b) ++ (a.shown b ++ [.out (a.timeMsg b)])) = (r, t') →
      ∃ ext, t' = h ++ ext ∧ AsyncTold env b h ext r := by
  induction n with
  | zero =>
    intro as a hl hr hv hs ht r t' e
    unfold retryLoop at e
    rw [P.bind_ok (P.pure_eq _ _)] at e
    unfold resolveOrPanic at e
    cases e
    refine ⟨as.flatMap (AsyncRun.retried b) ++ a.shown b ++ [.out (a.timeMsg b)], by simp, ?_⟩
    exact AsyncTold.time hr (by simpa using hl) hv ⟨hs, ht⟩
  | succ n ih =>
    intro as a hl hr hv hs ht r t' e
    have hr' := hr.snoc hv hs ht
    have hflat : h ++ as.flatMap (AsyncRun.retried b) ++ (a.shown b ++ [.out (a.timeMsg b)]) ++ [.sleep] ++ [.out "retrying...\n"] =
        h ++ (as ++ [a]).flatMap (AsyncRun.retried b) := by simp [AsyncRun.retried]
    have hm : as.map (AsyncRun.timeMsg b) ++ [a.timeMsg b] = (as ++ [a]).map (AsyncRun.timeMsg b) := by simp
    have hd : some a.data = lastData (as ++ [a]) := by simp [lastData]
    unfold retryLoop at e
    rw [P.bind_assoc_at, P.log_bind, P.bind_assoc_at] at e
    unfold anewAsync at e
    rw [P.bind_assoc_at, P.log_bind, hflat, hm, hd] at e
    rcases raw_exact (env := env) (b := b) (h ++ (as ++ [a]).flatMap (AsyncRun.retried b)) (lastData (as ++ [a])) with
      ⟨cut, p, hc, h1⟩ | ⟨c, hb, ⟨q1, q2, h1⟩ | ⟨l, q1, q2, h1⟩ | ⟨q1, q2, h1⟩⟩
    · rw [P.bind_err h1] at e
      cases e
      exact ⟨_, List.append_assoc .., AsyncTold.panic hr' (by simp; omega) hc⟩
    · rw [P.bind_ok h1] at e
      cases e
      exact ⟨_, List.append_assoc .., AsyncTold.accepted hr' (by simp; omega) hb ⟨q1, q2⟩⟩
    · rw [P.bind_ok h1] at e
      cases e
      refine ⟨(as ++ [a]).flatMap (AsyncRun.retried b) ++ c.shown b ++ [.out (spaceMismatch b.name l c.space)], by simp, ?_⟩
      have := AsyncTold.space hr' (by simp; omega) hb q1 q2
      unfold stoppedMsg at this
      rw [if_neg (by simp)] at this
      exact this
    · rw [P.bind_ok h1] at e
      simp only at e
      exact ih (as ++ [a]) c (by simp; omega) hr' hb q1 q2 r t' e

/-- a whole test, exactly -/
theorem async_exact (env : AEnv) (b : Builder D B) (h : List (AEv D)) :
    ∃ ext, (testAsync env b h).2 = h ++ ext ∧ AsyncTold env b h ext (testAsync env b h).1 := by
  generalize e : testAsync env b h = x
  obtain ⟨r, t'⟩ := x
  simp only
  have e' : (retryWith .sleep (rawAnalyse env b none) (anewAsync env b) (reattempts b) >>=
      resolveOrPanic env.errors (reattempts b)) h = (r, t') := e
  unfold retryWith at e'
  rw [P.bind_assoc_at] at e'
  have hl : lastData ([] : List (AsyncRun D)) = none := rfl
  rcases raw_exact (env := env) (b := b) h none with ⟨cut, p, hc, h1⟩ | ⟨c, hb, ⟨q1, q2, h1⟩ | ⟨l, q1, q2, h1⟩ | ⟨q1, q2, h1⟩⟩
  · rw [P.bind_err h1] at e'
    cases e'
    exact ⟨_, rfl, by simpa using AsyncTold.panic (AsyncRetried.nil h) (by simp) (by simpa [hl] using hc)⟩
  · rw [P.bind_ok h1] at e'
    cases e'
    exact ⟨_, rfl, by simpa using AsyncTold.accepted (AsyncRetried.nil h) (by simp) (by simpa [hl] using hb) ⟨q1, q2⟩⟩
  · rw [P.bind_ok h1] at e'
    cases e'
    refine ⟨_, rfl, ?_⟩
    have := AsyncTold.space (AsyncRetried.nil h) (by simp) (by simpa [hl] using hb) q1 q2
    simpa [stoppedMsg] using this
  · rw [P.bind_ok h1] at e'
    exact aloop_exact h (reattempts b) [] c (by simp) (AsyncRetried.nil h) (by simpa [hl] using hb) q1 q2 r t' (by simpa using e')

end BigO
