import Verif.Proofs.TranscriptOnly

namespace BigO
variable {D B : Type} {env : AEnv} {b : Builder D B}

/-- the steps as a function: what is recorded, and the data in the end or a panic; nothing if a closure is missing -/
noncomputable def playFn (env : AEnv) (b : Builder D B) : List (AEv D) → Option D → List ALine → Option (List (AEv D) × Rs (Option D))
  | _, d, [] => some ([], .ok d)
  | h, d, .step title suff s fresh :: ls =>
    match fnOf b s with
    | none => none
    | some f =>
      match f h (given fresh d) with
      | .error e => some ([.call s (given fresh d) none], .error e)
      | .ok (m, x) =>
        match displaySpacePass env.text env.profile m.space with
        | .error e => some ([.call s (given fresh d) (some (m, x))], .error e)
        | .ok sp => (playFn env b (h ++ asyncStep env s (given fresh d) m x title sp suff) (some x) ls).map
            fun y => (asyncStep env s (given fresh d) m x title sp suff ++ y.1, y.2)
  | h, d, .check second :: ls =>
    match d, checkOf b second with
    | some x, some c =>
      match c h x with
      | .error e => some ([.check second x false], .error e)
      | .ok _ => (playFn env b (h ++ [.check second x true]) (some x) ls).map fun y => ([.check second x true] ++ y.1, y.2)
    | _, _ => none

theorem played_append {h evs : List (AEv D)} {d d' : Option D} {ls : List ALine} (r : Played env b h d ls evs d') (ls' : List ALine) :
    playFn env b h d (ls ++ ls') = (playFn env b (h ++ evs) d' ls').map fun y => (evs ++ y.1, y.2) := by
  induction r with
  | nil h d => simp
  | step fn run text rest ih =>
    rw [List.cons_append]
    conv_lhs => unfold playFn
    simp only [fn, run, text, ih, Option.map_map]
    rw [List.append_assoc]
    refine congrArg (fun f => Option.map f _) (funext fun y => ?_)
    simp
  | check fn run rest ih =>
    rw [List.cons_append]
    conv_lhs => unfold playFn
    simp only [fn, run, ih, Option.map_map]
    rw [List.append_assoc]
    refine congrArg (fun f => Option.map f _) (funext fun y => ?_)
    simp

theorem played_fn {h evs : List (AEv D)} {d d' : Option D} {ls : List ALine} (r : Played env b h d ls evs d') :
    playFn env b h d ls = some (evs, .ok d') := by
  have := played_append r []
  simpa [playFn] using this

theorem cut_fn {h evs : List (AEv D)} {d : Option D} {ls : List ALine} {e : Panic} (r : PlayedCut env b h d ls evs e) :
    playFn env b h d ls = some (evs, .error e) := by
  induction r with
  | call fn run => unfold playFn; simp only [fn, run]
  | text fn run text => unfold playFn; simp only [fn, run, text]
  | check fn run => unfold playFn; simp only [fn, run]
  | later ran rest ih => rw [played_append ran, ih]; rfl

theorem played_split {ls ls' : List ALine} : ∀ {h evs : List (AEv D)} {d d' : Option D}, Played env b h d (ls ++ ls') evs d' →
    ∃ e1 e2 dm, evs = e1 ++ e2 ∧ Played env b h d ls e1 dm ∧ Played env b (h ++ e1) dm ls' e2 d' := by
  induction ls with
  | nil => intro h evs d d' r; exact ⟨[], evs, d, rfl, .nil _ _, by simpa using r⟩
  | cons l ls ih =>
    intro h evs d d' r
    rw [List.cons_append] at r
    cases r with
    | step fn run text rest =>
      obtain ⟨e1, e2, dm, rfl, r1, r2⟩ := ih rest
      exact ⟨_, e2, dm, (List.append_assoc ..).symm, .step fn run text r1, by simpa using r2⟩
    | check fn run rest =>
      obtain ⟨e1, e2, dm, rfl, r1, r2⟩ := ih rest
      exact ⟨_, e2, dm, (List.append_assoc ..).symm, .check fn run r1, by simpa using r2⟩

/-- the results of the calls of a closure -/
def passResultsOf (s : AStep) (evs : List (AEv D)) : List PassResult :=
  evs.filterMap fun e => match e with
    | .call s' _ (some (m, _)) => if s' = s then some m else none
    | _ => none

theorem passResults_length {h evs : List (AEv D)} {d d' : Option D} {ls : List ALine} (s : AStep) (r : Played env b h d ls evs d') :
    (passResultsOf s evs).length = ls.countP fun l => match l with | .step _ _ s' _ => s' == s | _ => false := by
  induction r with
  | nil h d => rfl
  | @step h evs d d' title suff sp s' fresh ls f m x fn run text rest ih =>
    have : passResultsOf s (asyncStep env s' (given fresh d) m x title sp suff ++ evs) =
        (if s' = s then [m] else []) ++ passResultsOf s evs := by
      by_cases hs : s' = s <;> simp [passResultsOf, asyncStep, hs]
    rw [this, List.length_append, ih, List.countP_cons]
    by_cases hs : s' = s <;> simp [hs, Nat.add_comm]
  | check fn run rest ih =>
    have : ∀ (x : D) (q : Bool) (l : List (AEv D)), passResultsOf s ([.check q x true] ++ l) = passResultsOf s l := by intro x q l; simp [passResultsOf]
    rw [this, ih, List.countP_cons]
    simp

theorem passResult_unique {h evs : List (AEv D)} {d d' : Option D} {s : AStep} (hs : s = .pass1 ∨ s = .pass2)
    (r : Played env b h d (linesBefore b ++ linesOfPasses b) evs d') {m m' : PassResult}
    (a : ∃ i d, .call s i (some (m, d)) ∈ evs) (a' : ∃ i d, .call s i (some (m', d)) ∈ evs) : m = m' := by
  have hl := passResults_length s r
  have one : (linesBefore b ++ linesOfPasses b).countP (fun l => match l with | .step _ _ s' _ => s' == s | _ => false) = 1 := by
    unfold linesBefore linesOfPasses
    cases b.resetFn <;> cases b.warmupFn <;> cases b.check1 <;> cases b.check2 <;> rcases hs with rfl | rfl <;> rfl
  rw [one] at hl
  obtain ⟨z, hz⟩ := List.length_eq_one_iff.1 hl
  have mem : ∀ {m}, (∃ i d, AEv.call s i (some (m, d)) ∈ evs) → m ∈ passResultsOf s evs := by
    rintro m ⟨i, d, hm⟩
    exact List.mem_filterMap.2 ⟨_, hm, by simp⟩
  have k := mem a
  have k' := mem a'
  rw [hz] at k k'
  rw [List.mem_singleton.1 k, List.mem_singleton.1 k']

/-- an attempt as a relation: `Sum.inl` for a panic, `Sum.inr` for a complete attempt -/
def AttemptOutcome (env : AEnv) (b : Builder D B) (t : List (AEv D)) (prev : Option D) : (List (AEv D) × Panic) ⊕ AsyncRun D → Prop
  | .inl (cut, e) => AsyncCut env b t prev cut e
  | .inr a => a.Valid env b t prev

theorem full_passes {h evs : List (AEv D)} {d d' : Option D} (r : Played env b h d (linesOfPasses b) evs d') : b.fn1.isSome ∧ b.fn2.isSome := by
  have hl : linesOfPasses b = [.step "  Pass 1: " ";" .pass1 false] ++ (((if b.check1.isSome then [.check false] else []) ++
      (if b.resetFn.isSome then [.step "  In-between-passes Reset: " ";" .reset false] else [])) ++
      ([.step "  Pass 2: " "" .pass2 false] ++ (if b.check2.isSome then [.check true] else []))) := by simp [linesOfPasses]
  rw [hl] at r
  obtain ⟨_, _, _, -, r1, r2⟩ := played_split r
  obtain ⟨_, _, _, -, -, r3⟩ := played_split r2
  constructor
  · cases r1 with
    | step fn => exact Option.isSome_iff_exists.2 ⟨_, fn⟩
  · cases r3 with
    | step fn => exact Option.isSome_iff_exists.2 ⟨_, fn⟩

/-- the part of an attempt before the analysis, as a relation -/
inductive AttemptHalf (env : AEnv) (b : Builder D B) (h : List (AEv D)) (d : Option D) : List (AEv D) → Rs (Option D) → Prop
  | before {evs : List (AEv D)} {e : Panic} (cut : PlayedCut env b h d (linesBefore b) evs e) : AttemptHalf env b h d evs (.error e)
  | noFirst {evs : List (AEv D)} {d' : Option D} (ran : Played env b h d (linesBefore b) evs d') (none1 : b.fn1 = none) :
      AttemptHalf env b h d evs (.error (.msg "BUG! First pass function not present"))
  | noSecond {evs : List (AEv D)} {d' : Option D} (ran : Played env b h d (linesBefore b) evs d') (some1 : b.fn1.isSome) (none2 : b.fn2 = none) :
      AttemptHalf env b h d evs (.error (.msg "BUG! Second pass function not present"))
  | passes {evs evs' : List (AEv D)} {d' : Option D} {e : Panic} (ran : Played env b h d (linesBefore b) evs d') (some1 : b.fn1.isSome)
      (some2 : b.fn2.isSome) (cut : PlayedCut env b (h ++ evs) d' (linesOfPasses b) evs' e) : AttemptHalf env b h d (evs ++ evs') (.error e)
  | full {evs : List (AEv D)} {d' : Option D} (ran : Played env b h d (linesBefore b ++ linesOfPasses b) evs d') : AttemptHalf env b h d evs (.ok d')

/-- the same as a function -/
noncomputable def halfFn (env : AEnv) (b : Builder D B) (h : List (AEv D)) (d : Option D) : Option (List (AEv D) × Rs (Option D)) :=
  match playFn env b h d (linesBefore b) with
  | none => none
  | some (evs, .error e) => some (evs, .error e)
  | some (evs, .ok d') =>
    if b.fn1.isNone then some (evs, .error (.msg "BUG! First pass function not present"))
    else if b.fn2.isNone then some (evs, .error (.msg "BUG! Second pass function not present"))
    else (playFn env b (h ++ evs) d' (linesOfPasses b)).map fun y => (evs ++ y.1, y.2)

theorem attemptHalf_fn {h evs : List (AEv D)} {d : Option D} {r : Rs (Option D)} (x : AttemptHalf env b h d evs r) : halfFn env b h d = some (evs, r) := by
  unfold halfFn
  cases x with
  | before cut => rw [cut_fn cut]
  | noFirst ran none1 => rw [played_fn ran]; simp [none1]
  | noSecond ran some1 none2 =>
    rw [played_fn ran]
    obtain ⟨f, hf⟩ := Option.isSome_iff_exists.1 some1
    simp [hf, none2]
  | passes ran some1 some2 cut =>
    rw [played_fn ran]
    obtain ⟨f, hf⟩ := Option.isSome_iff_exists.1 some1
    obtain ⟨g, hg⟩ := Option.isSome_iff_exists.1 some2
    simp [hf, hg, cut_fn cut]
  | full ran =>
    obtain ⟨e1, e2, dm, rfl, r1, r2⟩ := played_split ran
    obtain ⟨s1, s2⟩ := full_passes r2
    rw [played_fn r1]
    obtain ⟨f, hf⟩ := Option.isSome_iff_exists.1 s1
    obtain ⟨g, hg⟩ := Option.isSome_iff_exists.1 s2
    simp [hf, hg, played_fn r2]

theorem attemptHalf_unique {h evs evs' : List (AEv D)} {d : Option D} {r r' : Rs (Option D)} (x : AttemptHalf env b h d evs r) (x' : AttemptHalf env b h d evs' r') :
    evs = evs' ∧ r = r' := by
  have := (attemptHalf_fn x).symm.trans (attemptHalf_fn x')
  simpa using this

/-- what an attempt was, in the end -/
inductive AttemptEnd (env : AEnv) (b : Builder D B) (evs : List (AEv D)) (d : Option D) : (List (AEv D) × Panic) ⊕ AsyncRun D → Prop
  | analysis {m1 m2 : PassResult} {e : Panic} (pass1 : ∃ i d, .call .pass1 i (some (m1, d)) ∈ evs)
      (pass2 : ∃ i d, .call .pass2 i (some (m2, d)) ∈ evs)
      (z : analyseSpace env.f64 env.profile ⟨b.n1, b.n2⟩ ⟨m1.space, m2.space⟩ = .error e) : AttemptEnd env b evs d (.inl (asyncHead b ++ evs, e))
  | report {m1 m2 : PassResult} {c : Complexity} {e : Panic} (pass1 : ∃ i d, .call .pass1 i (some (m1, d)) ∈ evs)
      (pass2 : ∃ i d, .call .pass2 i (some (m2, d)) ∈ evs)
      (z : analyseSpace env.f64 env.profile ⟨b.n1, b.n2⟩ ⟨m1.space, m2.space⟩ = .ok c)
      (w : reportRegular env.f64 env.text env.profile ⟨analyseTime env.f64 ⟨b.n1, b.n2⟩ ⟨m1.time, m2.time⟩, c,
        ⟨b.name, ⟨b.n1, b.n2⟩, ⟨m1.time, m2.time⟩, ⟨m1.space, m2.space⟩⟩⟩ = .error e) :
      AttemptEnd env b evs d (.inl (asyncHead b ++ evs ++ [.out "\n\n"], e))
  | whole {a : AsyncRun D} (ae : a.evs = evs) (ad : some a.data = d) (pass1 : ∃ i d, .call .pass1 i (some (a.m1, d)) ∈ evs)
      (pass2 : ∃ i d, .call .pass2 i (some (a.m2, d)) ∈ evs)
      (time : analyseTime env.f64 ⟨b.n1, b.n2⟩ ⟨a.m1.time, a.m2.time⟩ = a.time)
      (space : analyseSpace env.f64 env.profile ⟨b.n1, b.n2⟩ ⟨a.m1.space, a.m2.space⟩ = .ok a.space)
      (report : reportRegular env.f64 env.text env.profile
        ⟨a.time, a.space, ⟨b.name, ⟨b.n1, b.n2⟩, ⟨a.m1.time, a.m2.time⟩, ⟨a.m1.space, a.m2.space⟩⟩⟩ = .ok a.report) : AttemptEnd env b evs d (.inr a)

theorem outcome_half {t : List (AEv D)} {prev : Option D} {o : (List (AEv D) × Panic) ⊕ AsyncRun D} (x : AttemptOutcome env b t prev o) :
    (∃ evs e, AttemptHalf env b (t ++ asyncHead b) (startData b prev) evs (.error e) ∧ o = .inl (asyncHead b ++ evs, e)) ∨
    (∃ evs d, AttemptHalf env b (t ++ asyncHead b) (startData b prev) evs (.ok d) ∧
      Played env b (t ++ asyncHead b) (startData b prev) (linesBefore b ++ linesOfPasses b) evs d ∧ AttemptEnd env b evs d o) := by
  rcases o with ⟨cut, e⟩ | a
  case inr =>
    have v : a.Valid env b t prev := x
    exact Or.inr ⟨a.evs, some a.data, .full v.steps, v.steps, .whole rfl rfl v.pass1 v.pass2 v.time v.space v.report⟩
  case inl =>
    have c : AsyncCut env b t prev cut e := x
    cases c with
    | before cut => exact Or.inl ⟨_, _, .before cut, rfl⟩
    | noFirst ran n => exact Or.inl ⟨_, _, .noFirst ran n, rfl⟩
    | noSecond ran s n => exact Or.inl ⟨_, _, .noSecond ran s n, rfl⟩
    | passes ran s s' cut => exact Or.inl ⟨_, _, .passes ran s s' cut, by rw [List.append_assoc]⟩
    | analysis ran p1 p2 z => exact Or.inr ⟨_, _, .full ran, ran, .analysis p1 p2 z⟩
    | report ran p1 p2 z w => exact Or.inr ⟨_, _, .full ran, ran, .report p1 p2 z w⟩

theorem attemptEnd_unique {h evs : List (AEv D)} {d d' : Option D} (r : Played env b h d (linesBefore b ++ linesOfPasses b) evs d')
    {o o' : (List (AEv D) × Panic) ⊕ AsyncRun D} (x : AttemptEnd env b evs d' o) (x' : AttemptEnd env b evs d' o') : o = o' := by
  have u1 := fun {m m'} => passResult_unique (m := m) (m' := m') (Or.inl rfl) r
  have u2 := fun {m m'} => passResult_unique (m := m) (m' := m') (Or.inr rfl) r
  cases x with
  | analysis p1 p2 z =>
    cases x' with
    | analysis p1' p2' z' => obtain rfl := u1 p1 p1'; obtain rfl := u2 p2 p2'; rw [z] at z'; cases z'; rfl
    | report p1' p2' z' => obtain rfl := u1 p1 p1'; obtain rfl := u2 p2 p2'; rw [z] at z'; cases z'
    | whole _ _ p1' p2' _ z' => obtain rfl := u1 p1 p1'; obtain rfl := u2 p2 p2'; rw [z] at z'; cases z'
  | report p1 p2 z w =>
    cases x' with
    | analysis p1' p2' z' => obtain rfl := u1 p1 p1'; obtain rfl := u2 p2 p2'; rw [z] at z'; cases z'
    | report p1' p2' z' w' =>
      obtain rfl := u1 p1 p1'; obtain rfl := u2 p2 p2'; rw [z] at z'; cases z'; rw [w] at w'; cases w'; rfl
    | whole _ _ p1' p2' t' z' w' =>
      obtain rfl := u1 p1 p1'; obtain rfl := u2 p2 p2'; rw [z] at z'; cases z'; rw [← t', w] at w'; cases w'
  | whole ae ad p1 p2 t z w =>
    cases x' with
    | analysis p1' p2' z' => obtain rfl := u1 p1 p1'; obtain rfl := u2 p2 p2'; rw [z] at z'; cases z'
    | report p1' p2' z' w' =>
      obtain rfl := u1 p1 p1'; obtain rfl := u2 p2 p2'; rw [z] at z'; cases z'; rw [← t] at w; rw [w] at w'; cases w'
    | @whole a' ae' ad' p1' p2' t' z' w' =>
      rename_i a
      obtain ⟨_, m1, m2, da, ti, sp, re⟩ := a
      obtain ⟨_, m1', m2', da', ti', sp', re'⟩ := a'
      simp only at *
      obtain rfl := u1 p1 p1'; obtain rfl := u2 p2 p2'
      rw [z] at z'; cases z'
      rw [t] at t'; cases t'
      rw [w] at w'; cases w'
      rw [← ad] at ad'; cases ad'
      rw [ae, ae']

theorem outcome_unique {t : List (AEv D)} {prev : Option D} {o o' : (List (AEv D) × Panic) ⊕ AsyncRun D}
    (x : AttemptOutcome env b t prev o) (x' : AttemptOutcome env b t prev o') : o = o' := by
  rcases outcome_half x with ⟨evs, e, h1, rfl⟩ | ⟨evs, d, h1, r, h2⟩ <;> rcases outcome_half x' with ⟨evs', e', h1', rfl⟩ | ⟨evs', d', h1', -, h2'⟩
  · obtain ⟨rfl, q⟩ := attemptHalf_unique h1 h1'; cases q; rfl
  · obtain ⟨-, q⟩ := attemptHalf_unique h1 h1'; cases q
  · obtain ⟨-, q⟩ := attemptHalf_unique h1 h1'; cases q
  · obtain ⟨rfl, q⟩ := attemptHalf_unique h1 h1'; cases q; exact attemptEnd_unique r h2 h2'

/-- an attempt that was cut -/
theorem acut_run {t cut : List (AEv D)} {prev : Option D} {e : Panic} (c : AsyncCut env b t prev cut e) :
    rawAnalyse env b prev t = (.error e, t ++ cut) := by
  have c' : AttemptOutcome env b t prev (.inl (cut, e)) := c
  rcases raw_exact (env := env) (b := b) t prev with ⟨cut', e', hc, h⟩ | ⟨a, v, -⟩
  · cases outcome_unique c' (show AttemptOutcome env b t prev (.inl (cut', e')) from hc)
    exact h
  · cases outcome_unique c' (show AttemptOutcome env b t prev (.inr a) from v)

/-- an attempt that was not cut -/
theorem avalid_run {t : List (AEv D)} {prev : Option D} {a : AsyncRun D} (v : a.Valid env b t prev) :
    (a.spaceOk b → a.timeOk b → rawAnalyse env b prev t = (.ok .ok, t ++ a.shown b)) ∧
    (∀ l, b.smax = some l → l.asU32 < a.space.asU32 → rawAnalyse env b prev t =
      (.ok (.fatal (spaceMismatch b.name l a.space)), t ++ (a.shown b ++ [.out (spaceMismatch b.name l a.space)]))) ∧
    (a.spaceOk b → ¬ a.timeOk b → rawAnalyse env b prev t =
      (.ok (.transient a.data (a.timeMsg b)), t ++ (a.shown b ++ [.out (a.timeMsg b)]))) := by
  have v' : AttemptOutcome env b t prev (.inr a) := v
  rcases raw_exact (env := env) (b := b) t prev with ⟨cut', e', hc, h⟩ | ⟨a', v'', h⟩
  · cases outcome_unique v' (show AttemptOutcome env b t prev (.inl (cut', e')) from hc)
  cases outcome_unique v' (show AttemptOutcome env b t prev (.inr a') from v'')
  rcases h with ⟨k1, k2, h⟩ | ⟨l, k1, k2, h⟩ | ⟨k1, k2, h⟩
  · exact ⟨fun _ _ => h, fun l hl q => absurd (k1 l hl) (not_le.2 q), fun _ q => absurd k2 q⟩
  · refine ⟨fun q _ => absurd (q l k1) (not_le.2 k2), fun l' hl _ => ?_, fun q _ => absurd (q l k1) (not_le.2 k2)⟩
    rw [k1] at hl; cases hl; exact h
  · exact ⟨fun _ q => absurd q k2, fun l hl q => absurd (k1 l hl) (not_le.2 q), fun _ _ => h⟩

/-- an attempt: the first one, or a later one with the data of the previous -/
noncomputable def anyAsync (env : AEnv) (b : Builder D B) : Option D → P (AEv D) (RetryResult D)
  | none => rawAnalyse env b none
  | some d => anewAsync env b d

/-- what comes before an attempt -/
def anew (as : List (AsyncRun D)) : List (AEv D) := if as = [] then [] else [.out "retrying...\n"]

theorem any_run {as : List (AsyncRun D)} {t : List (AEv D)} :
    anyAsync env b (lastData as) t = rawAnalyse env b (lastData as) (t ++ anew as) := by
  unfold anew
  by_cases h0 : as = []
  · subst h0; simp [lastData, anyAsync]
  · have hs : (lastData as).isSome := by simpa [lastData] using h0
    obtain ⟨d, hd⟩ := Option.isSome_iff_exists.1 hs
    rw [hd, if_neg h0]
    show anewAsync env b d t = _
    unfold anewAsync
    rw [P.log_bind]

/-- the history after the pauses, before the announcement of the next attempt -/
theorem async_chain {h : List (AEv D)} {as : List (AsyncRun D)} (r : AsyncRetried env b h as) :
    ∃ t, t ++ anew as = h ++ as.flatMap (AsyncRun.retried b) ∧ Chain .sleep (anyAsync env b) h t (lastData as) (as.map (AsyncRun.timeMsg b)) := by
  induction as using List.reverseRecOn with
  | nil => exact ⟨h, by simp [anew], Chain.nil⟩
  | append_singleton as a ih =>
    obtain ⟨v, s, tm⟩ := r as a [] (by simp)
    obtain ⟨t, ht, c⟩ := ih fun l x l' e => r l x (l' ++ [a]) (by rw [e]; simp)
    have k := (any_run (env := env) (b := b) (as := as) (t := t)).trans ((congrArg _ ht).trans ((avalid_run v).2.2 s tm))
    have := c.snoc k
    refine ⟨_, ?_, by simpa [lastData] using this⟩
    simp [anew, AsyncRun.retried]

/-- what the specification says is what happens -/
theorem atold_run {h ext : List (AEv D)} {r : Rs Unit} (x : AsyncTold env b h ext r) : testAsync env b h = (r, h ++ ext) := by
  have go : ∀ {as : List (AsyncRun D)}, AsyncRetried env b h as → as.length ≤ reattempts b → testAsync env b h =
      (rawAnalyse env b (lastData as) >>= fun y => afterAttempt .sleep (anyAsync env b) (reattempts b)
        (as.map (AsyncRun.timeMsg b)) y >>= resolveOrPanic env.errors (reattempts b)) (h ++ as.flatMap (AsyncRun.retried b)) := by
    intro as hr hl
    obtain ⟨t, ht, c⟩ := async_chain hr
    have := chain_run c (n := reattempts b) (by simpa using hl)
    rw [← P.bind_assoc_at]
    have e : testAsync env b h = (retryWith .sleep (anyAsync env b none) (fun i => anyAsync env b (some i)) (reattempts b) >>=
      resolveOrPanic env.errors (reattempts b)) h := rfl
    rw [e, P.bind_eq, P.bind_eq, this, P.bind_eq, P.bind_eq, any_run, ht]
  cases x with
  | @accepted as a retried few valid within =>
    rw [go retried few, P.bind_ok ((avalid_run valid).1 within.1 within.2)]
    by_cases h0 : as.map (AsyncRun.timeMsg b) = []
    · simp only [afterAttempt, if_pos h0]
      exact congrArg (Prod.mk _) (by simp)
    · simp only [afterAttempt, if_neg h0]
      exact congrArg (Prod.mk _) (by simp)
  | @space as a l retried few valid limit beyond =>
    rw [go retried few, P.bind_ok ((avalid_run valid).2.1 l limit beyond)]
    unfold stoppedMsg
    by_cases h0 : as.map (AsyncRun.timeMsg b) = []
    · simp only [afterAttempt, if_pos h0]
      exact congrArg (Prod.mk _) (by simp)
    · simp only [afterAttempt, if_neg h0]
      exact congrArg (Prod.mk _) (by simp)
  | @time as a retried all valid beyond =>
    rw [go retried all.le, P.bind_ok ((avalid_run valid).2.2 beyond.1 beyond.2)]
    simp only [afterAttempt, List.length_map, all, Nat.sub_self]
    unfold givenUpMsg
    exact congrArg (Prod.mk _) (by simp)
  | panic retried few ended =>
    rw [go retried few, P.bind_err (acut_run ended), List.append_assoc]

end BigO
