import Verif.Proofs.CrudMore

/-!
# Proofs about the CRUD runner: limits and retries
-/
namespace BigO

/-! ### looser limits -/

/-- every run of `m` that ends normally is also a run of `m'` -/
def Refines {α : Type} (m m' : M α) : Prop := ∀ s v s', m s = (.ok v, s') → m' s = (.ok v, s')

theorem Refines.refl {α : Type} (m : M α) : Refines m m := fun _ _ _ h => h

theorem Refines.bind {α β : Type} {m m' : M α} {f f' : α → M β} (h1 : Refines m m') (h2 : ∀ a, Refines (f a) (f' a)) :
    Refines (m >>= f) (m' >>= f') := by
  intro s v s' h
  obtain ⟨a, s1, ha, hb⟩ := M.bind_eq_ok.1 h
  exact M.bind_eq_ok.2 ⟨a, s1, h1 _ _ _ ha, h2 a _ _ _ hb⟩

theorem Refines.yield {α : Type} (op : Op) {c c' : OpCfg} (m : α) (t sp : Complexity) (ht : c.tmax.asU32 ≤ c'.tmax.asU32)
    (hs : c.smax.asU32 ≤ c'.smax.asU32) : Refines (yieldAnalysis op c m t sp) (yieldAnalysis op c' m t sp) := by
  intro s v s' h
  obtain ⟨rfl, rfl, h1, h2⟩ := yield_ok h
  unfold yieldAnalysis
  rw [if_neg (by omega), if_neg (by omega)]
  rfl

section
variable {cfg cfg' : CrudCfg} (hl : Looser cfg cfg') (env : CrudEnv)
include hl

theorem Refines.constantSet (op suff pref k) :
    Refines (constantSetPass env cfg op suff pref k) (constantSetPass env cfg' op suff pref k) := by
  obtain ⟨-, -, h⟩ := hl
  unfold constantSetPass
  simp only [(h op).1, (h .create).1, (h op).2.1]
  split
  · refine (Refines.refl _).bind fun _ => (Refines.refl _).bind fun _ => (Refines.refl _).bind fun _ => (Refines.refl _).bind fun _ => ?_
    split
    · exact (Refines.refl _).bind fun _ => (Refines.refl _).bind fun _ => (Refines.refl _).bind fun _ => (Refines.refl _).bind fun _ =>
        Refines.yield _ _ _ _ (h op).2.2.1 (h op).2.2.2
    · exact Refines.refl _
  · exact Refines.refl _

theorem Refines.setResizing (op suff pref rf last k) :
    Refines (setResizingPass env cfg op suff pref rf last k) (setResizingPass env cfg' op suff pref rf last k) := by
  obtain ⟨-, -, h⟩ := hl
  unfold setResizingPass
  simp only [(h op).1, (h op).2.1]
  split
  · refine (Refines.refl _).bind fun _ => (Refines.refl _).bind fun _ => (Refines.refl _).bind fun _ => (Refines.refl _).bind fun _ => ?_
    split
    · exact (Refines.refl _).bind fun _ => (Refines.refl _).bind fun _ => (Refines.refl _).bind fun _ =>
        Refines.yield _ _ _ _ (h op).2.2.1 (h op).2.2.2
    · exact Refines.refl _
  · exact Refines.refl _

theorem Refines.warmupOp (op l) : Refines (warmupOp env cfg op l) (warmupOp env cfg' op l) := by
  obtain ⟨-, hw, h⟩ := hl
  unfold BigO.warmupOp
  simp only [(h op).1, (h op).2.1, hw]
  exact Refines.refl _

theorem Refines.warmup : Refines (warmup env cfg) (warmup env cfg') := by
  unfold BigO.warmup
  simp only [(hl.2.2 .create).1, hl.2.1]
  split
  · exact (Refines.refl _).bind fun _ => (Refines.warmupOp hl env _ _).bind fun _ => (Refines.warmupOp hl env _ _).bind fun _ =>
      (Refines.warmupOp hl env _ _).bind fun _ => (Refines.warmupOp hl env _ _).bind fun _ => Refines.refl _
  · exact Refines.refl _

theorem Refines.report {α : Type} (op) (a : Option α) (d) : Refines (outputReport (cfg.op op) a d) (outputReport (cfg'.op op) a d) := by
  unfold outputReport
  simp only [(hl.2.2 op).1]
  exact Refines.refl _

theorem Refines.deletePasses : Refines (deletePasses env cfg) (deletePasses env cfg') := by
  unfold BigO.deletePasses
  simp only [(hl.2.2 .delete).1]
  split
  · exact (Refines.refl _).bind fun _ => (Refines.setResizing hl env _ _ _ _ _ _).bind fun _ =>
      (Refines.setResizing hl env _ _ _ _ _ _).bind fun _ => (Refines.refl _).bind fun _ => (Refines.refl _).bind fun _ =>
      (Refines.report hl _ _ _).bind fun _ => Refines.refl _
  · exact Refines.refl _

theorem Refines.body : Refines (analyseBody env cfg) (analyseBody env cfg') := by
  unfold analyseBody createPass readPass updatePass
  simp only [hl.1, (hl.2.2 .read).1, (hl.2.2 .update).1]
  exact (Refines.refl _).bind fun _ => (Refines.warmup hl env).bind fun _ => (Refines.refl _).bind fun _ =>
    (Refines.setResizing hl env _ _ _ _ _ _).bind fun _ => (Refines.constantSet hl env _ _ _ _).bind fun _ =>
    (Refines.constantSet hl env _ _ _ _).bind fun _ => (Refines.refl _).bind fun _ =>
    (Refines.setResizing hl env _ _ _ _ _ _).bind fun _ => (Refines.constantSet hl env _ _ _ _).bind fun _ =>
    (Refines.constantSet hl env _ _ _ _).bind fun _ => (Refines.refl _).bind fun _ =>
    (Refines.report hl _ _ _).bind fun _ => (Refines.report hl _ _ _).bind fun _ => (Refines.report hl _ _ _).bind fun _ =>
    (Refines.deletePasses hl env).bind fun _ => Refines.refl _

end

/-! ### no limits -/

/-- `m` never returns an error -/
def NoFail {α : Type} (m : M α) : Prop := ∀ s e, (m s).1 ≠ .fail e

theorem NoFail.bind {α β : Type} {m : M α} {f : α → M β} (h1 : NoFail m) (h2 : ∀ a, NoFail (f a)) : NoFail (m >>= f) := by
  intro s e
  have h := h1 s
  generalize hm : m s = x at h
  obtain ⟨r, s1⟩ := x
  cases r with
  | ok a => rw [M.bind_ok hm]; exact h2 a s1 e
  | fail e' => exact absurd rfl (h e')
  | panic e' => rw [M.bind_panic hm]; simp

theorem NoFail.pure {α : Type} (a : α) : NoFail (Pure.pure a : M α) := by
  intro s e
  show (Res.ok a : Res α) ≠ _
  simp
theorem NoFail.lift {α : Type} (x : Rs α) : NoFail (M.lift x) := by
  intro s e; unfold M.lift; cases x <;> simp
theorem NoFail.get {α : Type} (f : CrudSt → α) : NoFail (M.get f) := by intro s e; simp [M.get]
theorem NoFail.output (msg) : NoFail (output msg) := by intro s e; simp [BigO.output]
theorem NoFail.xorR (x) : NoFail (xorR x) := by intro s e; simp [BigO.xorR]
theorem NoFail.setRes (op k pr) : NoFail (setRes op k pr) := by intro s e; simp [BigO.setRes]
theorem NoFail.reset (env) (n) : NoFail (callReset env n) := by
  intro s e
  unfold callReset
  cases env.resetFn s.trace n <;> simp
theorem NoFail.run (env : CrudEnv) (ph op a b t) : NoFail (runIteratorPass env ph op a b t) := by
  intro s e
  unfold runIteratorPass
  split
  · simp
  · split <;> simp
theorem NoFail.verbosely (env : CrudEnv) (pref suff ph op range t) : NoFail (runVerbosely env pref suff ph op range t) :=
  (NoFail.run env _ _ _ _ _).bind fun _ => (NoFail.lift _).bind fun _ => (NoFail.output _).bind fun _ => NoFail.pure _

/-- the largest class -/
theorem asU32_le_worse (c : Complexity) : c.asU32 ≤ Complexity.worseThanExponential.asU32 := by
  cases c <;> decide

theorem NoFail.yield {α : Type} (op c) (m : α) (t sp) (ht : c.tmax = .worseThanExponential) (hs : c.smax = .worseThanExponential) :
    NoFail (yieldAnalysis op c m t sp) := by
  have h1 := asU32_le_worse t
  have h2 := asU32_le_worse sp
  unfold yieldAnalysis
  rw [ht, hs, if_neg (by omega), if_neg (by omega)]
  exact NoFail.pure _

section
variable {cfg : CrudCfg} (hu : ∀ o, (cfg.op o).tmax = .worseThanExponential ∧ (cfg.op o).smax = .worseThanExponential) (env : CrudEnv)
include hu

theorem NoFail.constantSet (op suff pref k) : NoFail (constantSetPass env cfg op suff pref k) := by
  unfold constantSetPass
  split
  · refine (NoFail.lift _).bind fun _ => (NoFail.verbosely env _ _ _ _ _ _).bind fun _ => (NoFail.setRes _ _ _).bind fun _ =>
      (NoFail.xorR _).bind fun _ => ?_
    split
    · exact (NoFail.lift _).bind fun _ => (NoFail.get _).bind fun _ => (NoFail.get _).bind fun _ =>
        (NoFail.lift _).bind fun _ => NoFail.yield _ _ _ _ _ (hu op).1 (hu op).2
    · exact NoFail.pure _
  · exact NoFail.pure _

theorem NoFail.setResizing (op suff pref rf last k) : NoFail (setResizingPass env cfg op suff pref rf last k) := by
  unfold setResizingPass
  split
  · refine (NoFail.lift _).bind fun _ => (NoFail.verbosely env _ _ _ _ _ _).bind fun _ => (NoFail.setRes _ _ _).bind fun _ =>
      (NoFail.xorR _).bind fun _ => ?_
    split
    · exact (NoFail.get _).bind fun _ => (NoFail.get _).bind fun _ =>
        (NoFail.lift _).bind fun _ => NoFail.yield _ _ _ _ _ (hu op).1 (hu op).2
    · exact NoFail.pure _
  · exact NoFail.pure _

omit hu in
theorem NoFail.warmupOp (op l) : NoFail (warmupOp env cfg op l) := by
  unfold BigO.warmupOp
  split
  · refine (NoFail.output _).bind fun _ => (NoFail.lift _).bind fun _ => ?_
    split
    · exact (NoFail.run env _ _ _ _ _).bind fun _ => NoFail.xorR _
    · exact (NoFail.run env _ _ _ _ _).bind fun _ => NoFail.xorR _
  · exact NoFail.pure _

omit hu in
theorem NoFail.warmup : NoFail (warmup env cfg) := by
  unfold BigO.warmup
  split
  · exact (NoFail.output _).bind fun _ => (NoFail.warmupOp env _ _).bind fun _ => (NoFail.warmupOp env _ _).bind fun _ =>
      (NoFail.warmupOp env _ _).bind fun _ => (NoFail.warmupOp env _ _).bind fun _ => (NoFail.output _).bind fun _ =>
      (NoFail.lift _).bind fun _ => (NoFail.reset _ _).bind fun _ => (NoFail.get _).bind fun _ => NoFail.output _
  · exact NoFail.pure _

omit hu in
theorem NoFail.report {α : Type} (c) (a : Option α) (d) : NoFail (outputReport c a d) := by
  unfold outputReport
  split
  · exact (NoFail.lift _).bind fun _ => (NoFail.lift _).bind fun _ => NoFail.output _
  · exact NoFail.pure _

theorem NoFail.deletePasses : NoFail (deletePasses env cfg) := by
  unfold BigO.deletePasses
  split
  · exact (NoFail.output _).bind fun _ => (NoFail.setResizing hu env _ _ _ _ _ _).bind fun _ =>
      (NoFail.setResizing hu env _ _ _ _ _ _).bind fun _ => (NoFail.get _).bind fun _ => (NoFail.output _).bind fun _ =>
      (NoFail.report _ _ _).bind fun _ => NoFail.pure _
  · exact NoFail.pure _

theorem NoFail.body : NoFail (analyseBody env cfg) :=
  (NoFail.output _).bind fun _ => (NoFail.warmup env).bind fun _ => (NoFail.output _).bind fun _ =>
    (NoFail.setResizing hu env _ _ _ _ _ _).bind fun _ => (NoFail.constantSet hu env _ _ _ _).bind fun _ =>
    (NoFail.constantSet hu env _ _ _ _).bind fun _ => (NoFail.output _).bind fun _ =>
    (NoFail.setResizing hu env _ _ _ _ _ _).bind fun _ => (NoFail.constantSet hu env _ _ _ _).bind fun _ =>
    (NoFail.constantSet hu env _ _ _ _).bind fun _ => (NoFail.output _).bind fun _ =>
    (NoFail.report _ _ _).bind fun _ => (NoFail.report _ _ _).bind fun _ => (NoFail.report _ _ _).bind fun _ =>
    (NoFail.deletePasses hu env).bind fun _ => NoFail.pure _

end

/-! ### rejections -/

/-- every error that `m` may return satisfies `Q` -/
def FailP (Q : CrudError → CrudSt → Prop) {α : Type} (m : M α) : Prop := ∀ s e, (m s).1 = .fail e → Q e (m s).2

theorem NoFail.failP {α : Type} {m : M α} (h : NoFail m) (Q) : FailP Q m := fun s e he => absurd he (h s e)

theorem FailP.bind {Q : CrudError → CrudSt → Prop} {α β : Type} {m : M α} {f : α → M β} (h1 : FailP Q m) (h2 : ∀ a, FailP Q (f a)) :
    FailP Q (m >>= f) := by
  intro s e
  have h := h1 s
  generalize hm : m s = x at h
  obtain ⟨r, s1⟩ := x
  cases r with
  | ok a => rw [M.bind_ok hm]; exact h2 a s1 e
  | fail e' =>
    rw [M.bind_fail hm]
    intro he
    cases he
    exact h e rfl
  | panic e' => rw [M.bind_panic hm]; simp

/-- the error is a rejection and carries the report so far -/
def RejectsNow (cfg : CrudCfg) (e : CrudError) (s : CrudSt) : Prop := Rejects cfg e ∧ e.partialReport = s.report

theorem FailP.yield {α : Type} {cfg : CrudCfg} (op) (m : α) (t sp) : FailP (RejectsNow cfg) (yieldAnalysis op (cfg.op op) m t sp) := by
  intro s e
  unfold yieldAnalysis
  split
  · rename_i h
    intro he
    have he' : abortError "Time" "TIME" op (cfg.op op).tmax t (s.report ++ abortText "TIME" op (cfg.op op).tmax t) = e := Res.fail.inj he
    subst he'
    exact ⟨⟨op, rfl, Or.inl ⟨rfl, h, rfl⟩⟩, rfl⟩
  · split
    · rename_i h
      intro he
      have he' : abortError "Space" "SPACE" op (cfg.op op).smax sp (s.report ++ abortText "SPACE" op (cfg.op op).smax sp) = e := Res.fail.inj he
      subst he'
      exact ⟨⟨op, rfl, Or.inr ⟨rfl, h, rfl⟩⟩, rfl⟩
    · intro he; cases he

section
variable {cfg : CrudCfg} (env : CrudEnv)

theorem FailP.constantSet (op suff pref k) : FailP (RejectsNow cfg) (constantSetPass env cfg op suff pref k) := by
  unfold constantSetPass
  split
  · refine ((NoFail.lift _).failP _).bind fun _ => ((NoFail.verbosely env _ _ _ _ _ _).failP _).bind fun _ =>
      ((NoFail.setRes _ _ _).failP _).bind fun _ => ((NoFail.xorR _).failP _).bind fun _ => ?_
    split
    · exact ((NoFail.lift _).failP _).bind fun _ => ((NoFail.get _).failP _).bind fun _ => ((NoFail.get _).failP _).bind fun _ =>
        ((NoFail.lift _).failP _).bind fun _ => FailP.yield _ _ _ _
    · exact (NoFail.pure _).failP _
  · exact (NoFail.pure _).failP _

theorem FailP.setResizing (op suff pref rf last k) : FailP (RejectsNow cfg) (setResizingPass env cfg op suff pref rf last k) := by
  unfold setResizingPass
  split
  · refine ((NoFail.lift _).failP _).bind fun _ => ((NoFail.verbosely env _ _ _ _ _ _).failP _).bind fun _ =>
      ((NoFail.setRes _ _ _).failP _).bind fun _ => ((NoFail.xorR _).failP _).bind fun _ => ?_
    split
    · exact ((NoFail.get _).failP _).bind fun _ => ((NoFail.get _).failP _).bind fun _ =>
        ((NoFail.lift _).failP _).bind fun _ => FailP.yield _ _ _ _
    · exact (NoFail.pure _).failP _
  · exact (NoFail.pure _).failP _

theorem FailP.deletePasses : FailP (RejectsNow cfg) (deletePasses env cfg) := by
  unfold BigO.deletePasses
  split
  · exact ((NoFail.output _).failP _).bind fun _ => (FailP.setResizing env _ _ _ _ _ _).bind fun _ =>
      (FailP.setResizing env _ _ _ _ _ _).bind fun _ => ((NoFail.get _).failP _).bind fun _ => ((NoFail.output _).failP _).bind fun _ =>
      ((NoFail.report _ _ _).failP _).bind fun _ => (NoFail.pure _).failP _
  · exact (NoFail.pure _).failP _

theorem FailP.body : FailP (RejectsNow cfg) (analyseBody env cfg) :=
  ((NoFail.output _).failP _).bind fun _ => ((NoFail.warmup env).failP _).bind fun _ => ((NoFail.output _).failP _).bind fun _ =>
    (FailP.setResizing env _ _ _ _ _ _).bind fun _ => (FailP.constantSet env _ _ _ _).bind fun _ =>
    (FailP.constantSet env _ _ _ _).bind fun _ => ((NoFail.output _).failP _).bind fun _ =>
    (FailP.setResizing env _ _ _ _ _ _).bind fun _ => (FailP.constantSet env _ _ _ _).bind fun _ =>
    (FailP.constantSet env _ _ _ _).bind fun _ => ((NoFail.output _).failP _).bind fun _ =>
    ((NoFail.report _ _ _).failP _).bind fun _ => ((NoFail.report _ _ _).failP _).bind fun _ => ((NoFail.report _ _ _).failP _).bind fun _ =>
    (FailP.deletePasses env).bind fun _ => (NoFail.pure _).failP _

end

/-! ### one analysis -/

/-- the state in which an analysis starts -/
def crudStart (trace : List Ev) : CrudSt := { trace := trace, report := "", r := 0, res := fun _ _ => PassResult.default }

theorem internalAnalyse_ok {env : CrudEnv} {cfg : CrudCfg} {t a t'} :
    internalAnalyse env cfg t = (.ok a, t') ↔ ∃ s', analyseBody env cfg (crudStart t) = (.ok a.1, s') ∧ a.2 = s'.report ∧ t' = s'.trace := by
  unfold internalAnalyse
  show (match analyseBody env cfg (crudStart t) with
    | (.ok a, s) => ((.ok (a, s.report), s.trace) : Res (CrudAnalyses × String) × List Ev)
    | (.fail e, s) => (.fail e, s.trace)
    | (.panic e, s) => (.panic e, s.trace)) = _ ↔ _
  obtain ⟨a1, a2⟩ := a
  generalize analyseBody env cfg (crudStart t) = x
  obtain ⟨r, s⟩ := x
  cases r with
  | ok v =>
    simp only [Prod.mk.injEq, Res.ok.injEq]
    constructor
    · rintro ⟨⟨rfl, rfl⟩, rfl⟩; exact ⟨s, ⟨rfl, rfl⟩, rfl, rfl⟩
    · rintro ⟨s', ⟨rfl, rfl⟩, rfl, rfl⟩; exact ⟨⟨rfl, rfl⟩, rfl⟩
  | fail e => simp
  | panic e => simp

theorem internalAnalyse_trace (env : CrudEnv) (cfg : CrudCfg) (t : List Ev) :
    (internalAnalyse env cfg t).2 = (analyseBody env cfg (crudStart t)).2.trace := by
  unfold internalAnalyse
  show (match analyseBody env cfg (crudStart t) with
    | (.ok a, s) => ((.ok (a, s.report), s.trace) : Res (CrudAnalyses × String) × List Ev)
    | (.fail e, s) => (.fail e, s.trace)
    | (.panic e, s) => (.panic e, s.trace)).2 = _
  generalize analyseBody env cfg (crudStart t) = x
  obtain ⟨r, s⟩ := x
  cases r <;> rfl

theorem internalAnalyse_fail {env : CrudEnv} {cfg : CrudCfg} {t e t'} :
    internalAnalyse env cfg t = (.fail e, t') ↔ ∃ s', analyseBody env cfg (crudStart t) = (.fail e, s') ∧ t' = s'.trace := by
  unfold internalAnalyse
  show (match analyseBody env cfg (crudStart t) with
    | (.ok a, s) => ((.ok (a, s.report), s.trace) : Res (CrudAnalyses × String) × List Ev)
    | (.fail e, s) => (.fail e, s.trace)
    | (.panic e, s) => (.panic e, s.trace)) = _ ↔ _
  generalize analyseBody env cfg (crudStart t) = x
  obtain ⟨r, s⟩ := x
  cases r with
  | fail v =>
    simp only [Prod.mk.injEq, Res.fail.injEq]
    constructor
    · rintro ⟨rfl, rfl⟩; exact ⟨s, ⟨rfl, rfl⟩, rfl⟩
    · rintro ⟨s', ⟨rfl, rfl⟩, rfl⟩; exact ⟨rfl, rfl⟩
  | ok e => simp
  | panic e => simp

/-! ### the retry loop -/

theorem testLoop_step (env : CrudEnv) (cfg : CrudCfg) (max left k : Nat) (errs : List CrudError) (t : List Ev) :
    testLoop env cfg max (left + 1) k errs t =
      match attempt env cfg k t with
      | (.panic e, t') => (.error e, t')
      | (.ok _, t') => (.ok (), t')
      | (.fail e, t') =>
        if e.failedAnalysis = "Time" then
          if k < max - 1 then
            match env.resetFn (t' ++ [.out (retryText k)]) 100 with
            | .error p => (.error p, t' ++ [.out (retryText k), .reset 100])
            | .ok () => testLoop env cfg max left (k + 1) (errs ++ [e]) (t' ++ betweenAttempts k)
          else (.error (.msg ("After " ++ toString max ++ " attempts, gave up retrying: " ++ e.text ++
            ".\nPrevious attempts failed at:\n" ++ previousErrors errs)), t')
        else (.error (.msg ("At attempt #" ++ toString (k + 1) ++ ", SPACE complexity mismatch: " ++ e.text ++ "\n")), t') := by
  rw [testLoop]
  unfold attempt
  cases adaptCfg env.profile k cfg with
  | error e => rfl
  | ok cfg' => rfl

/-- the loop from attempt `k` on, when all earlier attempts were rejected because of time -/
theorem testLoop_ok_iff (env : CrudEnv) (cfg : CrudCfg) (max : Nat) (t0 : List Ev) (left : Nat) : ∀ (k : Nat) (errs : List CrudError),
    left ≥ 1 → k + left = max →
    ((∃ t', testLoop env cfg max left k errs (beforeAttempt env cfg t0 k) = (.ok (), t')) ↔
      ∃ j, k ≤ j ∧ j < max ∧ Accepted env cfg t0 j ∧ ∀ i, k ≤ i → i < j → Retried env cfg t0 i) := by
  induction left with
  | zero => intro k errs h; omega
  | succ left ih =>
    intro k errs _ hk
    rw [testLoop_step]
    have hnext : beforeAttempt env cfg t0 (k + 1) = (attempt env cfg k (beforeAttempt env cfg t0 k)).2 ++ betweenAttempts k := rfl
    have hA : Accepted env cfg t0 k ↔ ∃ a, (attempt env cfg k (beforeAttempt env cfg t0 k)).1 = .ok a := Iff.rfl
    have hT : Retried env cfg t0 k ↔ (∃ e, (attempt env cfg k (beforeAttempt env cfg t0 k)).1 = .fail e ∧ e.failedAnalysis = "Time") ∧
      env.resetFn ((attempt env cfg k (beforeAttempt env cfg t0 k)).2 ++ [.out (retryText k)]) 100 = .ok () := Iff.rfl
    generalize attempt env cfg k (beforeAttempt env cfg t0 k) = x at hnext hA hT
    obtain ⟨r, t'⟩ := x
    -- either this attempt is the accepted one, or it was retried
    have split : (∃ j, k ≤ j ∧ j < max ∧ Accepted env cfg t0 j ∧ ∀ i, k ≤ i → i < j → Retried env cfg t0 i) ↔
        Accepted env cfg t0 k ∨ (Retried env cfg t0 k ∧
          ∃ j, k + 1 ≤ j ∧ j < max ∧ Accepted env cfg t0 j ∧ ∀ i, k + 1 ≤ i → i < j → Retried env cfg t0 i) := by
      constructor
      · rintro ⟨j, h1, h2, h3, h4⟩
        by_cases hj : j = k
        · exact Or.inl (hj ▸ h3)
        · exact Or.inr ⟨h4 k (Nat.le_refl _) (by omega), j, by omega, h2, h3, fun i hi hij => h4 i (by omega) hij⟩
      · rintro (h | ⟨h, j, h1, h2, h3, h4⟩)
        · exact ⟨k, Nat.le_refl _, by omega, h, fun i h1 h2 => by omega⟩
        · refine ⟨j, by omega, h2, h3, fun i h5 h6 => ?_⟩
          by_cases hi : i = k
          · exact hi ▸ h
          · exact h4 i (by omega) h6
    rw [split, hA, hT]
    cases r with
    | ok a => simp
    | panic e => simp
    | fail e =>
      simp only [reduceCtorEq, exists_false, false_or, Res.fail.injEq]
      by_cases he : e.failedAnalysis = "Time"
      · rw [if_pos he]
        by_cases hlt : k < max - 1
        · rw [if_pos hlt]
          have := ih (k + 1) (errs ++ [e]) (by omega) (by omega)
          rw [hnext] at this
          cases hr : env.resetFn (t' ++ [.out (retryText k)]) 100 with
          | error p =>
            simp only [Prod.mk.injEq, reduceCtorEq, false_and, exists_false, and_false]
          | ok u =>
            simp only
            rw [this]
            constructor
            · intro h; exact ⟨⟨⟨e, rfl, he⟩, trivial⟩, h⟩
            · intro h; exact h.2
        · rw [if_neg hlt]
          constructor
          · rintro ⟨_, h⟩; simp at h
          · rintro ⟨-, j, h1, h2, -⟩; omega
      · rw [if_neg he]
        constructor
        · rintro ⟨_, h⟩; simp at h
        · rintro ⟨⟨⟨e', h1, h2⟩, -⟩, -⟩; subst h1; exact absurd h2 he

/-- the loop ends within an attempt whose number is known, or in the reset after it -/
theorem testLoop_trace (env : CrudEnv) (cfg : CrudCfg) (max : Nat) (t0 : List Ev) (left : Nat) : ∀ (k : Nat) (errs : List CrudError),
    left ≥ 1 → k + left = max →
    ∃ j, k ≤ j ∧ j < max ∧ (∀ i, k ≤ i → i < j → Retried env cfg t0 i) ∧
      (((TimeRejected env cfg t0 j → j + 1 = max) ∧
        (testLoop env cfg max left k errs (beforeAttempt env cfg t0 k)).2 = (attempt env cfg j (beforeAttempt env cfg t0 j)).2) ∨
       (TimeRejected env cfg t0 j ∧ j + 1 < max ∧ (∃ p, resetAfter env cfg t0 j = .error p ∧
          (testLoop env cfg max left k errs (beforeAttempt env cfg t0 k)).1 = .error p) ∧
        (testLoop env cfg max left k errs (beforeAttempt env cfg t0 k)).2 =
          (attempt env cfg j (beforeAttempt env cfg t0 j)).2 ++ [.out (retryText j), .reset 100])) := by
  induction left with
  | zero => intro k errs h; omega
  | succ left ih =>
    intro k errs _ hk
    rw [testLoop_step]
    have hnext : beforeAttempt env cfg t0 (k + 1) = (attempt env cfg k (beforeAttempt env cfg t0 k)).2 ++ betweenAttempts k := rfl
    have hT : TimeRejected env cfg t0 k ↔ ∃ e, (attempt env cfg k (beforeAttempt env cfg t0 k)).1 = .fail e ∧ e.failedAnalysis = "Time" := Iff.rfl
    have hR : resetAfter env cfg t0 k =
      env.resetFn ((attempt env cfg k (beforeAttempt env cfg t0 k)).2 ++ [.out (retryText k)]) 100 := rfl
    generalize hx : attempt env cfg k (beforeAttempt env cfg t0 k) = x at hnext hT hR
    obtain ⟨r, t'⟩ := x
    have none : ∀ i, k ≤ i → i < k → Retried env cfg t0 i := fun i _ _ => by omega
    cases r with
    | ok a => exact ⟨k, Nat.le_refl _, by omega, none, Or.inl ⟨(by rw [hT]; rintro ⟨e, h, -⟩; cases h), by rw [hx]⟩⟩
    | panic e => exact ⟨k, Nat.le_refl _, by omega, none, Or.inl ⟨(by rw [hT]; rintro ⟨e, h, -⟩; cases h), by rw [hx]⟩⟩
    | fail e =>
      by_cases he : e.failedAnalysis = "Time"
      · simp only [if_pos he]
        by_cases hlt : k < max - 1
        · rw [if_pos hlt]
          cases hr : env.resetFn (t' ++ [.out (retryText k)]) 100 with
          | error p =>
            exact ⟨k, Nat.le_refl _, by omega, none, Or.inr ⟨hT.2 ⟨e, rfl, he⟩, by omega, ⟨p, hR.trans hr, rfl⟩, by rw [hx]⟩⟩
          | ok u =>
            simp only
            obtain ⟨j, h1, h2, h3, h4⟩ := ih (k + 1) (errs ++ [e]) (by omega) (by omega)
            rw [hnext] at h4
            refine ⟨j, by omega, h2, fun i hi hij => ?_, h4⟩
            by_cases hik : i = k
            · subst hik; exact ⟨hT.2 ⟨e, rfl, he⟩, hR.trans hr⟩
            · exact h3 i (by omega) hij
        · rw [if_neg hlt]
          exact ⟨k, Nat.le_refl _, by omega, none, Or.inl ⟨fun _ => by omega, by rw [hx]⟩⟩
      · simp only [if_neg he]
        refine ⟨k, Nat.le_refl _, by omega, none, Or.inl ⟨?_, by rw [hx]⟩⟩
        rw [hT]
        rintro ⟨e', h, h'⟩
        cases h
        exact absurd h' he

end BigO
