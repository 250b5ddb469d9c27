import Verif.Props.Crud
import Verif.Proofs.CrudReport

/-!
# C102: the report of a CRUD analysis
-/
namespace BigO

/-- **C102** (finished analyses): the report of a finished analysis is exactly the documented text; each figure is what that pass of that
operation measured, each operation's report is that of its analysis of these measurements, and the number after `r=` is the
exclusive or of what all the runs of the closures yielded, the warm-up included. -/
theorem C102_finished (env : CrudEnv) (cfg : CrudCfg) (hn : NoOverflow cfg) (t : List Ev) (a : CrudAnalyses) (report : String) (t' : List Ev)
    (h : internalAnalyse env cfg t = (.ok (a, report), t')) :
    ∃ (warm : String) (p : Op → Nat → PassResult) (fig : Op → Nat → String) (rep : Op → String) (done : List Ev),
      t' = t ++ done ∧ WarmTime env cfg t t' warm ∧
      (∀ op, Requested cfg op → ∀ k < 2, PassMeasured env cfg t t' op k (p op k) ∧ Figures env (p op k) (fig op k)) ∧
      (∀ op, Requested cfg op → ReportOf env cfg a op (p op 0) (p op 1) (rep op)) ∧
      report = wholeReport cfg warm fig rep (xorOfResults env t done) := by
  obtain ⟨s', hb, hrep, rfl⟩ := internalAnalyse_ok.1 h
  have hrep' : report = s'.report := hrep
  clear hrep
  obtain ⟨warm, p0, f0, s, H, h2⟩ := body_half hn (by simp) hb
  rcases second_mid hn (by simp) H h2 with ⟨e, _, _, _, _, h, -⟩ | ⟨c, r, u, p, fig, rep, s1, m, h3⟩
  · simp at h
  obtain ⟨d, s2, hdel, h4⟩ := M.bind_eq_ok.1 h3
  obtain ⟨rfl, rfl⟩ := M.pure_eq_ok.1 h4
  clear h3 h4
  rename' hdel => h3
  have S1 : Since t s1 := m.summed.later
  unfold deletePasses at h3
  by_cases hd : (cfg.op .delete).iters > 0
  · rw [if_pos hd] at h3
    obtain ⟨_, u1, h5, h3⟩ := M.bind_eq_ok.1 h3
    obtain ⟨_, u2, h6, h3⟩ := M.bind_eq_ok.1 h3
    obtain ⟨v, u3, h7, h3⟩ := M.bind_eq_ok.1 h3
    obtain ⟨rr, u4, h8, h3⟩ := M.bind_eq_ok.1 h3
    obtain ⟨_, u5, h9, h3⟩ := M.bind_eq_ok.1 h3
    obtain ⟨_, u6, h10, h3⟩ := M.bind_eq_ok.1 h3
    obtain ⟨rfl, rfl⟩ := M.pure_eq_ok.1 h3
    have q5 := output_said (env := env) h5
    have S2 : Since t u1 := q5.1.later.since S1
    obtain ⟨p2, f2, c6, -⟩ := sr_step (t0 := t) (d_range hn (by omega)) S2 h6
    obtain ⟨p1, f1, c7, md⟩ := sr_step (t0 := t) (d_range hn (by omega)) (c6.summed.later.since S2) h7
    obtain ⟨q8, e8⟩ := get_said (env := env) h8
    have q9 := output_said (env := env) h9
    obtain ⟨td, rd, q10⟩ := report_step (env := env) h10
    have q := q8.trans (q9.trans q10)
    have hsum := m.summed.trans (q5.1.trans (c6.summed.trans (c7.summed.trans q.1)))
    obtain ⟨done, et, er⟩ := hsum
    have er : u6.r = xorOfResults env t done := by rw [er]; show 0 ^^^ _ = _; simp; rfl
    have e64 : u4 = u3 := by simp only [M.get, Prod.mk.injEq] at h8; exact h8.2.symm
    have err : rr = xorOfResults env t done := by rw [e8, ← er, report_r h10, output_r h9, e64]
    have l7 := q.1.later
    have l6 := c7.summed.later.trans l7
    have l1 := q5.1.later.trans (c6.summed.later.trans l6)
    refine ⟨warm, fun op k => if op = .delete then (if k = 0 then p1 else p2) else p op k,
      fun op k => if op = .delete then (if k = 0 then f1 else f2) else fig op k, fun op => if op = .delete then td else rep op, done, et,
      m.warmed.later l1, ?_, ?_, ?_⟩
    · intro op hr k hk
      by_cases hop : op = .delete
      · subst hop
        by_cases hk0 : k = 0
        · subst hk0
          obtain ⟨a, b, -⟩ := c7.shown hr
          exact ⟨a.later l7, b⟩
        · obtain rfl : k = 1 := by omega
          obtain ⟨a, b, -⟩ := c6.shown hr
          exact ⟨a.later l6, b⟩
      · simp only [if_neg hop]
        obtain ⟨a, b⟩ := m.shown op k hop hk hr
        exact ⟨a.later l1, b⟩
    · intro op hr
      by_cases hop : op = .delete
      · subst hop
        have x1 := (c7.shown hr).2.2
        have x2 : u3.res .delete 1 = p2 := by rw [c7.keeps _ _ (by simp), (c6.shown hr).2.2]
        have md := md rfl hr
        rw [x1, x2] at md
        exact madeSR_report (Or.inr rfl) md (rd hr)
      · have := m.reported op hop hr
        simp only [if_neg hop]
        cases op with
        | delete => exact absurd rfl hop
        | create => exact this
        | read => exact this
        | update => exact this
    · rw [hrep', q.2.2, c7.report, c6.report, q5.2.2, m.report, err]
      unfold wholeReport
      have hd' : Requested cfg .delete := hd
      have e1 : ∀ x, "Delete Passes (" ++ ("2nd: " ++ x) = "Delete Passes (2nd: " ++ x := fun x => by rw [← String.append_assoc]; rfl
      simp only [if_pos hd', passText_eq, reportsText_eq, if_true, if_false, reduceCtorEq, String.append_assoc, e1, one_ne_zero,
        String.empty_append, zero_ne_one]
  · rw [if_neg hd] at h3
    obtain ⟨rfl, rfl⟩ := M.pure_eq_ok.1 h3
    obtain ⟨done, et, -⟩ := m.summed
    refine ⟨warm, p, fig, rep, done, et, m.warmed, ?_, ?_, ?_⟩
    · intro op hr k hk
      exact m.shown op k (fun he => hd (he ▸ hr)) hk hr
    · intro op hr
      exact m.reported op (fun he => hd (he ▸ hr)) hr
    · rw [hrep', m.report]
      unfold wholeReport
      have hd' : ¬ Requested cfg .delete := hd
      rw [if_neg hd']
      simp

/-- **C102** (aborted analyses): the report in the error of an aborted analysis is the documented text up to the figures of the pass after
which the operation was judged, and then the reason; each figure is what that pass measured. -/
theorem C102_aborted (env : CrudEnv) (cfg : CrudCfg) (hn : NoOverflow cfg) (t : List Ev) (e : CrudError) (t' : List Ev)
    (h : internalAnalyse env cfg t = (.fail e, t')) :
    ∃ (bad : Op) (warm why : String) (p : Op → Nat → PassResult) (fig : Op → Nat → String) (rep : Op → String) (a : CrudAnalyses),
      Requested cfg bad ∧ e.failedOperation = bad.title ∧ AbortedFor cfg bad e why ∧ WarmTime env cfg t t' warm ∧
      (∀ op, Requested cfg op → ∀ k < 2, op.rank ≤ bad.rank ∨ (k = 0 ∧ op ≠ .delete) →
        PassMeasured env cfg t t' op k (p op k) ∧ Figures env (p op k) (fig op k)) ∧
      (bad = .delete → ∀ op, op ≠ .delete → Requested cfg op → ReportOf env cfg a op (p op 0) (p op 1) (rep op)) ∧
      e.partialReport = abortedReport cfg warm fig rep bad why := by
  obtain ⟨s', hb, rfl⟩ := internalAnalyse_fail.1 h
  obtain ⟨warm, p0, f0, s, H, h2⟩ := body_half hn (by simp) hb
  rcases second_mid hn (by simp) H h2 with ⟨e', bad, p, fig, why, he, ab⟩ | ⟨c, r, u, p, fig, rep, s1, m, h3⟩
  · obtain rfl : e = e' := by simpa using he
    refine ⟨bad, warm, why, p, fig, fun _ => "", ⟨none, none, none, none⟩, ab.requested, ab.operation, ab.reason, ab.warmed, ?_, ?_, ?_⟩
    · intro op hr k hk hor
      have hop : op ≠ .delete := by
        rintro rfl
        rcases hor with h | h
        · have := ab.notDelete
          cases bad <;> simp_all [Op.rank]
        · exact h.2 rfl
      exact ab.shown op k hop hk hr (by rcases hor with h | h; exacts [Or.inr h, Or.inl h.1])
    · intro hbad; exact absurd hbad ab.notDelete
    · rw [ab.report]
      unfold abortedReport
      rw [if_neg ab.notDelete]
  · have S1 : Since t s1 := m.summed.later
    rcases M.bind_eq_fail.1 h3 with h3 | ⟨_, s2, -, h4⟩
    swap
    · exact (NoFail.absurd' (NoFail.pure _) h4).elim
    unfold deletePasses at h3
    by_cases hd : (cfg.op .delete).iters > 0
    swap
    · rw [if_neg hd] at h3; exact (NoFail.absurd' (NoFail.pure _) h3).elim
    rw [if_pos hd] at h3
    obtain ⟨_, u1, h5, h3⟩ := nofail_bind (by simp) (fun _ _ h => (NoFail.output _).absurd' h) h3
    have q5 := output_said (env := env) h5
    have S2 : Since t u1 := q5.1.later.since S1
    obtain ⟨_, u2, h6, h3⟩ := nofail_bind (by simp) (fun _ _ h => by
      have := (sr_abort (t0 := t) (d_range hn (by omega)) S2 h).1; omega) h3
    obtain ⟨p2, f2, c6, -⟩ := sr_step (t0 := t) (d_range hn (by omega)) S2 h6
    rcases M.bind_eq_fail.1 h3 with h7 | ⟨_, u3, -, h3⟩
    swap
    · exfalso
      obtain ⟨_, u4, -, h3⟩ := nofail_bind (by simp) (fun _ _ h => NoFail.absurd' (NoFail.get _) h) h3
      obtain ⟨_, u5, -, h3⟩ := nofail_bind (by simp) (fun _ _ h => (NoFail.output _).absurd' h) h3
      obtain ⟨_, u6, -, h3⟩ := nofail_bind (by simp) (fun _ _ h => NoFail.absurd' (NoFail.report _ _ _) h) h3
      exact NoFail.absurd' (NoFail.pure _) h3
    obtain ⟨-, hq, p1, f1, u3, why, c7, ab⟩ := sr_abort (t0 := t) (d_range hn (by omega)) (c6.summed.later.since S2) h7
    have l6 := c7.summed.later.trans ab.later
    have l1 := q5.1.later.trans (c6.summed.later.trans l6)
    refine ⟨.delete, warm, why, fun op k => if op = .delete then (if k = 0 then p1 else p2) else p op k,
      fun op k => if op = .delete then (if k = 0 then f1 else f2) else fig op k, rep, ⟨c, r, u, none⟩, hq, ab.operation, ab.reason,
      m.warmed.later l1, ?_, ?_, ?_⟩
    · intro op hr k hk _
      by_cases hop : op = .delete
      · subst hop
        by_cases hk0 : k = 0
        · subst hk0
          obtain ⟨a, b, -⟩ := c7.shown hr
          exact ⟨a.later ab.later, b⟩
        · obtain rfl : k = 1 := by omega
          obtain ⟨a, b, -⟩ := c6.shown hr
          exact ⟨a.later l6, b⟩
      · simp only [if_neg hop]
        obtain ⟨a, b⟩ := m.shown op k hop hk hr
        exact ⟨a.later l1, b⟩
    · intro _ op hop hr
      simp only [if_neg hop]
      exact m.reported op hop hr
    · rw [ab.partialReport, ab.report, c7.report, c6.report, q5.2.2, m.report]
      unfold abortedReport
      have hd' : Requested cfg .delete := hd
      have e1 : ∀ x, "Delete Passes (" ++ ("2nd: " ++ x) = "Delete Passes (2nd: " ++ x := fun x => by rw [← String.append_assoc]; rfl
      simp only [if_pos hd', passText_eq, reportsText_eq, if_true, if_false, reduceCtorEq, String.append_assoc, e1, one_ne_zero,
        String.empty_append, zero_ne_one]

/-- **C102** (`analyse_crud_algorithms`): the same of the report this function returns. -/
theorem C102_analyse (env : CrudEnv) (cfg : CrudCfg) (hn : NoOverflow cfg) (t : List Ev) (a : CrudAnalyses) (report : String) (t' : List Ev)
    (h : analyseCrud env cfg t = (.ok (a, report), t')) :
    ∃ (warm : String) (p : Op → Nat → PassResult) (fig : Op → Nat → String) (rep : Op → String) (done : List Ev),
      t' = t ++ done ∧ WarmTime env cfg t t' warm ∧
      (∀ op, Requested cfg op → ∀ k < 2, PassMeasured env cfg t t' op k (p op k) ∧ Figures env (p op k) (fig op k)) ∧
      (∀ op, Requested cfg op → ReportOf env cfg a op (p op 0) (p op 1) (rep op)) ∧
      report = wholeReport cfg warm fig rep (xorOfResults env t done) := by
  unfold analyseCrud at h
  split at h
  · rename_i x t1 hx
    simp only [Prod.mk.injEq, Except.ok.injEq] at h
    obtain ⟨rfl, rfl⟩ := h
    obtain ⟨warm, p, fig, rep, done, h1, h2, h3, h4, h5⟩ := C102_finished env cfg.unlimited hn t a report t1 hx
    refine ⟨warm, p, fig, rep, done, h1, h2, h3, fun op hr => ?_, h5⟩
    have := h4 op hr
    cases op <;> exact this
  · simp at h
  · simp at h

/-! ### concrete cases -/

-- a finished analysis with a warm-up, of three of the operations: the beginning of its report, and what follows `r=`
example (T : TextEnv) : ∃ a report t' f1 f2 rest rest', internalAnalyse (steadyCrudEnv shipped T) (steadyCfg 100 .o1) [] = (.ok (a, report), t') ∧
    report = "steady CRUD Algorithm Complexity Analysis:\n  warming up [CRD] " ++ T.dur (10 ^ 9) ++ ", First Pass (create: " ++ f1 ++
      ", read: " ++ f2 ++ "); Second Pass (" ++ rest ++ ") r=0:\n" ++ rest' := by
  obtain ⟨⟨a, report⟩, t', h⟩ := steady_accepted T 100 (by norm_num) []
  obtain ⟨warm, p, fig, rep, done, -, hw, -, -, hr⟩ := C102_finished _ _ (steadyCfg_fits 100 (by norm_num) .o1).1 _ _ _ _ h
  obtain ⟨_, _, -, hw⟩ := hw (by show 0 < 10; omega)
  have hw : warm = T.dur (10 ^ 9) := hw
  have hx : ∀ l b, xorOfResults (steadyCrudEnv shipped T) b l = 0 := by
    intro l
    induction l with
    | nil => intro b; rfl
    | cons e l ih =>
      intro b
      have : resultOf (steadyCrudEnv shipped T) b e = 0 := by cases e <;> rfl
      simp [xorOfResults, ih, this]
  have r1 : Requested (steadyCfg 100 .o1) .create := by decide
  have r2 : Requested (steadyCfg 100 .o1) .read := by decide
  have r3 : ¬ Requested (steadyCfg 100 .o1) .update := by decide
  have r4 : Requested (steadyCfg 100 .o1) .delete := by decide
  refine ⟨a, report, t', fig .create 0, fig .read 0, "create: " ++ fig .create 1 ++ ", " ++ ("read: " ++ fig .read 1) ++ "):\n\n" ++
    (rep .create ++ "\n\n" ++ (rep .read ++ "\n\n")) ++ "Delete Passes (2nd: " ++ fig .delete 1 ++ "; 1st: " ++ fig .delete 0, rep .delete ++ "\n\n", h, ?_⟩
  rw [hr, hx, hw]
  unfold wholeReport reportHead
  have r2' : ((steadyCfg 100 .o1).op .read).iters > 0 ∨ ((steadyCfg 100 .o1).op .update).iters > 0 := Or.inl r2
  have r3' : ¬ ((steadyCfg 100 .o1).op .update).iters > 0 := r3
  rw [passText_eq, passText_eq, reportsText_eq, warm_letters, if_pos r1, if_pos r1, if_pos r1, if_pos r1, if_pos r2, if_pos r2, if_pos r2, if_pos r2,
    if_neg r3, if_neg r3, if_neg r3, if_neg r3, if_pos r4, if_pos r4, if_pos r2', if_neg r3', if_neg (show ¬ (steadyCfg 100 .o1).warmup = 0 by decide)]
  have e1 : ∀ x, (steadyCfg 100 .o1).name ++ (" CRUD Algorithm Complexity Analysis:\n  " ++ ("warming up [" ++ ("C" ++ ("R" ++ ("D" ++ ("] " ++ x)))))) =
    "steady CRUD Algorithm Complexity Analysis:\n  warming up [CRD] " ++ x := fun x => by simp only [← String.append_assoc]; rfl
  have e2 : ∀ x, ", " ++ ("First Pass (" ++ ("create: " ++ x)) = ", First Pass (create: " ++ x := fun x => by simp only [← String.append_assoc]; rfl
  have e3 : ∀ x, ", " ++ ("read: " ++ x) = ", read: " ++ x := fun x => by simp only [← String.append_assoc]; rfl
  have e4 : ∀ x, ") r=" ++ (toString (0:ℕ) ++ (":\n" ++ x)) = ") r=0:\n" ++ x := fun x => by simp only [← String.append_assoc]; rfl
  simp only [String.append_assoc, e1, e2, e3, e4, String.empty_append]

-- an analysis rejected because of create: the end of the report in the error
example (T : TextEnv) : ∃ e t' pre, internalAnalyse (steadyCrudEnv shipped T) (steadyCfg 100 .betterThanO1) [] = (.fail e, t') ∧
    e.partialReport = pre ++ e.failedOperation ++ "' operation: maximum: BetterThanO1, measured: O1\n\n" := by
  obtain ⟨e, t', h, h1, h2⟩ := steady_rejected T 100 (by norm_num) (by norm_num) []
  obtain ⟨bad, warm, why, p, fig, rep, a, -, hop, hw, -, -, -, hr⟩ :=
    C102_aborted _ _ (steadyCfg_fits 100 (by norm_num) .betterThanO1).1 _ _ _ h
  rcases hw with ⟨-, hw⟩ | ⟨hw, -⟩
  · obtain ⟨X, hX⟩ : ∃ X, e.partialReport = X ++ why := ⟨_, hr⟩
    rw [hw, h2] at hX
    refine ⟨e, t', X ++ " ** Aborted due to TIME complexity mismatch on '", h, ?_⟩
    rw [hX, hop]
    unfold abortReason
    have e1 : ∀ x, "' operation: maximum: " ++ (((steadyCfg 100 .betterThanO1).op bad).tmax.debug ++ (", measured: " ++ (Complexity.o1.debug ++ x))) =
      "' operation: maximum: BetterThanO1, measured: O1" ++ x := fun x => by simp only [← String.append_assoc]; rfl
    have e2 : ∀ x, " ** Aborted due to " ++ ("TIME" ++ (" complexity mismatch on '" ++ x)) = " ** Aborted due to TIME complexity mismatch on '" ++ x :=
      fun x => by simp only [← String.append_assoc]; rfl
    have e3 : "' operation: maximum: BetterThanO1, measured: O1" ++ "\n\n" = "' operation: maximum: BetterThanO1, measured: O1\n\n" := rfl
    simp only [String.append_assoc, e1, e2, e3]
  · rw [h1] at hw; exact absurd hw (by decide)

end BigO
