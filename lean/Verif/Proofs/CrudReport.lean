import Verif.Proofs.CrudLimits
import Verif.Spec.CrudReportSpec

/-!
# The text of the report of a CRUD analysis, step by step
-/
namespace BigO

theorem M.bind_eq_fail {α β : Type} {m : M α} {f : α → M β} {s s' : CrudSt} {e : CrudError} :
    (m >>= f) s = (.fail e, s') ↔ m s = (.fail e, s') ∨ ∃ a s1, m s = (.ok a, s1) ∧ f a s1 = (.fail e, s') := by
  show M.andThen m f s = _ ↔ _
  unfold M.andThen
  generalize m s = x
  obtain ⟨r, s1⟩ := x
  cases r with
  | ok a => simp
  | fail e' => simp
  | panic e' => simp

theorem NoFail.absurd' {α : Type} {m : M α} (h : NoFail m) {s s' e} (he : m s = (.fail e, s')) : False := h s e (by rw [he])

theorem xorOfResults_append (env : CrudEnv) (b l1 l2 : List Ev) :
    xorOfResults env b (l1 ++ l2) = xorOfResults env b l1 ^^^ xorOfResults env (b ++ l1) l2 := by
  induction l1 generalizing b with
  | nil => simp [xorOfResults]
  | cons e l ih => simp [xorOfResults, ih, Nat.xor_assoc]

/-- the trace has grown, and `r` has taken up the results of what was run -/
def Summed (env : CrudEnv) (s s' : CrudSt) : Prop :=
  ∃ ext, s'.trace = s.trace ++ ext ∧ s'.r = s.r ^^^ xorOfResults env s.trace ext

theorem Summed.refl (env : CrudEnv) (s : CrudSt) : Summed env s s := ⟨[], by simp, by simp [xorOfResults]⟩

theorem Summed.trans {env : CrudEnv} {a b c : CrudSt} (h1 : Summed env a b) (h2 : Summed env b c) : Summed env a c := by
  obtain ⟨e1, t1, r1⟩ := h1
  obtain ⟨e2, t2, r2⟩ := h2
  refine ⟨e1 ++ e2, by rw [t2, t1, List.append_assoc], ?_⟩
  rw [r2, r1, xorOfResults_append, t1, Nat.xor_assoc]

theorem Summed.later {env : CrudEnv} {a b : CrudSt} (h : Summed env a b) : Later a b := by
  obtain ⟨e, h, -⟩ := h; exact ⟨e, h⟩

/-- effect of a text -/
def Said (env : CrudEnv) (s s' : CrudSt) (txt : String) : Prop :=
  Summed env s s' ∧ s'.res = s.res ∧ s'.report = s.report ++ txt

theorem Said.nil {env : CrudEnv} {s : CrudSt} : Said env s s "" := ⟨Summed.refl _ _, rfl, by simp⟩

theorem Said.trans {env : CrudEnv} {a b c : CrudSt} {t1 t2} (h1 : Said env a b t1) (h2 : Said env b c t2) : Said env a c (t1 ++ t2) :=
  ⟨h1.1.trans h2.1, h2.2.1.trans h1.2.1, by rw [h2.2.2, h1.2.2, String.append_assoc]⟩

theorem output_said {env : CrudEnv} {msg s s' u} (h : output msg s = (.ok u, s')) : Said env s s' msg := by
  simp only [output, Prod.mk.injEq] at h
  obtain ⟨-, rfl⟩ := h
  exact ⟨⟨[.out msg], rfl, by simp [xorOfResults, resultOf]⟩, rfl, rfl⟩

theorem get_said {α : Type} {env : CrudEnv} {f : CrudSt → α} {s s' v} (h : M.get f s = (.ok v, s')) : Said env s s' "" ∧ v = f s := by
  simp only [M.get, Prod.mk.injEq, Res.ok.injEq] at h
  obtain ⟨rfl, rfl⟩ := h
  exact ⟨Said.nil, rfl⟩

/-- the step after which `r` is updated -/
theorem run_xor_summed {env : CrudEnv} {ph op a b t s s1 s' x u} (h : runIteratorPass env ph op a b t s = (.ok x, s1))
    (h2 : xorR x.2 s1 = (.ok u, s')) : Said env s s' "" := by
  obtain ⟨hm, rfl⟩ := run_ok h
  simp only [xorR, Prod.mk.injEq] at h2
  obtain ⟨-, rfl⟩ := h2
  exact ⟨⟨[.pass ph op a b t], rfl, by simp [xorOfResults, resultOf, hm]⟩, rfl, by simp⟩

theorem warmupOp_said {env : CrudEnv} {cfg : CrudCfg} {op l s s' u} (h : warmupOp env cfg op l s = (.ok u, s')) :
    Said env s s' (if Requested cfg op then l else "") := by
  unfold warmupOp at h
  by_cases hi : (cfg.op op).iters > 0
  · rw [if_pos hi] at h
    rw [if_pos hi]
    obtain ⟨_, s1, h1, h⟩ := M.bind_eq_ok.1 h
    obtain ⟨m, s2, h2, h⟩ := M.bind_eq_ok.1 h
    obtain ⟨-, rfl⟩ := M.lift_eq_ok.1 h2
    have h1' := output_said (env := env) h1
    split at h
    · obtain ⟨_, s3, h3, h⟩ := M.bind_eq_ok.1 h
      simpa using h1'.trans (run_xor_summed h3 h)
    · obtain ⟨_, s3, h3, h⟩ := M.bind_eq_ok.1 h
      simpa using h1'.trans (run_xor_summed h3 h)
  · rw [if_neg hi] at h
    rw [if_neg hi]
    obtain ⟨rfl, rfl⟩ := M.pure_eq_ok.1 h; exact Said.nil

theorem callReset_said {env : CrudEnv} {n s s' u} (h : callReset env n s = (.ok u, s')) :
    Said env s s' "" ∧ s'.trace = s.trace ++ [.reset n] := by
  unfold callReset at h
  split at h
  · simp only [Prod.mk.injEq] at h
    obtain ⟨-, rfl⟩ := h
    exact ⟨⟨⟨[.reset n], rfl, by simp [xorOfResults, resultOf]⟩, rfl, by simp⟩, rfl⟩
  · simp at h

/-- the letters of the warm-up -/
theorem warm_letters (cfg : CrudCfg) :
    String.join ((requestedOf cfg [.create, .read, .update, .delete]).map Op.letter) =
    (if Requested cfg .create then "C" else "") ++ (if Requested cfg .read then "R" else "") ++
    (if Requested cfg .update then "U" else "") ++ (if Requested cfg .delete then "D" else "") := by
  unfold requestedOf
  by_cases h1 : Requested cfg .create <;> by_cases h2 : Requested cfg .read <;> by_cases h3 : Requested cfg .update <;>
    by_cases h4 : Requested cfg .delete <;> simp [h1, h2, h3, h4, Op.letter, String.join]

theorem warmup_said {env : CrudEnv} {cfg : CrudCfg} (hn : NoOverflow cfg) {s s' u} (h : warmup env cfg s = (.ok u, s')) :
    ∃ warm, WarmTime env cfg s.trace s'.trace warm ∧
      Said env s s' (if cfg.warmup = 0 then "" else
        "warming up [" ++ String.join ((requestedOf cfg [.create, .read, .update, .delete]).map Op.letter) ++ "] " ++ warm ++ ", ") := by
  unfold warmup at h
  by_cases hw : cfg.warmup > 0
  · rw [if_pos hw] at h
    obtain ⟨_, s1, h1, h⟩ := M.bind_eq_ok.1 h
    obtain ⟨_, s2, h2, h⟩ := M.bind_eq_ok.1 h
    obtain ⟨_, s3, h3, h⟩ := M.bind_eq_ok.1 h
    obtain ⟨_, s4, h4, h⟩ := M.bind_eq_ok.1 h
    obtain ⟨_, s5, h5, h⟩ := M.bind_eq_ok.1 h
    obtain ⟨_, s6, h6, h⟩ := M.bind_eq_ok.1 h
    obtain ⟨m, s7, h7, h⟩ := M.bind_eq_ok.1 h
    obtain ⟨hm, rfl⟩ := M.lift_eq_ok.1 h7
    rw [u32Mul_ok _ (hn .create).2] at hm
    obtain rfl := Except.ok.inj hm
    obtain ⟨_, s8, h8, h⟩ := M.bind_eq_ok.1 h
    obtain ⟨q8, e8⟩ := callReset_said h8
    obtain ⟨tr, s9, h9, h⟩ := M.bind_eq_ok.1 h
    simp only [M.get, Prod.mk.injEq, Res.ok.injEq] at h9
    obtain ⟨rfl, rfl⟩ := h9
    have q := (output_said (env := env) h1).trans ((warmupOp_said h2).trans ((warmupOp_said h3).trans ((warmupOp_said h4).trans
      ((warmupOp_said h5).trans (output_said (env := env) h6)))))
    have q9 := output_said (env := env) h
    obtain ⟨ext, e6, -⟩ := q.1
    obtain ⟨ext9, e9, -⟩ := q9.1
    refine ⟨env.text.dur (env.warmupTime s8.trace), fun _ => ⟨ext, ext9, ?_, ?_⟩, ?_⟩
    · rw [e9, e8, e6]; simp
    · rw [e8, e6]
    · rw [if_neg (by omega), warm_letters]
      have := q.trans (q8.trans q9)
      simpa only [String.append_assoc, String.empty_append] using this
  · rw [if_neg hw] at h
    obtain ⟨rfl, rfl⟩ := M.pure_eq_ok.1 h
    exact ⟨"", fun h0 => absurd h0 hw, by rw [if_pos (by omega)]; exact Said.nil⟩

/-! ### passes -/

/-- effect of a pass that ran, on the report too -/
def AfterPass (env : CrudEnv) (cfg : CrudCfg) (rf : Nat → Nat → Rs (Nat × Nat)) (op : Op) (k : Nat) (pref suff : String)
    (p : PassResult) (fig : String) (s s' : CrudSt) : Prop :=
  ∃ a b x, rf (cfg.op op).iters k = .ok (a, b) ∧ env.measure s.trace (phaseOf k) op a b (cfg.op op).threads = .ok (p, x) ∧
    s'.trace = s.trace ++ [.pass (phaseOf k) op a b (cfg.op op).threads, .out (pref ++ fig ++ suff)] ∧
    (s'.res = fun o j => if o = op ∧ j = k then p else s.res o j) ∧ s'.r = s.r ^^^ x ∧ Figures env p fig ∧
    s'.report = s.report ++ (pref ++ fig ++ suff)

theorem verbosely_said {env : CrudEnv} {pref suff ph op range t s s' x}
    (h : runVerbosely env pref suff ph op range t s = (.ok x, s')) :
    env.measure s.trace ph op range.1 range.2 t = .ok x ∧ s'.res = s.res ∧ s'.r = s.r ∧ ∃ fig, Figures env x.1 fig ∧
      s'.trace = s.trace ++ [.pass ph op range.1 range.2 t, .out (pref ++ fig ++ suff)] ∧ s'.report = s.report ++ (pref ++ fig ++ suff) := by
  unfold runVerbosely at h
  obtain ⟨y, s1, h1, h⟩ := M.bind_eq_ok.1 h
  obtain ⟨hm, rfl⟩ := run_ok h1
  obtain ⟨sp, s2, h2, h⟩ := M.bind_eq_ok.1 h
  obtain ⟨hsp, rfl⟩ := M.lift_eq_ok.1 h2
  obtain ⟨u, s3, h3, h⟩ := M.bind_eq_ok.1 h
  obtain ⟨rfl, rfl⟩ := M.pure_eq_ok.1 h
  simp only [output, Prod.mk.injEq] at h3
  obtain ⟨-, rfl⟩ := h3
  refine ⟨hm, rfl, rfl, _, ⟨sp, hsp, rfl⟩, ?_, ?_⟩
  · simp [String.append_assoc]
  · simp [String.append_assoc]

/-- the middle part of the two kinds of passes -/
theorem pass_core {α : Type} {env : CrudEnv} {cfg : CrudCfg} {op suff pref k s s'} {range : Nat × Nat} {rf : Nat → Nat → Rs (Nat × Nat)}
    {f : PassResult × Nat → M α} {o : Res α} (hr : rf (cfg.op op).iters k = .ok range)
    (ho : ∀ e, o ≠ .panic e)
    (h : (do
      let x ← runVerbosely env pref suff (phaseOf k) op range (cfg.op op).threads
      setRes op k x.1
      xorR x.2
      f x : M α) s = (o, s')) :
    ∃ p x fig s1, AfterPass env cfg rf op k pref suff p fig s s1 ∧ f (p, x) s1 = (o, s') := by
  have key : ∀ x s2, runVerbosely env pref suff (phaseOf k) op range (cfg.op op).threads s = (.ok x, s2) →
      (do setRes op k x.1; xorR x.2; f x : M α) s2 = (o, s') →
      ∃ p x fig s1, AfterPass env cfg rf op k pref suff p fig s s1 ∧ f (p, x) s1 = (o, s') := by
    intro x s2 h2 h
    obtain ⟨hm, hres, hx, fig, hf, htr, hrep⟩ := verbosely_said h2
    refine ⟨x.1, x.2, fig, { s2 with res := fun o j => if o = op ∧ j = k then x.1 else s2.res o j, r := s2.r ^^^ x.2 }, ?_, ?_⟩
    · refine ⟨range.1, range.2, x.2, hr, hm, htr, ?_, ?_, hf, hrep⟩
      · simp only [hres]
      · simp only [hx]
    · exact h
  cases o with
  | ok v =>
    obtain ⟨x, s2, h2, h⟩ := M.bind_eq_ok.1 h
    exact key x s2 h2 h
  | fail e =>
    rcases M.bind_eq_fail.1 h with h2 | ⟨x, s2, h2, h⟩
    · exact ((NoFail.verbosely _ _ _ _ _ _ _).absurd' h2).elim
    · exact key x s2 h2 h
  | panic e => exact absurd rfl (ho e)

theorem lift_bind {α β : Type} {x : Rs α} {f : α → M β} {o : Res β} {s s'} (ho : ∀ e, o ≠ .panic e)
    (h : (M.lift x >>= f) s = (o, s')) : ∃ a, x = .ok a ∧ f a s = (o, s') := by
  cases o with
  | ok v => obtain ⟨a, s1, h1, h⟩ := M.bind_eq_ok.1 h; obtain ⟨hx, rfl⟩ := M.lift_eq_ok.1 h1; exact ⟨a, hx, h⟩
  | fail e =>
    rcases M.bind_eq_fail.1 h with h1 | ⟨a, s1, h1, h⟩
    · exact ((NoFail.lift _).absurd' h1).elim
    · obtain ⟨hx, rfl⟩ := M.lift_eq_ok.1 h1; exact ⟨a, hx, h⟩
  | panic e => exact absurd rfl (ho e)

theorem get_bind {α β : Type} {g : CrudSt → α} {f : α → M β} {o : Res β} {s s'}
    (h : (M.get g >>= f) s = (o, s')) : f (g s) s = (o, s') := h

/-- how a pass ends, if not by a panic: nothing is done; or the pass is run, followed (the last time) by the judgement -/
theorem setResizing_said {env : CrudEnv} {cfg : CrudCfg} {op suff pref rf last k s s'} {o : Res (Option (AnalysisOf SetResizingMeasurements))}
    (ho : ∀ e, o ≠ .panic e) (h : setResizingPass env cfg op suff pref rf last k s = (o, s')) :
    (¬ Requested cfg op ∧ o = .ok none ∧ s' = s) ∨
    (Requested cfg op ∧ ∃ p fig s1, AfterPass env cfg rf op k pref suff p fig s s1 ∧
      ((k ≠ last ∧ o = .ok none ∧ s' = s1) ∨
       (k = last ∧ ∃ sp, analyseSpaceSetResizing env.f64 env.profile ⟨(cfg.op op).iters⟩ ⟨(s1.res op 0).space, (s1.res op 1).space⟩ = .ok sp ∧
        yieldAnalysis op (cfg.op op) (⟨op.name, ⟨(cfg.op op).iters⟩, ⟨(s1.res op 0).time, (s1.res op 1).time⟩,
            ⟨(s1.res op 0).space, (s1.res op 1).space⟩⟩ : SetResizingMeasurements)
          (analyseTimeSetResizing env.f64 ⟨(cfg.op op).iters⟩ ⟨(s1.res op 0).time, (s1.res op 1).time⟩) sp s1 = (o, s')))) := by
  unfold setResizingPass at h
  by_cases hi : (cfg.op op).iters > 0
  · rw [if_pos hi] at h
    right
    refine ⟨hi, ?_⟩
    obtain ⟨range, hr, h⟩ := lift_bind ho h
    obtain ⟨p, x, fig, s1, ha, h⟩ := pass_core hr ho h
    refine ⟨p, fig, s1, ha, ?_⟩
    by_cases hk : k = last
    · rw [if_pos hk] at h
      have h := get_bind h
      have h := get_bind h
      obtain ⟨sp, hsp, h⟩ := lift_bind ho h
      exact Or.inr ⟨hk, sp, hsp, h⟩
    · rw [if_neg hk] at h
      have h : ((Res.ok none, s1) : Res (Option (AnalysisOf SetResizingMeasurements)) × CrudSt) = (o, s') := h
      simp only [Prod.mk.injEq] at h
      exact Or.inl ⟨hk, h.1.symm, h.2.symm⟩
  · rw [if_neg hi] at h
    have h : ((Res.ok none, s) : Res (Option (AnalysisOf SetResizingMeasurements)) × CrudSt) = (o, s') := h
    simp only [Prod.mk.injEq] at h
    exact Or.inl ⟨hi, h.1.symm, h.2.symm⟩

theorem constantSet_said {env : CrudEnv} {cfg : CrudCfg} {op suff pref k s s'} {o : Res (Option (AnalysisOf ConstantSetMeasurements))}
    (hn : NoOverflow cfg) (ho : ∀ e, o ≠ .panic e) (h : constantSetPass env cfg op suff pref k s = (o, s')) :
    (¬ Requested cfg op ∧ o = .ok none ∧ s' = s) ∨
    (Requested cfg op ∧ ∃ p fig s1, AfterPass env cfg (cruRange env) op k pref suff p fig s s1 ∧
      ((k ≠ 1 ∧ o = .ok none ∧ s' = s1) ∨
       (k = 1 ∧ ∃ sp, analyseSpaceConstantSet env.f64 env.profile ⟨(cfg.op .create).iters, 2 * (cfg.op .create).iters, (cfg.op op).iters⟩
            ⟨(s1.res op 0).space, (s1.res op 1).space⟩ = .ok sp ∧
        yieldAnalysis op (cfg.op op) (⟨op.name, ⟨(cfg.op .create).iters, 2 * (cfg.op .create).iters, (cfg.op op).iters⟩,
            ⟨(s1.res op 0).time, (s1.res op 1).time⟩, ⟨(s1.res op 0).space, (s1.res op 1).space⟩⟩ : ConstantSetMeasurements)
          (analyseTimeConstantSet env.f64 ⟨(cfg.op .create).iters, 2 * (cfg.op .create).iters, (cfg.op op).iters⟩
            ⟨(s1.res op 0).time, (s1.res op 1).time⟩) sp s1 = (o, s')))) := by
  unfold constantSetPass at h
  by_cases hi : (cfg.op op).iters > 0
  · rw [if_pos hi] at h
    right
    refine ⟨hi, ?_⟩
    obtain ⟨range, hr, h⟩ := lift_bind ho h
    obtain ⟨p, x, fig, s1, ha, h⟩ := pass_core hr ho h
    refine ⟨p, fig, s1, ha, ?_⟩
    by_cases hk : k = 1
    · rw [if_pos hk] at h
      obtain ⟨size2, hsz, h⟩ := lift_bind ho h
      rw [u32Mul_ok _ (by have := (hn .create).1; omega)] at hsz
      obtain rfl := Except.ok.inj hsz
      have h := get_bind h
      have h := get_bind h
      obtain ⟨sp, hsp, h⟩ := lift_bind ho h
      rw [Nat.mul_comm] at hsp h
      exact Or.inr ⟨hk, sp, hsp, h⟩
    · rw [if_neg hk] at h
      have h : ((Res.ok none, s1) : Res (Option (AnalysisOf ConstantSetMeasurements)) × CrudSt) = (o, s') := h
      simp only [Prod.mk.injEq] at h
      exact Or.inl ⟨hk, h.1.symm, h.2.symm⟩
  · rw [if_neg hi] at h
    have h : ((Res.ok none, s) : Res (Option (AnalysisOf ConstantSetMeasurements)) × CrudSt) = (o, s') := h
    simp only [Prod.mk.injEq] at h
    exact Or.inl ⟨hi, h.1.symm, h.2.symm⟩

theorem AfterPass.summed {env cfg rf op k pref suff p fig s s'} (h : AfterPass env cfg rf op k pref suff p fig s s') : Summed env s s' := by
  obtain ⟨a, b, x, -, hm, ht, -, hr, -⟩ := h
  refine ⟨_, ht, ?_⟩
  rw [hr]
  simp [xorOfResults, resultOf, hm]

/-- an operation's pass took place if requested, was shown and remembered -/
structure PassStep (env : CrudEnv) (cfg : CrudCfg) (t0 : List Ev) (op : Op) (k : Nat) (pref suff : String) (p : PassResult) (fig : String)
    (s s' : CrudSt) : Prop where
  summed : Summed env s s'
  keeps : ∀ o j, ¬ (o = op ∧ j = k) → s'.res o j = s.res o j
  shown : Requested cfg op → PassMeasured env cfg t0 s'.trace op k p ∧ Figures env p fig ∧ s'.res op k = p
  report : s'.report = s.report ++ if Requested cfg op then pref ++ fig ++ suff else ""

theorem PassMeasured.later {env cfg t0 op k p} {s s' : CrudSt} (h : PassMeasured env cfg t0 s.trace op k p) (hl : Later s s') :
    PassMeasured env cfg t0 s'.trace op k p := MeasuredIn.later h hl

theorem PassStep.skip {env cfg t0 op k pref suff s} (h : ¬ Requested cfg op) : PassStep env cfg t0 op k pref suff PassResult.default "" s s :=
  ⟨Summed.refl _ _, fun _ _ _ => rfl, fun h' => absurd h' h, by rw [if_neg h]; simp⟩

theorem AfterPass.step {env cfg rf t0 op k pref suff p fig s s'} (hr : ∀ x, rf (cfg.op op).iters k = .ok x → x = opRange cfg op k)
    (h0 : Since t0 s) (hq : Requested cfg op) (h : AfterPass env cfg rf op k pref suff p fig s s') :
    PassStep env cfg t0 op k pref suff p fig s s' := by
  have hs := h.summed
  obtain ⟨a, b, x, hrf, hm, ht, hres, -, hf, hrep⟩ := h
  obtain ⟨ext, e0⟩ := h0
  have hab := hr _ hrf
  refine ⟨hs, ?_, fun _ => ⟨?_, hf, ?_⟩, by rw [if_pos hq]; exact hrep⟩
  · intro o j hne; rw [hres]; simp [hne]
  · refine ⟨ext, [.out (pref ++ fig ++ suff)], x, ?_, ?_⟩
    · rw [← hab, ht, e0]; simp [phaseOf]
    · rw [← hab, ← e0]; exact hm
  · rw [hres]; simp

theorem cru_range {env : CrudEnv} {cfg : CrudCfg} (hn : NoOverflow cfg) {op : Op} (ho : op ≠ .delete) {k : Nat} (hk : k < 2) (x)
    (h : cruRange env (cfg.op op).iters k = .ok x) : x = opRange cfg op k := by
  have := cruRange_ok env (hn op).1
  rcases (by omega : k = 0 ∨ k = 1) with rfl | rfl
  · rw [this.1] at h; obtain rfl := Except.ok.inj h; simp [opRange, ho]
  · rw [this.2] at h; obtain rfl := Except.ok.inj h; simp [opRange, ho]

theorem d_range {env : CrudEnv} {cfg : CrudCfg} (hn : NoOverflow cfg) {k : Nat} (hk : k < 2) (x)
    (h : dRange env (cfg.op .delete).iters k = .ok x) : x = opRange cfg .delete k := by
  have := dRange_ok env (hn .delete).1
  rcases (by omega : k = 0 ∨ k = 1) with rfl | rfl
  · rw [this.1] at h; obtain rfl := Except.ok.inj h; simp [opRange]
  · rw [this.2] at h; obtain rfl := Except.ok.inj h; simp [opRange]

/-- the analysis was rejected: the reason was told and the report so far is in the error -/
structure AbortStep (cfg : CrudCfg) (op : Op) (e : CrudError) (why : String) (s s' : CrudSt) : Prop where
  operation : e.failedOperation = op.name
  reason : AbortedFor cfg op e why
  told : s'.trace = s.trace ++ [.out why]
  report : s'.report = s.report ++ why
  partialReport : e.partialReport = s'.report

theorem yield_fail {α : Type} {cfg : CrudCfg} {op} {m : α} {t sp e s s'}
    (h : yieldAnalysis op (cfg.op op) m t sp s = (.fail e, s')) : ∃ why, AbortStep cfg op e why s s' := by
  unfold yieldAnalysis at h
  split at h
  · have h : ((Res.fail (abortError "Time" "TIME" op (cfg.op op).tmax t (s.report ++ abortText "TIME" op (cfg.op op).tmax t)),
      { s with report := s.report ++ abortText "TIME" op (cfg.op op).tmax t, trace := s.trace ++ [.out (abortText "TIME" op (cfg.op op).tmax t)] }) :
        Res (Option (AnalysisOf α)) × CrudSt) = (.fail e, s') := h
    simp only [Prod.mk.injEq, Res.fail.injEq] at h
    obtain ⟨rfl, rfl⟩ := h
    exact ⟨_, rfl, Or.inl ⟨rfl, rfl⟩, rfl, rfl, rfl⟩
  · split at h
    · have h : ((Res.fail (abortError "Space" "SPACE" op (cfg.op op).smax sp (s.report ++ abortText "SPACE" op (cfg.op op).smax sp)),
        { s with report := s.report ++ abortText "SPACE" op (cfg.op op).smax sp, trace := s.trace ++ [.out (abortText "SPACE" op (cfg.op op).smax sp)] }) :
          Res (Option (AnalysisOf α)) × CrudSt) = (.fail e, s') := h
      simp only [Prod.mk.injEq, Res.fail.injEq] at h
      obtain ⟨rfl, rfl⟩ := h
      exact ⟨_, rfl, Or.inr ⟨rfl, rfl⟩, rfl, rfl, rfl⟩
    · have h : ((Res.ok (some ⟨t, sp, m⟩), s) : Res (Option (AnalysisOf α)) × CrudSt) = (.fail e, s') := h
      simp at h

/-- the analysis made of the two results: nothing else but the text is missing -/
def MadeSR (env : CrudEnv) (cfg : CrudCfg) (op : Op) (p1 p2 : PassResult) (v : Option (AnalysisOf SetResizingMeasurements)) : Prop :=
  ∃ an, v = some an ∧ an.m = ⟨op.name, ⟨(cfg.op op).iters⟩, ⟨p1.time, p2.time⟩, ⟨p1.space, p2.space⟩⟩ ∧
    an.time = analyseTimeSetResizing env.f64 ⟨(cfg.op op).iters⟩ ⟨p1.time, p2.time⟩ ∧
    analyseSpaceSetResizing env.f64 env.profile ⟨(cfg.op op).iters⟩ ⟨p1.space, p2.space⟩ = .ok an.space

/-- the same for read and update -/
def MadeCS (env : CrudEnv) (cfg : CrudCfg) (op : Op) (p1 p2 : PassResult) (v : Option (AnalysisOf ConstantSetMeasurements)) : Prop :=
  ∃ an, v = some an ∧ an.m = ⟨op.name, ⟨(cfg.op .create).iters, 2 * (cfg.op .create).iters, (cfg.op op).iters⟩, ⟨p1.time, p2.time⟩,
      ⟨p1.space, p2.space⟩⟩ ∧
    an.time = analyseTimeConstantSet env.f64 ⟨(cfg.op .create).iters, 2 * (cfg.op .create).iters, (cfg.op op).iters⟩ ⟨p1.time, p2.time⟩ ∧
    analyseSpaceConstantSet env.f64 env.profile ⟨(cfg.op .create).iters, 2 * (cfg.op .create).iters, (cfg.op op).iters⟩ ⟨p1.space, p2.space⟩ =
      .ok an.space

theorem sr_step {env : CrudEnv} {cfg : CrudCfg} {t0 op suff pref rf last k s s' v}
    (hr : ∀ x, rf (cfg.op op).iters k = .ok x → x = opRange cfg op k) (h0 : Since t0 s)
    (h : setResizingPass env cfg op suff pref rf last k s = (.ok v, s')) :
    ∃ p fig, PassStep env cfg t0 op k pref suff p fig s s' ∧
      (k = last → Requested cfg op → MadeSR env cfg op (s'.res op 0) (s'.res op 1) v) := by
  rcases setResizing_said (by simp) h with ⟨hq, -, rfl⟩ | ⟨hq, p, fig, s1, ha, h | ⟨hk, sp, hsp, h⟩⟩
  · exact ⟨_, _, PassStep.skip hq, fun _ h => absurd h hq⟩
  · obtain ⟨hk, -, rfl⟩ := h
    exact ⟨p, fig, ha.step hr h0 hq, fun h => absurd h hk⟩
  · obtain ⟨rfl, rfl, -, -⟩ := yield_ok h
    exact ⟨p, fig, ha.step hr h0 hq, fun _ _ => ⟨_, rfl, rfl, rfl, hsp⟩⟩

theorem cs_step {env : CrudEnv} {cfg : CrudCfg} (hn : NoOverflow cfg) {t0 op suff pref k s s' v} (hop : op ≠ .delete) (hk2 : k < 2)
    (h0 : Since t0 s) (h : constantSetPass env cfg op suff pref k s = (.ok v, s')) :
    ∃ p fig, PassStep env cfg t0 op k pref suff p fig s s' ∧
      (k = 1 → Requested cfg op → MadeCS env cfg op (s'.res op 0) (s'.res op 1) v) := by
  rcases constantSet_said hn (by simp) h with ⟨hq, -, rfl⟩ | ⟨hq, p, fig, s1, ha, h | ⟨hk, sp, hsp, h⟩⟩
  · exact ⟨_, _, PassStep.skip hq, fun _ h => absurd h hq⟩
  · obtain ⟨hk, -, rfl⟩ := h
    exact ⟨p, fig, ha.step (cru_range hn hop hk2) h0 hq, fun h => absurd h hk⟩
  · obtain ⟨rfl, rfl, -, -⟩ := yield_ok h
    exact ⟨p, fig, ha.step (cru_range hn hop hk2) h0 hq, fun _ _ => ⟨_, rfl, rfl, rfl, hsp⟩⟩

theorem sr_abort {env : CrudEnv} {cfg : CrudCfg} {t0 op suff pref rf last k s s' e}
    (hr : ∀ x, rf (cfg.op op).iters k = .ok x → x = opRange cfg op k) (h0 : Since t0 s)
    (h : setResizingPass env cfg op suff pref rf last k s = (.fail e, s')) :
    k = last ∧ Requested cfg op ∧ ∃ p fig s1 why, PassStep env cfg t0 op k pref suff p fig s s1 ∧ AbortStep cfg op e why s1 s' := by
  rcases setResizing_said (by simp) h with ⟨-, h, -⟩ | ⟨hq, p, fig, s1, ha, ⟨-, h, -⟩ | ⟨hk, sp, -, h⟩⟩
  · simp at h
  · simp at h
  · obtain ⟨why, h⟩ := yield_fail h
    exact ⟨hk, hq, p, fig, s1, why, ha.step hr h0 hq, h⟩

theorem cs_abort {env : CrudEnv} {cfg : CrudCfg} (hn : NoOverflow cfg) {t0 op suff pref k s s' e} (hop : op ≠ .delete) (hk2 : k < 2)
    (h0 : Since t0 s) (h : constantSetPass env cfg op suff pref k s = (.fail e, s')) :
    k = 1 ∧ Requested cfg op ∧ ∃ p fig s1 why, PassStep env cfg t0 op k pref suff p fig s s1 ∧ AbortStep cfg op e why s1 s' := by
  rcases constantSet_said hn (by simp) h with ⟨-, h, -⟩ | ⟨hq, p, fig, s1, ha, ⟨-, h, -⟩ | ⟨hk, sp, -, h⟩⟩
  · simp at h
  · simp at h
  · obtain ⟨why, h⟩ := yield_fail h
    exact ⟨hk, hq, p, fig, s1, why, ha.step (cru_range hn hop hk2) h0 hq, h⟩

theorem report_step {α : Type} {env : CrudEnv} {c : OpCfg} {a : Option α} {d s s' u} (h : outputReport c a d s = (.ok u, s')) :
    ∃ txt, (0 < c.iters → ∀ an, a = some an → d an = .ok txt) ∧ Said env s s' (if 0 < c.iters then txt ++ "\n\n" else "") := by
  unfold outputReport at h
  by_cases hi : c.iters > 0
  · rw [if_pos hi] at h
    obtain ⟨x, s1, h1, h⟩ := M.bind_eq_ok.1 h
    obtain ⟨hx, rfl⟩ := M.lift_eq_ok.1 h1
    obtain ⟨t, s2, h2, h⟩ := M.bind_eq_ok.1 h
    obtain ⟨ht, rfl⟩ := M.lift_eq_ok.1 h2
    refine ⟨t, fun _ an han => ?_, by rw [if_pos hi]; exact output_said h⟩
    subst han
    obtain rfl := Except.ok.inj hx
    exact ht
  · rw [if_neg hi] at h
    obtain ⟨rfl, rfl⟩ := M.pure_eq_ok.1 h
    exact ⟨"", fun h => absurd h hi, by rw [if_neg hi]; exact Said.nil⟩

/-- the figures of a pass, operation by operation, with the commas the runner puts -/
theorem passText_eq (cfg : CrudCfg) (fig : Op → String) : passText cfg fig =
    (if Requested cfg .create then "create: " ++ fig .create ++ (if (cfg.op .read).iters > 0 ∨ (cfg.op .update).iters > 0 then ", " else "") else "") ++
    (if Requested cfg .read then "read: " ++ fig .read ++ (if (cfg.op .update).iters > 0 then ", " else "") else "") ++
    (if Requested cfg .update then "update: " ++ fig .update ++ "" else "") := by
  have e1 : ∀ x, "create" ++ (": " ++ x) = "create: " ++ x := fun x => by rw [← String.append_assoc]; rfl
  have e2 : ∀ x, "read" ++ (": " ++ x) = "read: " ++ x := fun x => by rw [← String.append_assoc]; rfl
  have e3 : ∀ x, "update" ++ (": " ++ x) = "update: " ++ x := fun x => by rw [← String.append_assoc]; rfl
  unfold passText requestedOf Requested
  by_cases h1 : 0 < (cfg.op .create).iters <;> by_cases h2 : 0 < (cfg.op .read).iters <;> by_cases h3 : 0 < (cfg.op .update).iters <;>
    simp [h1, h2, h3, Op.label, String.intercalate_cons_cons, String.append_assoc, e1, e2, e3]

theorem reportsText_eq (cfg : CrudCfg) (rep : Op → String) : reportsText cfg rep [.create, .read, .update] =
    (if Requested cfg .create then rep .create ++ "\n\n" else "") ++ (if Requested cfg .read then rep .read ++ "\n\n" else "") ++
    (if Requested cfg .update then rep .update ++ "\n\n" else "") := by
  unfold reportsText requestedOf Requested
  by_cases h1 : 0 < (cfg.op .create).iters <;> by_cases h2 : 0 < (cfg.op .read).iters <;> by_cases h3 : 0 < (cfg.op .update).iters <;>
    simp [h1, h2, h3, String.join, String.append_assoc]

theorem passTextUpTo_create (cfg : CrudCfg) (fig : Op → String) (h : Requested cfg .create) : passTextUpTo cfg fig .create =
    "create: " ++ fig .create ++ (if (cfg.op .read).iters > 0 ∨ (cfg.op .update).iters > 0 then ", " else "") := by
  unfold passTextUpTo
  rw [passText_eq]
  unfold requestedOf
  by_cases h2 : 0 < (cfg.op .read).iters <;> by_cases h3 : 0 < (cfg.op .update).iters <;>
    simp [h, h2, h3, Op.rank, Requested]

theorem passTextUpTo_read (cfg : CrudCfg) (fig : Op → String) (h : Requested cfg .read) : passTextUpTo cfg fig .read =
    (if Requested cfg .create then "create: " ++ fig .create ++ ", " else "") ++
    ("read: " ++ fig .read ++ (if (cfg.op .update).iters > 0 then ", " else "")) := by
  unfold passTextUpTo
  rw [passText_eq]
  unfold requestedOf
  by_cases h1 : 0 < (cfg.op .create).iters <;> by_cases h3 : 0 < (cfg.op .update).iters <;>
    simp [h, h1, h3, Op.rank, Requested, String.append_assoc]

theorem passTextUpTo_update (cfg : CrudCfg) (fig : Op → String) : passTextUpTo cfg fig .update = passText cfg fig := by
  unfold passTextUpTo
  rw [passText_eq, passText_eq]
  unfold requestedOf
  simp [Op.rank, Requested]

/-! ### the first half: up to the second pass -/

theorem nofail_bind {α β : Type} {m : M α} {f : α → M β} {o : Res β} {s s'} (ho : ∀ e, o ≠ .panic e) (hm : ∀ e s1, m s ≠ (.fail e, s1))
    (h : (m >>= f) s = (o, s')) : ∃ a s1, m s = (.ok a, s1) ∧ f a s1 = (o, s') := by
  cases o with
  | ok v => exact M.bind_eq_ok.1 h
  | fail e =>
    rcases M.bind_eq_fail.1 h with h1 | h1
    · exact absurd h1 (hm _ _)
    · exact h1
  | panic e => exact absurd rfl (ho e)

/-- what follows the first half, crud.rs 473-506 -/
noncomputable def secondHalf (env : CrudEnv) (cfg : CrudCfg) : M CrudAnalyses := do
  let c ← createPass env cfg 1
  let r ← readPass env cfg 1
  let u ← updatePass env cfg 1
  output "):\n\n"
  outputReport (cfg.op .create) c (reportSetResizing env.f64 env.text env.profile)
  outputReport (cfg.op .read) r (reportConstantSet env.f64 env.text env.profile)
  outputReport (cfg.op .update) u (reportConstantSet env.f64 env.text env.profile)
  let d ← deletePasses env cfg
  return ⟨c, r, u, d⟩

/-- the state between the halves -/
structure Half (env : CrudEnv) (cfg : CrudCfg) (t : List Ev) (warm : String) (p : Op → PassResult) (fig : Op → String) (s : CrudSt) : Prop where
  warmed : WarmTime env cfg t s.trace warm
  summed : Summed env (crudStart t) s
  shown : ∀ op, op ≠ .delete → Requested cfg op → PassMeasured env cfg t s.trace op 0 (p op) ∧ Figures env (p op) (fig op) ∧ s.res op 0 = p op
  report : s.report = reportHead cfg warm ++ "First Pass (" ++ passText cfg fig ++ "); Second Pass ("

theorem WarmTime.later {env cfg t warm} {s s' : CrudSt} (h : WarmTime env cfg t s.trace warm) (hl : Later s s') :
    WarmTime env cfg t s'.trace warm := by
  intro hw
  obtain ⟨b, a, e, hd⟩ := h hw
  obtain ⟨ext, e'⟩ := hl
  exact ⟨b, a ++ ext, by rw [e', e]; simp, hd⟩

theorem body_half {env : CrudEnv} {cfg : CrudCfg} (hn : NoOverflow cfg) {t o s'} (ho : ∀ e, o ≠ .panic e)
    (h : analyseBody env cfg (crudStart t) = (o, s')) :
    ∃ warm p fig s, Half env cfg t warm p fig s ∧ secondHalf env cfg s = (o, s') := by
  unfold analyseBody at h
  obtain ⟨_, s1, h1, h⟩ := nofail_bind ho (fun _ _ h => (NoFail.output _).absurd' h) h
  obtain ⟨_, s2, h2, h⟩ := nofail_bind ho (fun _ _ h => (NoFail.absurd' (NoFail.warmup env) h)) h
  obtain ⟨_, s3, h3, h⟩ := nofail_bind ho (fun _ _ h => (NoFail.output _).absurd' h) h
  have q1 := output_said (env := env) h1
  obtain ⟨warm, hwarm, q2⟩ := warmup_said hn h2
  have q3 := output_said (env := env) h3
  have S3 : Since t s3 := (q1.1.trans (q2.1.trans q3.1)).later
  obtain ⟨_, s4, h4, h⟩ := nofail_bind ho (fun _ _ h => by
    have := (sr_abort (t0 := t) (cru_range hn (by simp) (by omega)) S3 h).1; omega) h
  obtain ⟨pc, fc, c4, -⟩ := sr_step (t0 := t) (cru_range hn (by simp) (by omega)) S3 h4
  have S4 : Since t s4 := c4.summed.later.since S3
  obtain ⟨_, s5, h5, h⟩ := nofail_bind ho (fun _ _ h => by
    have := (cs_abort (t0 := t) hn (by simp) (by omega) S4 h).1; omega) h
  obtain ⟨pr, fr, c5, -⟩ := cs_step (t0 := t) hn (by simp) (by omega) S4 h5
  have S5 : Since t s5 := c5.summed.later.since S4
  obtain ⟨_, s6, h6, h⟩ := nofail_bind ho (fun _ _ h => by
    have := (cs_abort (t0 := t) hn (by simp) (by omega) S5 h).1; omega) h
  obtain ⟨pu, fu, c6, -⟩ := cs_step (t0 := t) hn (by simp) (by omega) S5 h6
  obtain ⟨_, s7, h7, h⟩ := nofail_bind ho (fun _ _ h => (NoFail.output _).absurd' h) h
  have q7 := output_said (env := env) h7
  have w : WarmTime env cfg t s2.trace warm := by
    intro hw
    obtain ⟨b, a, e, hd⟩ := hwarm hw
    obtain ⟨ext, e1, -⟩ := q1.1
    have e1 : s1.trace = t ++ ext := e1
    exact ⟨ext ++ b, a, by rw [e, e1]; simp, by rw [hd, e1]; simp⟩
  have l47 : Later s4 s7 := c5.summed.later.trans (c6.summed.later.trans q7.1.later)
  refine ⟨warm, fun op => match op with | .create => pc | .read => pr | _ => pu,
    fun op => match op with | .create => fc | .read => fr | _ => fu, s7, ⟨?_, ?_, ?_, ?_⟩, h⟩
  · exact w.later (q3.1.later.trans (c4.summed.later.trans l47))
  · exact q1.1.trans (q2.1.trans (q3.1.trans (c4.summed.trans (c5.summed.trans (c6.summed.trans q7.1)))))
  · intro op hop hq
    cases op with
    | delete => exact absurd rfl hop
    | create =>
      obtain ⟨a, b, c⟩ := c4.shown hq
      exact ⟨a.later l47, b, by rw [q7.2.1, c6.keeps _ _ (by simp), c5.keeps _ _ (by simp), c]⟩
    | read =>
      obtain ⟨a, b, c⟩ := c5.shown hq
      exact ⟨a.later (c6.summed.later.trans q7.1.later), b, by rw [q7.2.1, c6.keeps _ _ (by simp), c]⟩
    | update =>
      obtain ⟨a, b, c⟩ := c6.shown hq
      exact ⟨a.later q7.1.later, b, by rw [q7.2.1, c]⟩
  · have e0 : (crudStart t).report = "" := rfl
    rw [q7.2.2, c6.report, c5.report, c4.report, q3.2.2, q2.2.2, q1.2.2, e0, passText_eq]
    unfold reportHead
    simp only [String.append_assoc, String.empty_append]

/-! ### the second half -/

theorem output_r {msg s s' u} (h : output msg s = (.ok u, s')) : s'.r = s.r := by
  simp only [output, Prod.mk.injEq] at h
  obtain ⟨-, rfl⟩ := h
  rfl

theorem report_r {α : Type} {c : OpCfg} {a : Option α} {d s s' u} (h : outputReport c a d s = (.ok u, s')) : s'.r = s.r := by
  unfold outputReport at h
  split at h
  · obtain ⟨x, s1, h1, h⟩ := M.bind_eq_ok.1 h
    obtain ⟨-, rfl⟩ := M.lift_eq_ok.1 h1
    obtain ⟨t, s2, h2, h⟩ := M.bind_eq_ok.1 h
    obtain ⟨-, rfl⟩ := M.lift_eq_ok.1 h2
    exact output_r h
  · obtain ⟨rfl, rfl⟩ := M.pure_eq_ok.1 h; rfl

/-- the state before the delete passes -/
structure Mid (env : CrudEnv) (cfg : CrudCfg) (t : List Ev) (warm : String) (p : Op → Nat → PassResult) (fig : Op → Nat → String)
    (rep : Op → String) (a : CrudAnalyses) (s : CrudSt) : Prop where
  warmed : WarmTime env cfg t s.trace warm
  summed : Summed env (crudStart t) s
  shown : ∀ op k, op ≠ .delete → k < 2 → Requested cfg op → PassMeasured env cfg t s.trace op k (p op k) ∧ Figures env (p op k) (fig op k)
  reported : ∀ op, op ≠ .delete → Requested cfg op → ReportOf env cfg a op (p op 0) (p op 1) (rep op)
  report : s.report = reportHead cfg warm ++ "First Pass (" ++ passText cfg (fig · 0) ++ "); Second Pass (" ++ passText cfg (fig · 1) ++
    "):\n\n" ++ reportsText cfg rep [.create, .read, .update]

/-- an analysis rejected because of create, read or update -/
structure AbortedEarly (env : CrudEnv) (cfg : CrudCfg) (t : List Ev) (warm : String) (p : Op → Nat → PassResult) (fig : Op → Nat → String)
    (bad : Op) (e : CrudError) (why : String) (s : CrudSt) : Prop where
  notDelete : bad ≠ .delete
  requested : Requested cfg bad
  warmed : WarmTime env cfg t s.trace warm
  operation : e.failedOperation = bad.name
  reason : AbortedFor cfg bad e why
  shown : ∀ op k, op ≠ .delete → k < 2 → Requested cfg op → (k = 0 ∨ op.rank ≤ bad.rank) →
    PassMeasured env cfg t s.trace op k (p op k) ∧ Figures env (p op k) (fig op k)
  report : e.partialReport = reportHead cfg warm ++ "First Pass (" ++ passText cfg (fig · 0) ++ "); Second Pass (" ++
    passTextUpTo cfg (fig · 1) bad ++ why

theorem AbortStep.later {cfg op e why s s'} (h : AbortStep cfg op e why s s') : Later s s' := ⟨_, h.told⟩

theorem madeSR_report {env : CrudEnv} {cfg : CrudCfg} {op p1 p2 v txt} (hop : op = .create ∨ op = .delete) (h : MadeSR env cfg op p1 p2 v)
    (hd : ∀ an, v = some an → reportSetResizing env.f64 env.text env.profile an = .ok txt) : ReportsSR env cfg op v p1 p2 txt := by
  obtain ⟨an, hv, hm, ht, hs⟩ := h
  rcases hop with rfl | rfl <;> exact ⟨an, hv, hm, ht, hs, hd an hv⟩

theorem madeCS_report {env : CrudEnv} {cfg : CrudCfg} {op p1 p2 v txt} (hop : op = .read ∨ op = .update) (h : MadeCS env cfg op p1 p2 v)
    (hd : ∀ an, v = some an → reportConstantSet env.f64 env.text env.profile an = .ok txt) : ReportsCS env cfg op v p1 p2 txt := by
  obtain ⟨an, hv, hm, ht, hs⟩ := h
  rcases hop with rfl | rfl <;> exact ⟨an, hv, hm, ht, hs, hd an hv⟩

theorem second_mid {env : CrudEnv} {cfg : CrudCfg} (hn : NoOverflow cfg) {t o s' warm p0 f0 s} (ho : ∀ e, o ≠ .panic e)
    (H : Half env cfg t warm p0 f0 s) (h : secondHalf env cfg s = (o, s')) :
    (∃ e bad p fig why, o = .fail e ∧ AbortedEarly env cfg t warm p fig bad e why s') ∨
    (∃ c r u p fig rep s1, Mid env cfg t warm p fig rep ⟨c, r, u, none⟩ s1 ∧
      (deletePasses env cfg >>= fun d => pure ⟨c, r, u, d⟩ : M CrudAnalyses) s1 = (o, s')) := by
  have S : Since t s := H.summed.later
  unfold secondHalf at h
  -- create
  by_cases hc : ∃ e s1, createPass env cfg 1 s = (.fail e, s1)
  · left
    obtain ⟨e, s1, hf⟩ := hc
    rw [M.bind_fail hf] at h
    simp only [Prod.mk.injEq] at h
    obtain ⟨rfl, rfl⟩ := h
    obtain ⟨-, hq, pc, fc, s2, why, c, ab⟩ := sr_abort (t0 := t) (cru_range hn (by simp) (by omega)) S hf
    refine ⟨e, .create, fun op k => if k = 0 then p0 op else pc, fun op k => if k = 0 then f0 op else fc, why, rfl,
      ⟨by simp, hq, H.warmed.later (c.summed.later.trans ab.later), ab.operation, ab.reason, ?_, ?_⟩⟩
    · intro op k hop hk hr hor
      by_cases hk0 : k = 0
      · subst hk0
        obtain ⟨a, b, -⟩ := H.shown op hop hr
        exact ⟨a.later (c.summed.later.trans ab.later), b⟩
      · obtain rfl : k = 1 := by omega
        have hop : op = .create := by cases op <;> simp_all [Op.rank]
        subst hop
        obtain ⟨a, b, -⟩ := c.shown hr
        exact ⟨a.later ab.later, b⟩
    · rw [ab.partialReport, ab.report, c.report, H.report, if_pos hq, passTextUpTo_create _ _ hq]
      simp only [if_true, String.append_assoc, one_ne_zero, if_false]
  obtain ⟨c, s8, h8, h⟩ := nofail_bind ho (fun e s1 h => hc ⟨e, s1, h⟩) h
  obtain ⟨pc, fc, c8, mc⟩ := sr_step (t0 := t) (cru_range hn (by simp) (by omega)) S h8
  have S8 : Since t s8 := c8.summed.later.since S
  -- read
  by_cases hc : ∃ e s1, readPass env cfg 1 s8 = (.fail e, s1)
  · left
    obtain ⟨e, s1, hf⟩ := hc
    rw [M.bind_fail hf] at h
    simp only [Prod.mk.injEq] at h
    obtain ⟨rfl, rfl⟩ := h
    obtain ⟨-, hq, pr, fr, s2, why, c9, ab⟩ := cs_abort (t0 := t) hn (by simp) (by omega) S8 hf
    have l2 := c8.summed.later.trans (c9.summed.later.trans ab.later)
    refine ⟨e, .read, fun op k => if k = 0 then p0 op else if op = .create then pc else pr,
      fun op k => if k = 0 then f0 op else if op = .create then fc else fr, why, rfl,
      ⟨by simp, hq, H.warmed.later l2, ab.operation, ab.reason, ?_, ?_⟩⟩
    · intro op k hop hk hr hor
      by_cases hk0 : k = 0
      · subst hk0
        obtain ⟨a, b, -⟩ := H.shown op hop hr
        exact ⟨a.later l2, b⟩
      · obtain rfl : k = 1 := by omega
        cases op with
        | create => obtain ⟨a, b, -⟩ := c8.shown hr; exact ⟨a.later (c9.summed.later.trans ab.later), b⟩
        | read => obtain ⟨a, b, -⟩ := c9.shown hr; exact ⟨a.later ab.later, b⟩
        | update => simp [Op.rank] at hor
        | delete => exact absurd rfl hop
    · rw [ab.partialReport, ab.report, c9.report, c8.report, H.report, if_pos hq, passTextUpTo_read _ _ hq]
      have : ((cfg.op .read).iters > 0 ∨ (cfg.op .update).iters > 0) := Or.inl hq
      simp only [if_true, String.append_assoc, one_ne_zero, if_false, if_pos this, reduceCtorEq]
  obtain ⟨r, s9, h9, h⟩ := nofail_bind ho (fun e s1 h => hc ⟨e, s1, h⟩) h
  obtain ⟨pr, fr, c9, mr⟩ := cs_step (t0 := t) hn (by simp) (by omega) S8 h9
  have S9 : Since t s9 := c9.summed.later.since S8
  -- update
  by_cases hc : ∃ e s1, updatePass env cfg 1 s9 = (.fail e, s1)
  · left
    obtain ⟨e, s1, hf⟩ := hc
    rw [M.bind_fail hf] at h
    simp only [Prod.mk.injEq] at h
    obtain ⟨rfl, rfl⟩ := h
    obtain ⟨-, hq, pu, fu, s2, why, c10, ab⟩ := cs_abort (t0 := t) hn (by simp) (by omega) S9 hf
    have l2 := c8.summed.later.trans (c9.summed.later.trans (c10.summed.later.trans ab.later))
    refine ⟨e, .update, fun op k => if k = 0 then p0 op else match op with | .create => pc | .read => pr | _ => pu,
      fun op k => if k = 0 then f0 op else match op with | .create => fc | .read => fr | _ => fu, why, rfl,
      ⟨by simp, hq, H.warmed.later l2, ab.operation, ab.reason, ?_, ?_⟩⟩
    · intro op k hop hk hr hor
      by_cases hk0 : k = 0
      · subst hk0
        obtain ⟨a, b, -⟩ := H.shown op hop hr
        exact ⟨a.later l2, b⟩
      · obtain rfl : k = 1 := by omega
        cases op with
        | create => obtain ⟨a, b, -⟩ := c8.shown hr; exact ⟨a.later (c9.summed.later.trans (c10.summed.later.trans ab.later)), b⟩
        | read => obtain ⟨a, b, -⟩ := c9.shown hr; exact ⟨a.later (c10.summed.later.trans ab.later), b⟩
        | update => obtain ⟨a, b, -⟩ := c10.shown hr; exact ⟨a.later ab.later, b⟩
        | delete => exact absurd rfl hop
    · rw [ab.partialReport, ab.report, c10.report, c9.report, c8.report, H.report, passTextUpTo_update]
      simp only [passText_eq, if_true, String.append_assoc, one_ne_zero, if_false]
  obtain ⟨u, s10, h10, h⟩ := nofail_bind ho (fun e s1 h => hc ⟨e, s1, h⟩) h
  obtain ⟨pu, fu, c10, mu⟩ := cs_step (t0 := t) hn (by simp) (by omega) S9 h10
  -- the reports
  obtain ⟨_, s11, h11, h⟩ := nofail_bind ho (fun _ _ h => (NoFail.output _).absurd' h) h
  obtain ⟨_, s12, h12, h⟩ := nofail_bind ho (fun _ _ h => NoFail.absurd' (NoFail.report _ _ _) h) h
  obtain ⟨_, s13, h13, h⟩ := nofail_bind ho (fun _ _ h => NoFail.absurd' (NoFail.report _ _ _) h) h
  obtain ⟨_, s14, h14, h⟩ := nofail_bind ho (fun _ _ h => NoFail.absurd' (NoFail.report _ _ _) h) h
  have q11 := output_said (env := env) h11
  obtain ⟨tc, rc, q12⟩ := report_step (env := env) h12
  obtain ⟨tr, rr, q13⟩ := report_step (env := env) h13
  obtain ⟨tu, ru, q14⟩ := report_step (env := env) h14
  have q := (q11.trans (q12.trans (q13.trans q14)))
  have l10 := q.1.later
  have l9 := c10.summed.later.trans l10
  have l8 := c9.summed.later.trans l9
  right
  refine ⟨c, r, u, fun op k => if k = 0 then p0 op else match op with | .create => pc | .read => pr | _ => pu,
      fun op k => if k = 0 then f0 op else match op with | .create => fc | .read => fr | _ => fu,
      fun op => match op with | .create => tc | .read => tr | _ => tu, s14,
      ⟨H.warmed.later (c8.summed.later.trans l8),
        H.summed.trans (c8.summed.trans (c9.summed.trans (c10.summed.trans q.1))), ?_, ?_, ?_⟩, h⟩
  · intro op k hop hk hr
    by_cases hk0 : k = 0
    · subst hk0
      obtain ⟨a, b, -⟩ := H.shown op hop hr
      exact ⟨a.later (c8.summed.later.trans l8), b⟩
    · obtain rfl : k = 1 := by omega
      cases op with
      | create => obtain ⟨a, b, -⟩ := c8.shown hr; exact ⟨a.later l8, b⟩
      | read => obtain ⟨a, b, -⟩ := c9.shown hr; exact ⟨a.later l9, b⟩
      | update => obtain ⟨a, b, -⟩ := c10.shown hr; exact ⟨a.later l10, b⟩
      | delete => exact absurd rfl hop
  · intro op hop hr
    have h0 := (H.shown op hop hr).2.2
    cases op with
    | create =>
      have h1 := (c8.shown hr).2.2
      have h2 : s8.res .create 0 = p0 .create := by rw [c8.keeps _ _ (by simp), h0]
      have m := mc rfl hr
      rw [h1, h2] at m
      exact madeSR_report (Or.inl rfl) m (rc hr)
    | read =>
      have h1 := (c9.shown hr).2.2
      have h2 : s9.res .read 0 = p0 .read := by rw [c9.keeps _ _ (by simp), c8.keeps _ _ (by simp), h0]
      have m := mr rfl hr
      rw [h1, h2] at m
      exact madeCS_report (Or.inl rfl) m (rr hr)
    | update =>
      have h1 := (c10.shown hr).2.2
      have h2 : s10.res .update 0 = p0 .update := by rw [c10.keeps _ _ (by simp), c9.keeps _ _ (by simp), c8.keeps _ _ (by simp), h0]
      have m := mu rfl hr
      rw [h1, h2] at m
      exact madeCS_report (Or.inr rfl) m (ru hr)
    | delete => exact absurd rfl hop
  · rw [q.2.2, c10.report, c9.report, c8.report, H.report, reportsText_eq]
    simp only [passText_eq, if_true, String.append_assoc, one_ne_zero, if_false]

end BigO
