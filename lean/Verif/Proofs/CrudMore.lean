import Verif.Proofs.Crud

/-!
# More proofs about the CRUD runner: invariants of all runs, accepted runs, limits
-/
namespace BigO

/-! ### invariants of all runs -/

/-- a relation between states that every primitive step respects -/
structure Closed (cfg : CrudCfg) (R : CrudSt → CrudSt → Prop) : Prop where
  refl : ∀ s, R s s
  trans : ∀ a b c, R a b → R b c → R a c
  out : ∀ (s : CrudSt) msg, R s { s with report := s.report ++ msg, trace := s.trace ++ [.out msg] }
  reset : ∀ (s : CrudSt) n, cfg.warmup > 0 → R s { s with trace := s.trace ++ [.reset n] }
  xorR : ∀ (s : CrudSt) x, R s { s with r := s.r ^^^ x }
  setRes : ∀ (s : CrudSt) op k pr, R s { s with res := fun o j => if o = op ∧ j = k then pr else s.res o j }
  run : ∀ (s : CrudSt) ph op a b t, (cfg.op op).iters > 0 → R s { s with trace := s.trace ++ [.pass ph op a b t] }

section
variable {cfg : CrudCfg} {R : CrudSt → CrudSt → Prop}

/-- every run of `m` respects `R` -/
def Pres (R : CrudSt → CrudSt → Prop) {α : Type} (m : M α) : Prop := ∀ s, R s (m s).2

theorem Pres.bind (C : Closed cfg R) {α β : Type} {m : M α} {f : α → M β} (h1 : Pres R m) (h2 : ∀ a, Pres R (f a)) :
    Pres R (m >>= f) := by
  intro s
  have h := h1 s
  generalize hm : m s = x at h
  obtain ⟨r, s1⟩ := x
  cases r with
  | ok a => rw [M.bind_ok hm]; exact C.trans _ _ _ h (h2 a s1)
  | fail e => rw [M.bind_fail hm]; exact h
  | panic e => rw [M.bind_panic hm]; exact h

theorem Pres.pure (C : Closed cfg R) {α : Type} (a : α) : Pres R (Pure.pure a : M α) := fun s => C.refl s
theorem Pres.lift (C : Closed cfg R) {α : Type} (x : Rs α) : Pres R (M.lift x) := by
  intro s; unfold M.lift; cases x <;> exact C.refl s
theorem Pres.get (C : Closed cfg R) {α : Type} (f : CrudSt → α) : Pres R (M.get f) := fun s => C.refl s
theorem Pres.output (C : Closed cfg R) (msg : String) : Pres R (output msg) := fun s => C.out s msg
theorem Pres.failWith (C : Closed cfg R) {α : Type} (mk) : Pres R (failWith mk : M α) := fun s => C.refl s
theorem Pres.xorR (C : Closed cfg R) (x) : Pres R (xorR x) := fun s => C.xorR s x
theorem Pres.setRes (C : Closed cfg R) (op k pr) : Pres R (setRes op k pr) := fun s => C.setRes s op k pr

theorem Pres.run (C : Closed cfg R) (env : CrudEnv) (ph op a b t) (h : (cfg.op op).iters > 0) :
    Pres R (runIteratorPass env ph op a b t) := by
  intro s
  unfold runIteratorPass
  split
  · exact C.refl s
  · split <;> exact C.run s ph op a b t h

theorem Pres.verbosely (C : Closed cfg R) (env : CrudEnv) (pref suff ph op range t) (h : (cfg.op op).iters > 0) :
    Pres R (runVerbosely env pref suff ph op range t) :=
  (Pres.run C env _ _ _ _ _ h).bind C fun _ => (Pres.lift C _).bind C fun _ => (Pres.output C _).bind C fun _ => Pres.pure C _

theorem Pres.yield (C : Closed cfg R) {α : Type} (op c) (m : α) (t sp) : Pres R (yieldAnalysis op c m t sp) := by
  unfold yieldAnalysis
  split
  · exact (Pres.output C _).bind C fun _ => Pres.failWith C _
  · split
    · exact (Pres.output C _).bind C fun _ => Pres.failWith C _
    · exact Pres.pure C _

theorem Pres.constantSet (C : Closed cfg R) (env : CrudEnv) (op suff pref k) :
    Pres R (constantSetPass env cfg op suff pref k) := by
  unfold constantSetPass
  by_cases h : (cfg.op op).iters > 0
  · rw [if_pos h]
    refine (Pres.lift C _).bind C fun _ => (Pres.verbosely C env _ _ _ _ _ _ h).bind C fun _ => (Pres.setRes C _ _ _).bind C fun _ =>
      (Pres.xorR C _).bind C fun _ => ?_
    split
    · exact (Pres.lift C _).bind C fun _ => (Pres.get C _).bind C fun _ => (Pres.get C _).bind C fun _ =>
        (Pres.lift C _).bind C fun _ => Pres.yield C _ _ _ _ _
    · exact Pres.pure C _
  · rw [if_neg h]; exact Pres.pure C _

theorem Pres.setResizing (C : Closed cfg R) (env : CrudEnv) (op suff pref rf last k) :
    Pres R (setResizingPass env cfg op suff pref rf last k) := by
  unfold setResizingPass
  by_cases h : (cfg.op op).iters > 0
  · rw [if_pos h]
    refine (Pres.lift C _).bind C fun _ => (Pres.verbosely C env _ _ _ _ _ _ h).bind C fun _ => (Pres.setRes C _ _ _).bind C fun _ =>
      (Pres.xorR C _).bind C fun _ => ?_
    split
    · exact (Pres.get C _).bind C fun _ => (Pres.get C _).bind C fun _ =>
        (Pres.lift C _).bind C fun _ => Pres.yield C _ _ _ _ _
    · exact Pres.pure C _
  · rw [if_neg h]; exact Pres.pure C _

theorem Pres.warmupOp (C : Closed cfg R) (env : CrudEnv) (op letter) : Pres R (warmupOp env cfg op letter) := by
  unfold BigO.warmupOp
  by_cases h : (cfg.op op).iters > 0
  · rw [if_pos h]
    refine (Pres.output C _).bind C fun _ => (Pres.lift C _).bind C fun _ => ?_
    split
    · exact (Pres.run C env _ _ _ _ _ h).bind C fun _ => Pres.xorR C _
    · exact (Pres.run C env _ _ _ _ _ h).bind C fun _ => Pres.xorR C _
  · rw [if_neg h]; exact Pres.pure C _

theorem Pres.reset (C : Closed cfg R) (env : CrudEnv) (n : Nat) (h : cfg.warmup > 0) : Pres R (callReset env n) := by
  intro s
  unfold callReset
  split
  · exact C.reset s n h
  · exact C.reset s n h

theorem Pres.warmup (C : Closed cfg R) (env : CrudEnv) : Pres R (warmup env cfg) := by
  unfold BigO.warmup
  by_cases h : cfg.warmup > 0
  · rw [if_pos h]
    exact (Pres.output C _).bind C fun _ => (Pres.warmupOp C env _ _).bind C fun _ => (Pres.warmupOp C env _ _).bind C fun _ =>
      (Pres.warmupOp C env _ _).bind C fun _ => (Pres.warmupOp C env _ _).bind C fun _ => (Pres.output C _).bind C fun _ =>
      (Pres.lift C _).bind C fun _ => Pres.bind C (Pres.reset C env _ h) fun _ => (Pres.get C _).bind C fun _ => Pres.output C _
  · rw [if_neg h]; exact Pres.pure C _

theorem Pres.report (C : Closed cfg R) {α : Type} (c) (a : Option α) (d) : Pres R (outputReport c a d) := by
  unfold outputReport
  split
  · exact (Pres.lift C _).bind C fun _ => (Pres.lift C _).bind C fun _ => Pres.output C _
  · exact Pres.pure C _

theorem Pres.deletePasses (C : Closed cfg R) (env : CrudEnv) : Pres R (deletePasses env cfg) := by
  unfold BigO.deletePasses
  split
  · exact (Pres.output C _).bind C fun _ => (Pres.setResizing C env _ _ _ _ _ _).bind C fun _ =>
      (Pres.setResizing C env _ _ _ _ _ _).bind C fun _ => (Pres.get C _).bind C fun _ => (Pres.output C _).bind C fun _ =>
      (Pres.report C _ _ _).bind C fun _ => Pres.pure C _
  · exact Pres.pure C _

theorem Pres.body (C : Closed cfg R) (env : CrudEnv) : Pres R (analyseBody env cfg) :=
  (Pres.output C _).bind C fun _ => (Pres.warmup C env).bind C fun _ => (Pres.output C _).bind C fun _ =>
    (Pres.setResizing C env _ _ _ _ _ _).bind C fun _ => (Pres.constantSet C env _ _ _ _).bind C fun _ =>
    (Pres.constantSet C env _ _ _ _).bind C fun _ => (Pres.output C _).bind C fun _ =>
    (Pres.setResizing C env _ _ _ _ _ _).bind C fun _ => (Pres.constantSet C env _ _ _ _).bind C fun _ =>
    (Pres.constantSet C env _ _ _ _).bind C fun _ => (Pres.output C _).bind C fun _ =>
    (Pres.report C _ _ _).bind C fun _ => (Pres.report C _ _ _).bind C fun _ => (Pres.report C _ _ _).bind C fun _ =>
    (Pres.deletePasses C env).bind C fun _ => Pres.pure C _

end

/-- the trace only grows, and no event of the forbidden kind is added -/
def NoneOf (bad : Ev → Prop) (s s' : CrudSt) : Prop := ∃ ext, s'.trace = s.trace ++ ext ∧ ∀ e ∈ ext, ¬ bad e

theorem NoneOf.closed (cfg : CrudCfg) (bad : Ev → Prop) (hout : ∀ m, ¬ bad (.out m)) (hreset : cfg.warmup > 0 → ∀ n, ¬ bad (.reset n))
    (hrun : ∀ ph op a b t, (cfg.op op).iters > 0 → ¬ bad (.pass ph op a b t)) : Closed cfg (NoneOf bad) where
  refl s := ⟨[], by simp, by simp⟩
  trans a b c := by
    rintro ⟨e1, h1, n1⟩ ⟨e2, h2, n2⟩
    refine ⟨e1 ++ e2, by rw [h2, h1, List.append_assoc], ?_⟩
    intro e he
    rcases List.mem_append.1 he with h | h
    · exact n1 e h
    · exact n2 e h
  out s msg := ⟨[.out msg], rfl, by simpa using hout msg⟩
  reset s n h := ⟨[.reset n], rfl, by simpa using hreset h n⟩
  xorR s x := ⟨[], by simp, by simp⟩
  setRes s op k pr := ⟨[], by simp, by simp⟩
  run s ph op a b t h := ⟨[.pass ph op a b t], rfl, by simpa using hrun ph op a b t h⟩

theorem texts_append (a b : List Ev) : texts (a ++ b) = texts a ++ texts b := by
  induction a with
  | nil => simp [texts]
  | cons e a ih => cases e <;> simp [texts, ih, String.append_assoc]

/-- the report grows by exactly the texts that are output -/
def ReportsAll (s s' : CrudSt) : Prop := ∃ ext, s'.trace = s.trace ++ ext ∧ s'.report = s.report ++ texts ext

theorem ReportsAll.closed (cfg : CrudCfg) : Closed cfg ReportsAll where
  refl s := ⟨[], by simp, by simp [texts]⟩
  trans a b c := by
    rintro ⟨e1, h1, n1⟩ ⟨e2, h2, n2⟩
    exact ⟨e1 ++ e2, by rw [h2, h1, List.append_assoc], by rw [n2, n1, texts_append, String.append_assoc]⟩
  out s msg := ⟨[.out msg], rfl, by simp [texts]⟩
  reset s n h := ⟨[.reset n], rfl, by simp [texts]⟩
  xorR s x := ⟨[], by simp, by simp [texts]⟩
  setRes s op k pr := ⟨[], by simp, by simp [texts]⟩
  run s ph op a b t h := ⟨[.pass ph op a b t], rfl, by simp [texts]⟩

/-! ### runs that end normally -/

theorem M.bind_eq_ok {α β : Type} {m : M α} {f : α → M β} {s s' : CrudSt} {b : β} :
    (m >>= f) s = (.ok b, s') ↔ ∃ a s1, m s = (.ok a, s1) ∧ f a s1 = (.ok b, s') := by
  generalize hm : m s = x
  obtain ⟨r, s1⟩ := x
  cases r with
  | ok a =>
    rw [M.bind_ok hm]
    constructor
    · intro h; exact ⟨a, s1, rfl, h⟩
    · rintro ⟨a', s1', h1, h2⟩
      cases h1; exact h2
  | fail e => rw [M.bind_fail hm]; simp
  | panic e => rw [M.bind_panic hm]; simp

theorem M.lift_eq_ok {α : Type} {x : Rs α} {s s' : CrudSt} {a : α} : M.lift x s = (.ok a, s') ↔ x = .ok a ∧ s = s' := by
  unfold M.lift
  cases x with
  | ok b =>
    simp only [Prod.mk.injEq, Res.ok.injEq, Except.ok.injEq]
  | error e => simp

theorem M.pure_eq_ok {α : Type} {a b : α} {s s' : CrudSt} : (Pure.pure a : M α) s = (.ok b, s') ↔ a = b ∧ s = s' := by
  show ((Res.ok a, s) : Res α × CrudSt) = _ ↔ _
  simp only [Prod.mk.injEq, Res.ok.injEq]

theorem run_ok {env : CrudEnv} {ph op a b t s s' x} (h : runIteratorPass env ph op a b t s = (.ok x, s')) :
    env.measure s.trace ph op a b t = .ok x ∧ s' = { s with trace := s.trace ++ [.pass ph op a b t] } := by
  unfold runIteratorPass at h
  split at h
  · simp at h
  · split at h
    · simp at h
    · rename_i y hy; simp at h; obtain ⟨rfl, rfl⟩ := h; exact ⟨hy, rfl⟩

theorem verbosely_ok {env : CrudEnv} {pref suff ph op range t s s' x}
    (h : runVerbosely env pref suff ph op range t s = (.ok x, s')) :
    env.measure s.trace ph op range.1 range.2 t = .ok x ∧ s'.res = s.res ∧
      ∃ msg, s'.trace = s.trace ++ [.pass ph op range.1 range.2 t, .out msg] := by
  unfold runVerbosely at h
  obtain ⟨y, s1, h1, h⟩ := M.bind_eq_ok.1 h
  obtain ⟨hm, rfl⟩ := run_ok h1
  obtain ⟨sp, s2, h2, h⟩ := M.bind_eq_ok.1 h
  obtain ⟨-, rfl⟩ := M.lift_eq_ok.1 h2
  obtain ⟨u, s3, h3, h⟩ := M.bind_eq_ok.1 h
  obtain ⟨rfl, rfl⟩ := M.pure_eq_ok.1 h
  simp only [output, Prod.mk.injEq] at h3
  obtain ⟨-, rfl⟩ := h3
  exact ⟨hm, rfl, _, List.append_assoc _ _ _⟩

theorem yield_ok {α : Type} {op c} {m : α} {t sp v s s'} (h : yieldAnalysis op c m t sp s = (.ok v, s')) :
    some ⟨t, sp, m⟩ = v ∧ s = s' ∧ t.asU32 ≤ c.tmax.asU32 ∧ sp.asU32 ≤ c.smax.asU32 := by
  unfold yieldAnalysis at h
  split at h
  · obtain ⟨_, s1, _, h⟩ := M.bind_eq_ok.1 h
    simp [failWith] at h
  · split at h
    · obtain ⟨_, s1, _, h⟩ := M.bind_eq_ok.1 h
      simp [failWith] at h
    · obtain ⟨rfl, rfl⟩ := M.pure_eq_ok.1 h
      exact ⟨rfl, rfl, by omega, by omega⟩

/-- the analysis of create and delete, given the results of its two passes -/
def GoodSR (env : CrudEnv) (cfg : CrudCfg) (op : Op) (p1 p2 : PassResult) (a : AnalysisOf SetResizingMeasurements) : Prop :=
  a.m = ⟨op.name, ⟨(cfg.op op).iters⟩, ⟨p1.time, p2.time⟩, ⟨p1.space, p2.space⟩⟩ ∧
  a.time = analyseTimeSetResizing env.f64 ⟨(cfg.op op).iters⟩ ⟨p1.time, p2.time⟩ ∧
  analyseSpaceSetResizing env.f64 env.profile ⟨(cfg.op op).iters⟩ ⟨p1.space, p2.space⟩ = .ok a.space ∧
  a.time.asU32 ≤ (cfg.op op).tmax.asU32 ∧ a.space.asU32 ≤ (cfg.op op).smax.asU32

/-- the analysis of read and update, given the results of its two passes -/
def GoodCS (env : CrudEnv) (cfg : CrudCfg) (op : Op) (p1 p2 : PassResult) (a : AnalysisOf ConstantSetMeasurements) : Prop :=
  ∃ size2, u32Mul env.profile (cfg.op .create).iters 2 = .ok size2 ∧
  a.m = ⟨op.name, ⟨(cfg.op .create).iters, size2, (cfg.op op).iters⟩, ⟨p1.time, p2.time⟩, ⟨p1.space, p2.space⟩⟩ ∧
  a.time = analyseTimeConstantSet env.f64 ⟨(cfg.op .create).iters, size2, (cfg.op op).iters⟩ ⟨p1.time, p2.time⟩ ∧
  analyseSpaceConstantSet env.f64 env.profile ⟨(cfg.op .create).iters, size2, (cfg.op op).iters⟩ ⟨p1.space, p2.space⟩ = .ok a.space ∧
  a.time.asU32 ≤ (cfg.op op).tmax.asU32 ∧ a.space.asU32 ≤ (cfg.op op).smax.asU32

/-- effect of a pass that ended normally on the state -/
def PassEffect (env : CrudEnv) (cfg : CrudCfg) (op : Op) (k a b : Nat) (s s' : CrudSt) : Prop :=
  ∃ x msg, env.measure s.trace (phaseOf k) op a b (cfg.op op).threads = .ok x ∧
    s'.trace = s.trace ++ [.pass (phaseOf k) op a b (cfg.op op).threads, .out msg] ∧
    s'.res = fun o j => if o = op ∧ j = k then x.1 else s.res o j

theorem setResizing_ok {env : CrudEnv} {cfg : CrudCfg} {op suff pref rf last k s s' v}
    (h : setResizingPass env cfg op suff pref rf last k s = (.ok v, s')) :
    ((cfg.op op).iters = 0 ∧ v = none ∧ s' = s) ∨
    ((cfg.op op).iters > 0 ∧ ∃ a b, rf (cfg.op op).iters k = .ok (a, b) ∧ PassEffect env cfg op k a b s s' ∧
      (k ≠ last → v = none) ∧ (k = last → ∃ an, v = some an ∧ GoodSR env cfg op (s'.res op 0) (s'.res op 1) an)) := by
  unfold setResizingPass at h
  by_cases hi : (cfg.op op).iters > 0
  · rw [if_pos hi] at h
    right
    refine ⟨hi, ?_⟩
    obtain ⟨⟨a, b⟩, s1, h1, h⟩ := M.bind_eq_ok.1 h
    obtain ⟨hr, rfl⟩ := M.lift_eq_ok.1 h1
    obtain ⟨x, s2, h2, h⟩ := M.bind_eq_ok.1 h
    obtain ⟨hm, hres, msg, htr⟩ := verbosely_ok h2
    obtain ⟨_, s3, h3, h⟩ := M.bind_eq_ok.1 h
    simp only [setRes, Prod.mk.injEq] at h3
    obtain ⟨_, s4, h4, h⟩ := M.bind_eq_ok.1 h
    simp only [xorR, Prod.mk.injEq] at h4
    have e4 : s4.trace = s.trace ++ [.pass (phaseOf k) op a b (cfg.op op).threads, .out msg] := by
      rw [← h4.2, ← h3.2]; exact htr
    have e4' : s4.res = fun o j => if o = op ∧ j = k then x.1 else s.res o j := by
      rw [← h4.2, ← h3.2]; simp only [hres]
    refine ⟨a, b, hr, ?_⟩
    by_cases hk : k = last
    · rw [if_pos hk] at h
      obtain ⟨p1, s5, h5, h⟩ := M.bind_eq_ok.1 h
      simp only [M.get, Prod.mk.injEq, Res.ok.injEq] at h5
      obtain ⟨p2, s6, h6, h⟩ := M.bind_eq_ok.1 h
      simp only [M.get, Prod.mk.injEq, Res.ok.injEq] at h6
      obtain ⟨sp, s7, h7, h⟩ := M.bind_eq_ok.1 h
      obtain ⟨hsp, rfl⟩ := M.lift_eq_ok.1 h7
      obtain ⟨rfl, rfl, ht, hs⟩ := yield_ok h
      obtain ⟨rfl, rfl⟩ := h6
      obtain ⟨rfl, rfl⟩ := h5
      exact ⟨⟨x, msg, hm, e4, e4'⟩, fun hne => absurd hk hne, fun _ => ⟨_, rfl, rfl, rfl, hsp, ht, hs⟩⟩
    · rw [if_neg hk] at h
      obtain ⟨rfl, rfl⟩ := M.pure_eq_ok.1 h
      exact ⟨⟨x, msg, hm, e4, e4'⟩, fun _ => rfl, fun he => absurd he hk⟩
  · rw [if_neg hi] at h
    obtain ⟨rfl, rfl⟩ := M.pure_eq_ok.1 h
    exact Or.inl ⟨by omega, rfl, rfl⟩

theorem constantSet_ok {env : CrudEnv} {cfg : CrudCfg} {op suff pref k s s' v}
    (h : constantSetPass env cfg op suff pref k s = (.ok v, s')) :
    ((cfg.op op).iters = 0 ∧ v = none ∧ s' = s) ∨
    ((cfg.op op).iters > 0 ∧ ∃ a b, cruRange env (cfg.op op).iters k = .ok (a, b) ∧ PassEffect env cfg op k a b s s' ∧
      (k ≠ 1 → v = none) ∧ (k = 1 → ∃ an, v = some an ∧ GoodCS env cfg op (s'.res op 0) (s'.res op 1) an)) := by
  unfold constantSetPass at h
  by_cases hi : (cfg.op op).iters > 0
  · rw [if_pos hi] at h
    right
    refine ⟨hi, ?_⟩
    obtain ⟨⟨a, b⟩, s1, h1, h⟩ := M.bind_eq_ok.1 h
    obtain ⟨hr, rfl⟩ := M.lift_eq_ok.1 h1
    obtain ⟨x, s2, h2, h⟩ := M.bind_eq_ok.1 h
    obtain ⟨hm, hres, msg, htr⟩ := verbosely_ok h2
    obtain ⟨_, s3, h3, h⟩ := M.bind_eq_ok.1 h
    simp only [setRes, Prod.mk.injEq] at h3
    obtain ⟨_, s4, h4, h⟩ := M.bind_eq_ok.1 h
    simp only [xorR, Prod.mk.injEq] at h4
    have e4 : s4.trace = s.trace ++ [.pass (phaseOf k) op a b (cfg.op op).threads, .out msg] := by
      rw [← h4.2, ← h3.2]; exact htr
    have e4' : s4.res = fun o j => if o = op ∧ j = k then x.1 else s.res o j := by
      rw [← h4.2, ← h3.2]; simp only [hres]
    refine ⟨a, b, hr, ?_⟩
    by_cases hk : k = 1
    · rw [if_pos hk] at h
      obtain ⟨size2, s8, h8, h⟩ := M.bind_eq_ok.1 h
      obtain ⟨hsz, rfl⟩ := M.lift_eq_ok.1 h8
      obtain ⟨p1, s5, h5, h⟩ := M.bind_eq_ok.1 h
      simp only [M.get, Prod.mk.injEq, Res.ok.injEq] at h5
      obtain ⟨p2, s6, h6, h⟩ := M.bind_eq_ok.1 h
      simp only [M.get, Prod.mk.injEq, Res.ok.injEq] at h6
      obtain ⟨sp, s7, h7, h⟩ := M.bind_eq_ok.1 h
      obtain ⟨hsp, rfl⟩ := M.lift_eq_ok.1 h7
      obtain ⟨rfl, rfl, ht, hs⟩ := yield_ok h
      obtain ⟨rfl, rfl⟩ := h6
      obtain ⟨rfl, rfl⟩ := h5
      exact ⟨⟨x, msg, hm, e4, e4'⟩, fun hne => absurd hk hne, fun _ => ⟨_, rfl, size2, hsz, rfl, rfl, hsp, ht, hs⟩⟩
    · rw [if_neg hk] at h
      obtain ⟨rfl, rfl⟩ := M.pure_eq_ok.1 h
      exact ⟨⟨x, msg, hm, e4, e4'⟩, fun _ => rfl, fun he => absurd he hk⟩
  · rw [if_neg hi] at h
    obtain ⟨rfl, rfl⟩ := M.pure_eq_ok.1 h
    exact Or.inl ⟨by omega, rfl, rfl⟩

/-- the trace grows and the results are untouched -/
def Quiet (s s' : CrudSt) : Prop := (∃ ext, s'.trace = s.trace ++ ext) ∧ s'.res = s.res

theorem Quiet.refl (s : CrudSt) : Quiet s s := ⟨⟨[], by simp⟩, rfl⟩
theorem Quiet.trans {a b c : CrudSt} (h1 : Quiet a b) (h2 : Quiet b c) : Quiet a c := by
  obtain ⟨⟨e1, t1⟩, r1⟩ := h1
  obtain ⟨⟨e2, t2⟩, r2⟩ := h2
  exact ⟨⟨e1 ++ e2, by rw [t2, t1, List.append_assoc]⟩, by rw [r2, r1]⟩

theorem output_quiet {msg s s' u} (h : output msg s = (.ok u, s')) : Quiet s s' := by
  simp only [output, Prod.mk.injEq] at h
  obtain ⟨-, rfl⟩ := h
  exact ⟨⟨_, rfl⟩, rfl⟩

theorem report_quiet {α : Type} {c} {a : Option α} {d s s' u} (h : outputReport c a d s = (.ok u, s')) : Quiet s s' := by
  unfold outputReport at h
  split at h
  · obtain ⟨x, s1, h1, h⟩ := M.bind_eq_ok.1 h
    obtain ⟨-, rfl⟩ := M.lift_eq_ok.1 h1
    obtain ⟨y, s2, h2, h⟩ := M.bind_eq_ok.1 h
    obtain ⟨-, rfl⟩ := M.lift_eq_ok.1 h2
    exact output_quiet h
  · obtain ⟨rfl, rfl⟩ := M.pure_eq_ok.1 h; exact Quiet.refl s

/-- an analysis that was made is output -/
theorem report_text {α : Type} {c : OpCfg} {a : α} {d s s' u} (hc : c.iters > 0) (h : outputReport c (some a) d s = (.ok u, s')) :
    ∃ t, d a = .ok t ∧ s'.trace = s.trace ++ [.out (t ++ "\n\n")] := by
  unfold outputReport at h
  rw [if_pos hc] at h
  obtain ⟨x, s1, h1, h⟩ := M.bind_eq_ok.1 h
  obtain ⟨hx, rfl⟩ := M.lift_eq_ok.1 h1
  cases hx
  obtain ⟨y, s2, h2, h⟩ := M.bind_eq_ok.1 h
  obtain ⟨hy, rfl⟩ := M.lift_eq_ok.1 h2
  simp only [output, Prod.mk.injEq] at h
  obtain ⟨-, rfl⟩ := h
  exact ⟨y, hy, rfl⟩

theorem run_quiet {env : CrudEnv} {ph op a b t s s' x} (h : runIteratorPass env ph op a b t s = (.ok x, s')) : Quiet s s' := by
  obtain ⟨-, rfl⟩ := run_ok h
  exact ⟨⟨_, rfl⟩, rfl⟩

theorem xorR_quiet {x s s' u} (h : xorR x s = (.ok u, s')) : Quiet s s' := by
  simp only [xorR, Prod.mk.injEq] at h
  obtain ⟨-, rfl⟩ := h
  exact ⟨⟨[], by simp⟩, rfl⟩

theorem warmupOp_quiet {env : CrudEnv} {cfg : CrudCfg} {op l s s' u} (h : warmupOp env cfg op l s = (.ok u, s')) : Quiet s s' := by
  unfold warmupOp at h
  split at h
  · obtain ⟨_, s1, h1, h⟩ := M.bind_eq_ok.1 h
    obtain ⟨m, s2, h2, h⟩ := M.bind_eq_ok.1 h
    obtain ⟨-, rfl⟩ := M.lift_eq_ok.1 h2
    refine (output_quiet h1).trans ?_
    split at h
    · obtain ⟨_, s3, h3, h⟩ := M.bind_eq_ok.1 h
      exact (run_quiet h3).trans (xorR_quiet h)
    · obtain ⟨_, s3, h3, h⟩ := M.bind_eq_ok.1 h
      exact (run_quiet h3).trans (xorR_quiet h)
  · obtain ⟨rfl, rfl⟩ := M.pure_eq_ok.1 h; exact Quiet.refl s

theorem warmup_quiet {env : CrudEnv} {cfg : CrudCfg} {s s' u} (h : warmup env cfg s = (.ok u, s')) : Quiet s s' := by
  unfold warmup at h
  split at h
  · obtain ⟨_, s1, h1, h⟩ := M.bind_eq_ok.1 h
    obtain ⟨_, s2, h2, h⟩ := M.bind_eq_ok.1 h
    obtain ⟨_, s3, h3, h⟩ := M.bind_eq_ok.1 h
    obtain ⟨_, s4, h4, h⟩ := M.bind_eq_ok.1 h
    obtain ⟨_, s5, h5, h⟩ := M.bind_eq_ok.1 h
    obtain ⟨_, s6, h6, h⟩ := M.bind_eq_ok.1 h
    obtain ⟨_, s7, h7, h⟩ := M.bind_eq_ok.1 h
    obtain ⟨-, rfl⟩ := M.lift_eq_ok.1 h7
    obtain ⟨_, s8, h8, h⟩ := M.bind_eq_ok.1 h
    have q8 : Quiet s6 s8 := by
      unfold callReset at h8
      split at h8
      · simp only [Prod.mk.injEq] at h8
        obtain ⟨-, rfl⟩ := h8; exact ⟨⟨_, rfl⟩, rfl⟩
      · simp at h8
    obtain ⟨_, s9, h9, h⟩ := M.bind_eq_ok.1 h
    simp only [M.get, Prod.mk.injEq] at h9
    have q9 : Quiet s8 s9 := by obtain ⟨-, rfl⟩ := h9; exact Quiet.refl _
    exact (output_quiet h1).trans ((warmupOp_quiet h2).trans ((warmupOp_quiet h3).trans ((warmupOp_quiet h4).trans
      ((warmupOp_quiet h5).trans ((output_quiet h6).trans (q8.trans (q9.trans (output_quiet h))))))))
  · obtain ⟨rfl, rfl⟩ := M.pure_eq_ok.1 h; exact Quiet.refl s

/-! ### what an analysis that ended normally has measured and said -/

/-- the trace has grown from `t0` -/
def Since (t0 : List Ev) (s : CrudSt) : Prop := ∃ ext, s.trace = t0 ++ ext

theorem Since.quiet {t0 s s'} (h : Since t0 s) (q : Quiet s s') : Since t0 s' := by
  obtain ⟨e1, h1⟩ := h
  obtain ⟨⟨e2, h2⟩, -⟩ := q
  exact ⟨e1 ++ e2, by rw [h2, h1, List.append_assoc]⟩

theorem Since.effect {env cfg op k a b t0 s s'} (h : Since t0 s) (q : PassEffect env cfg op k a b s s') : Since t0 s' := by
  obtain ⟨e1, h1⟩ := h
  obtain ⟨x, msg, -, h2, -⟩ := q
  exact ⟨e1 ++ _, by rw [h2, h1, List.append_assoc]⟩

/-- `s'` is later than `s` -/
def Later (s s' : CrudSt) : Prop := ∃ ext, s'.trace = s.trace ++ ext

theorem Later.refl (s : CrudSt) : Later s s := ⟨[], by simp⟩
theorem Later.trans {a b c : CrudSt} (h1 : Later a b) (h2 : Later b c) : Later a c := by
  obtain ⟨e1, t1⟩ := h1
  obtain ⟨e2, t2⟩ := h2
  exact ⟨e1 ++ e2, by rw [t2, t1, List.append_assoc]⟩
theorem Later.since {t0 a b} (h : Later a b) (h0 : Since t0 a) : Since t0 b := by
  obtain ⟨e1, t1⟩ := h0
  obtain ⟨e2, t2⟩ := h
  exact ⟨e1 ++ e2, by rw [t2, t1, List.append_assoc]⟩
theorem Quiet.later {a b : CrudSt} (h : Quiet a b) : Later a b := h.1

theorem MeasuredIn.later {env t0 ph op a b t pr} {s s' : CrudSt} (h : MeasuredIn env t0 s.trace ph op a b t pr) (hl : Later s s') :
    MeasuredIn env t0 s'.trace ph op a b t pr := by
  obtain ⟨bf, af, x, h1, h2⟩ := h
  obtain ⟨ext, he⟩ := hl
  exact ⟨bf, af ++ ext, x, by rw [he, h1]; simp, h2⟩

theorem SaidIn.later {t0 msg} {s s' : CrudSt} (h : SaidIn t0 s.trace msg) (hl : Later s s') : SaidIn t0 s'.trace msg := by
  obtain ⟨bf, af, h1⟩ := h
  obtain ⟨ext, he⟩ := hl
  exact ⟨bf, af ++ ext, by rw [he, h1]; simp⟩

theorem PassEffect.measured {env cfg op k a b t0 s s'} (h : PassEffect env cfg op k a b s s') (h0 : Since t0 s) :
    MeasuredIn env t0 s'.trace (phaseOf k) op a b (cfg.op op).threads (s'.res op k) := by
  obtain ⟨x, msg, hm, ht, hr⟩ := h
  obtain ⟨e, he⟩ := h0
  refine ⟨e, [.out msg], x.2, by rw [ht, he], ?_⟩
  rw [← he, hm, hr]; simp

theorem PassEffect.later {env cfg op k a b s s'} (h : PassEffect env cfg op k a b s s') : Later s s' := by
  obtain ⟨x, msg, -, ht, -⟩ := h
  exact ⟨_, ht⟩

theorem PassEffect.keeps {env cfg op k a b s s'} (h : PassEffect env cfg op k a b s s') {o j} (hne : ¬ (o = op ∧ j = k)) :
    s'.res o j = s.res o j := by
  obtain ⟨x, msg, -, -, hr⟩ := h
  rw [hr]; simp [hne]

/-- a pass: either the operation is not requested and nothing happens, or its effect takes place -/
def StepOf (env : CrudEnv) (cfg : CrudCfg) (rf : Nat → Nat → Rs (Nat × Nat)) (op : Op) (k : Nat) (s s' : CrudSt) : Prop :=
  ((cfg.op op).iters = 0 ∧ s' = s) ∨
  ((cfg.op op).iters > 0 ∧ ∃ a b, rf (cfg.op op).iters k = .ok (a, b) ∧ PassEffect env cfg op k a b s s')

theorem StepOf.later {env cfg rf op k s s'} (h : StepOf env cfg rf op k s s') : Later s s' := by
  rcases h with ⟨-, rfl⟩ | ⟨-, a, b, -, h⟩
  · exact Later.refl _
  · exact h.later

theorem StepOf.keeps {env cfg rf op k s s'} (h : StepOf env cfg rf op k s s') {o j} (hne : ¬ (o = op ∧ j = k)) :
    s'.res o j = s.res o j := by
  rcases h with ⟨-, rfl⟩ | ⟨-, a, b, -, h⟩
  · rfl
  · exact h.keeps hne

theorem StepOf.measured {env cfg rf op k t0 s s'} (h : StepOf env cfg rf op k s s') (h0 : Since t0 s)
    (hi : (cfg.op op).iters > 0) : ∃ a b, rf (cfg.op op).iters k = .ok (a, b) ∧
      MeasuredIn env t0 s'.trace (phaseOf k) op a b (cfg.op op).threads (s'.res op k) := by
  rcases h with ⟨h, -⟩ | ⟨-, a, b, hr, h⟩
  · omega
  · exact ⟨a, b, hr, h.measured h0⟩

theorem setResizing_step {env : CrudEnv} {cfg : CrudCfg} {op suff pref rf last k s s' v}
    (h : setResizingPass env cfg op suff pref rf last k s = (.ok v, s')) : StepOf env cfg rf op k s s' := by
  rcases setResizing_ok h with ⟨h1, -, h2⟩ | ⟨h1, a, b, h2, h3, -⟩
  · exact Or.inl ⟨h1, h2⟩
  · exact Or.inr ⟨h1, a, b, h2, h3⟩

theorem constantSet_step {env : CrudEnv} {cfg : CrudCfg} {op suff pref k s s' v}
    (h : constantSetPass env cfg op suff pref k s = (.ok v, s')) : StepOf env cfg (cruRange env) op k s s' := by
  rcases constantSet_ok h with ⟨h1, -, h2⟩ | ⟨h1, a, b, h2, h3, -⟩
  · exact Or.inl ⟨h1, h2⟩
  · exact Or.inr ⟨h1, a, b, h2, h3⟩

theorem setResizing_result {env : CrudEnv} {cfg : CrudCfg} {op suff pref rf k s s' v}
    (h : setResizingPass env cfg op suff pref rf k k s = (.ok v, s')) :
    ((cfg.op op).iters = 0 → v = none) ∧
    ((cfg.op op).iters > 0 → ∃ an, v = some an ∧ GoodSR env cfg op (s'.res op 0) (s'.res op 1) an) := by
  rcases setResizing_ok h with ⟨h1, h2, -⟩ | ⟨h1, a, b, -, -, -, h2⟩
  · exact ⟨fun _ => h2, fun h => by omega⟩
  · exact ⟨fun h => by omega, fun _ => h2 rfl⟩

theorem constantSet_result {env : CrudEnv} {cfg : CrudCfg} {op suff pref s s' v}
    (h : constantSetPass env cfg op suff pref 1 s = (.ok v, s')) :
    ((cfg.op op).iters = 0 → v = none) ∧
    ((cfg.op op).iters > 0 → ∃ an, v = some an ∧ GoodCS env cfg op (s'.res op 0) (s'.res op 1) an) := by
  rcases constantSet_ok h with ⟨h1, h2, -⟩ | ⟨h1, a, b, -, -, -, h2⟩
  · exact ⟨fun _ => h2, fun h => by omega⟩
  · exact ⟨fun h => by omega, fun _ => h2 rfl⟩

/-- what is known of the analysis of one operation: made iff requested, of two passes measured in this run, within the
limits, and told in the report -/
def Done {α : Type} (env : CrudEnv) (cfg : CrudCfg) (t0 tr : List Ev) (op : Op) (rf : Nat → Nat → Rs (Nat × Nat))
    (good : PassResult → PassResult → α → Prop) (d : α → Rs String) (v : Option α) : Prop :=
  ((cfg.op op).iters = 0 → v = none) ∧
  ((cfg.op op).iters > 0 → ∃ an a1 b1 a2 b2 p1 p2 t, v = some an ∧
    rf (cfg.op op).iters 0 = .ok (a1, b1) ∧ rf (cfg.op op).iters 1 = .ok (a2, b2) ∧
    MeasuredIn env t0 tr .pass1 op a1 b1 (cfg.op op).threads p1 ∧ MeasuredIn env t0 tr .pass2 op a2 b2 (cfg.op op).threads p2 ∧
    good p1 p2 an ∧ d an = .ok t ∧ SaidIn t0 tr (t ++ "\n\n"))

theorem report_said {α : Type} {c : OpCfg} {a : α} {d t0 s s' u} (hc : c.iters > 0) (h0 : Since t0 s)
    (h : outputReport c (some a) d s = (.ok u, s')) : ∃ t, d a = .ok t ∧ SaidIn t0 s'.trace (t ++ "\n\n") := by
  obtain ⟨t, h1, h2⟩ := report_text hc h
  obtain ⟨e, he⟩ := h0
  exact ⟨t, h1, e, [], by rw [h2, he]⟩

theorem done_intro {α : Type} {env : CrudEnv} {cfg : CrudCfg} {t0 : List Ev} {op : Op} {rf : Nat → Nat → Rs (Nat × Nat)}
    {good : PassResult → PassResult → α → Prop} {d : α → Rs String} {v : Option α}
    {s1 s2 s3 s4 s5 s6 s7 : CrudSt} {u} {k1 k2 : Nat} (h0 : Since t0 s1) (hk : (k1 = 0 ∧ k2 = 1) ∨ (k1 = 1 ∧ k2 = 0))
    (st1 : StepOf env cfg rf op k1 s1 s2) (l23 : Later s2 s3) (hkeep : s3.res op k1 = s2.res op k1)
    (st2 : StepOf env cfg rf op k2 s3 s4)
    (hv : ((cfg.op op).iters = 0 → v = none) ∧ ((cfg.op op).iters > 0 → ∃ an, v = some an ∧ good (s4.res op 0) (s4.res op 1) an))
    (l45 : Later s4 s5) (hrep : outputReport (cfg.op op) v d s5 = (.ok u, s6)) (l67 : Later s6 s7) :
    Done env cfg t0 s7.trace op rf good d v := by
  refine ⟨hv.1, fun hi => ?_⟩
  obtain ⟨an, rfl, hg⟩ := hv.2 hi
  have l56 := (report_quiet hrep).later
  have l27 := l23.trans (st2.later.trans (l45.trans (l56.trans l67)))
  have l47 := l45.trans (l56.trans l67)
  obtain ⟨a1, b1, hr1, m1⟩ := st1.measured h0 hi
  obtain ⟨a2, b2, hr2, m2⟩ := st2.measured (l23.since (st1.later.since h0)) hi
  have hne : ¬ (op = op ∧ k1 = k2) := by omega
  have hk1 : s4.res op k1 = s2.res op k1 := by rw [st2.keeps hne, hkeep]
  rw [← hk1] at m1
  obtain ⟨t, ht, hsaid⟩ := report_said hi (l45.since (st2.later.since (l23.since (st1.later.since h0)))) hrep
  rcases hk with ⟨rfl, rfl⟩ | ⟨rfl, rfl⟩
  · exact ⟨an, a1, b1, a2, b2, _, _, t, rfl, hr1, hr2, m1.later l27, m2.later l47, hg, ht, hsaid.later l67⟩
  · exact ⟨an, a2, b2, a1, b1, _, _, t, rfl, hr2, hr1, m2.later l47, m1.later l27, hg, ht, hsaid.later l67⟩

theorem get_quiet {α : Type} {f : CrudSt → α} {s s' v} (h : M.get f s = (.ok v, s')) : Quiet s s' := by
  simp only [M.get, Prod.mk.injEq] at h
  obtain ⟨-, rfl⟩ := h
  exact Quiet.refl _

theorem deletePasses_ok {env : CrudEnv} {cfg : CrudCfg} {t0 s s' v} (h0 : Since t0 s)
    (h : deletePasses env cfg s = (.ok v, s')) : Later s s' ∧
    Done env cfg t0 s'.trace .delete (dRange env) (GoodSR env cfg .delete) (reportSetResizing env.f64 env.text env.profile) v := by
  unfold deletePasses at h
  by_cases hi : (cfg.op .delete).iters > 0
  · rw [if_pos hi] at h
    obtain ⟨_, s1, h1, h⟩ := M.bind_eq_ok.1 h
    obtain ⟨_, s2, h2, h⟩ := M.bind_eq_ok.1 h
    obtain ⟨d, s3, h3, h⟩ := M.bind_eq_ok.1 h
    obtain ⟨_, s4, h4, h⟩ := M.bind_eq_ok.1 h
    obtain ⟨_, s5, h5, h⟩ := M.bind_eq_ok.1 h
    obtain ⟨_, s6, h6, h⟩ := M.bind_eq_ok.1 h
    obtain ⟨rfl, rfl⟩ := M.pure_eq_ok.1 h
    have q1 := output_quiet h1
    have q4 := get_quiet h4
    have q5 := output_quiet h5
    have q6 := report_quiet h6
    have st2 := setResizing_step h2
    have st3 := setResizing_step h3
    refine ⟨q1.later.trans (st2.later.trans (st3.later.trans (q4.later.trans (q5.later.trans q6.later)))), ?_⟩
    exact done_intro (q1.later.since h0) (Or.inr ⟨rfl, rfl⟩) st2 (Later.refl _) rfl st3 (setResizing_result h3)
      (q4.later.trans q5.later) h6 (Later.refl _)
  · rw [if_neg hi] at h
    obtain ⟨rfl, rfl⟩ := M.pure_eq_ok.1 h
    exact ⟨Later.refl _, fun _ => rfl, fun h => absurd h hi⟩

theorem body_ok {env : CrudEnv} {cfg : CrudCfg} {s s' an} (h : analyseBody env cfg s = (.ok an, s')) :
    Done env cfg s.trace s'.trace .create (cruRange env) (GoodSR env cfg .create) (reportSetResizing env.f64 env.text env.profile) an.create ∧
    Done env cfg s.trace s'.trace .read (cruRange env) (GoodCS env cfg .read) (reportConstantSet env.f64 env.text env.profile) an.read ∧
    Done env cfg s.trace s'.trace .update (cruRange env) (GoodCS env cfg .update) (reportConstantSet env.f64 env.text env.profile) an.update ∧
    Done env cfg s.trace s'.trace .delete (dRange env) (GoodSR env cfg .delete) (reportSetResizing env.f64 env.text env.profile) an.delete := by
  unfold analyseBody at h
  have h0 : Since s.trace s := ⟨[], by simp⟩
  obtain ⟨_, s1, h1, h⟩ := M.bind_eq_ok.1 h
  obtain ⟨_, s2, h2, h⟩ := M.bind_eq_ok.1 h
  obtain ⟨_, s3, h3, h⟩ := M.bind_eq_ok.1 h
  obtain ⟨_, s4, h4, h⟩ := M.bind_eq_ok.1 h
  obtain ⟨_, s5, h5, h⟩ := M.bind_eq_ok.1 h
  obtain ⟨_, s6, h6, h⟩ := M.bind_eq_ok.1 h
  obtain ⟨_, s7, h7, h⟩ := M.bind_eq_ok.1 h
  obtain ⟨c, s8, h8, h⟩ := M.bind_eq_ok.1 h
  obtain ⟨r, s9, h9, h⟩ := M.bind_eq_ok.1 h
  obtain ⟨u, s10, h10, h⟩ := M.bind_eq_ok.1 h
  obtain ⟨_, s11, h11, h⟩ := M.bind_eq_ok.1 h
  obtain ⟨_, s12, h12, h⟩ := M.bind_eq_ok.1 h
  obtain ⟨_, s13, h13, h⟩ := M.bind_eq_ok.1 h
  obtain ⟨_, s14, h14, h⟩ := M.bind_eq_ok.1 h
  obtain ⟨d, s15, h15, h⟩ := M.bind_eq_ok.1 h
  obtain ⟨rfl, rfl⟩ := M.pure_eq_ok.1 h
  have q1 := output_quiet h1
  have q2 := warmup_quiet h2
  have q3 := output_quiet h3
  have c4 := setResizing_step h4
  have c5 := constantSet_step h5
  have c6 := constantSet_step h6
  have q7 := output_quiet h7
  have c8 := setResizing_step h8
  have c9 := constantSet_step h9
  have c10 := constantSet_step h10
  have q11 := output_quiet h11
  have q12 := report_quiet h12
  have q13 := report_quiet h13
  have q14 := report_quiet h14
  have S3 : Since s.trace s3 := ((h0.quiet q1).quiet q2).quiet q3
  have S4 := c4.later.since S3
  have S5 := c5.later.since S4
  have S14 : Since s.trace s14 := q14.later.since (q13.later.since (q12.later.since (q11.later.since (c10.later.since (c9.later.since
    (c8.later.since (q7.later.since (c6.later.since S5))))))))
  obtain ⟨l15, hd⟩ := deletePasses_ok S14 h15
  refine ⟨?_, ?_, ?_, hd⟩
  · exact done_intro S3 (Or.inl ⟨rfl, rfl⟩) c4 (c5.later.trans (c6.later.trans q7.later))
      (by rw [q7.2, c6.keeps (by simp), c5.keeps (by simp)]) c8 (setResizing_result h8)
      (c9.later.trans (c10.later.trans q11.later)) h12 (q13.later.trans (q14.later.trans l15))
  · exact done_intro S4 (Or.inl ⟨rfl, rfl⟩) c5 (c6.later.trans (q7.later.trans c8.later))
      (by rw [c8.keeps (by simp), q7.2, c6.keeps (by simp)]) c9 (constantSet_result h9)
      (c10.later.trans (q11.later.trans q12.later)) h13 (q14.later.trans l15)
  · exact done_intro S5 (Or.inl ⟨rfl, rfl⟩) c6 (q7.later.trans (c8.later.trans c9.later))
      (by rw [c9.keeps (by simp), c8.keeps (by simp), q7.2]) c10 (constantSet_result h10)
      (q11.later.trans (q12.later.trans q13.later)) h14 l15

end BigO
