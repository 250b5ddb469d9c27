import Verif.Proofs.CrudLimits
import Verif.Proofs.Pass
import Verif.Props.Display

/-!
# Proofs about the CRUD runner: what an error blames, and when nothing panics
-/
namespace BigO

/-- what is known in the middle of an analysis: the passes (numbers 0 and 1) in `D` were measured since `t0` and their results are
stored; the operations with number 2 in `D` were judged and found within their limits -/
structure Held (env : CrudEnv) (cfg : CrudCfg) (t0 : List Ev) (D : Op → Nat → Prop) (s : CrudSt) : Prop where
  since : Since t0 s
  measured : ∀ o k, k ≤ 1 → D o k → (cfg.op o).iters > 0 →
    MeasuredIn env t0 s.trace (phaseOf k) o (opRange cfg o k).1 (opRange cfg o k).2 (cfg.op o).threads (s.res o k)
  judged : ∀ o, D o 2 → (cfg.op o).iters > 0 → WithinIn env cfg t0 s.trace o

/-- what rules out panics -/
def Good (env : CrudEnv) (cfg : CrudCfg) : Prop := FloatLaws env.f64 ∧ BenignCrud env ∧ Fits cfg

/-- the outcome is as expected -/
def CrudOutcome {α : Type} (env : CrudEnv) (cfg : CrudCfg) (t0 : List Ev) (D : Op → Nat → Prop) (Q : α → Prop) (x : Res α × CrudSt) : Prop :=
  match x with
  | (.ok a, s) => Held env cfg t0 D s ∧ Q a
  | (.fail e, s) => Blames env cfg t0 s.trace e
  | (.panic _, _) => ¬ Good env cfg

/-- `m` leads from `D` to `D'` -/
def Tr {α : Type} (env : CrudEnv) (cfg : CrudCfg) (t0 : List Ev) (D D' : Op → Nat → Prop) (m : M α) (Q : α → Prop) : Prop :=
  ∀ s, Held env cfg t0 D s → CrudOutcome env cfg t0 D' Q (m s)

section
variable {env : CrudEnv} {cfg : CrudCfg} {t0 : List Ev}

theorem Tr.bind {α β : Type} {D D1 D2} {m : M α} {f : α → M β} {Q1 : α → Prop} {Q2 : β → Prop} (h1 : Tr env cfg t0 D D1 m Q1)
    (h2 : ∀ a, Q1 a → Tr env cfg t0 D1 D2 (f a) Q2) : Tr env cfg t0 D D2 (m >>= f) Q2 := by
  intro s hs
  have h := h1 s hs
  generalize hm : m s = x at h
  obtain ⟨r, s1⟩ := x
  cases r with
  | ok a => rw [M.bind_ok hm]; exact h2 a h.2 s1 h.1
  | fail e' => rw [M.bind_fail hm]; exact h
  | panic e' => rw [M.bind_panic hm]; exact h

theorem Tr.pure {α : Type} {D} {a : α} {Q : α → Prop} (h : Q a) : Tr env cfg t0 D D (Pure.pure a : M α) Q := fun _ hs => ⟨hs, h⟩

theorem Tr.lift {α : Type} {D} {x : Rs α} (hx : Good env cfg → ∃ a, x = .ok a) : Tr env cfg t0 D D (M.lift x) (fun a => x = .ok a) := by
  intro s hs
  unfold M.lift
  cases x with
  | ok a => exact ⟨hs, rfl⟩
  | error e => intro hg; obtain ⟨a, ha⟩ := hx hg; cases ha

theorem WithinIn.later {op} {s s' : CrudSt} (h : WithinIn env cfg t0 s.trace op) (hl : Later s s') : WithinIn env cfg t0 s'.trace op := by
  obtain ⟨p1, p2, c, ⟨h1, h2⟩, h3⟩ := h
  exact ⟨p1, p2, c, ⟨h1.later hl, h2.later hl⟩, h3⟩

theorem Held.grow {D} {s s' : CrudSt} (h : Held env cfg t0 D s) (hl : Later s s') (hr : s'.res = s.res) : Held env cfg t0 D s' := by
  refine ⟨hl.since h.since, fun o k hk hd hi => ?_, fun o hd hi => (h.judged o hd hi).later hl⟩
  rw [hr]
  exact (h.measured o k hk hd hi).later hl

theorem Tr.output {D} (msg) : Tr env cfg t0 D D (output msg) (fun _ => True) :=
  fun _ hs => ⟨hs.grow ⟨[.out msg], rfl⟩ rfl, trivial⟩
theorem Tr.reset {D} (n) : Tr env cfg t0 D D (callReset env n) (fun _ => True) := by
  intro s hs
  unfold callReset
  cases h : env.resetFn s.trace n with
  | ok u => exact ⟨hs.grow ⟨[.reset n], rfl⟩ rfl, trivial⟩
  | error e => intro hg; rw [hg.2.1.1] at h; cases h
theorem Tr.xorR {D} (x) : Tr env cfg t0 D D (xorR x) (fun _ => True) :=
  fun _ hs => ⟨hs.grow ⟨[], by simp [BigO.xorR]⟩ rfl, trivial⟩
theorem Tr.get {α : Type} {D} (f : CrudSt → α) : Tr env cfg t0 D D (M.get f) (fun _ => True) := fun _ hs => ⟨hs, trivial⟩

theorem passChunks_fits {a b n : Nat} (p : Profile) (ha : a < 2 ^ 31) (hb : b < 2 ^ 31) (h1 : 1 ≤ n) (h2 : n < 2 ^ 31) :
    ∃ l, passChunks p a b n = .ok l := by
  rcases le_total a b with h | h
  · exact ⟨_, passChunks_asc p h hb h1 h2⟩
  · exact ⟨_, passChunks_desc p h ha h1 h2⟩

theorem Tr.run {D} (ph op a b th) (hx : Good env cfg → a < 2 ^ 31 ∧ b < 2 ^ 31 ∧ 1 ≤ th ∧ th < 2 ^ 31) :
    Tr env cfg t0 D D (runIteratorPass env ph op a b th) (fun _ => True) := by
  intro s hs
  unfold runIteratorPass
  split
  · rename_i e he
    intro hg
    obtain ⟨h1, h2, h3, h4⟩ := hx hg
    obtain ⟨l, hl⟩ := passChunks_fits env.profile h1 h2 h3 h4
    rw [hl] at he; cases he
  · split
    · rename_i e he
      intro hg
      obtain ⟨pr, x, hm, -⟩ := hg.2.1.2 s.trace ph op a b th
      rw [hm] at he; cases he
    · exact ⟨hs.grow ⟨[.pass ph op a b th], rfl⟩ rfl, trivial⟩

theorem Tr.warmupOp {D} (op l) : Tr env cfg t0 D D (warmupOp env cfg op l) (fun _ => True) := by
  unfold BigO.warmupOp
  split
  · rename_i hi
    refine (Tr.output _).bind fun _ _ => (Tr.lift fun hg => ⟨_, u32Mul_ok _ (hg.2.2.1 op).2⟩).bind fun m hm => ?_
    have key : Good env cfg → m / 100 < 2 ^ 31 ∧ 0 < 2 ^ 31 ∧ 1 ≤ (cfg.op op).threads ∧ (cfg.op op).threads < 2 ^ 31 := by
      intro hg
      rw [u32Mul_ok _ (hg.2.2.1 op).2] at hm
      cases hm
      have h1 := (hg.2.2.1 op).2
      obtain ⟨-, h2, h3⟩ := hg.2.2.2 op hi
      exact ⟨by omega, by norm_num, h2, h3⟩
    split
    · exact (Tr.run _ _ _ _ _ fun hg => key hg).bind fun _ _ => Tr.xorR _
    · exact (Tr.run _ _ _ _ _ fun hg => ⟨(key hg).2.1, (key hg).1, (key hg).2.2⟩).bind fun _ _ => Tr.xorR _
  · exact Tr.pure trivial

theorem Tr.warmup {D} : Tr env cfg t0 D D (warmup env cfg) (fun _ => True) := by
  unfold BigO.warmup
  split
  · exact (Tr.output _).bind fun _ _ => (Tr.warmupOp _ _).bind fun _ _ => (Tr.warmupOp _ _).bind fun _ _ =>
      (Tr.warmupOp _ _).bind fun _ _ => (Tr.warmupOp _ _).bind fun _ _ => (Tr.output _).bind fun _ _ =>
      (Tr.lift fun hg => ⟨_, u32Mul_ok _ (hg.2.2.1 .create).2⟩).bind fun _ _ => (Tr.reset _).bind fun _ _ => (Tr.get _).bind fun _ _ =>
      Tr.output _
  · exact Tr.pure trivial

/-- one more pass -/
def addD (D : Op → Nat → Prop) (op : Op) (k : Nat) (o : Op) (j : Nat) : Prop := D o j ∨ (o = op ∧ j = k)

/-- a pass after which the operation is judged if it is the last one -/
def addPass (D : Op → Nat → Prop) (op : Op) (k last : Nat) (o : Op) (j : Nat) : Prop := addD D op k o j ∨ (o = op ∧ j = 2 ∧ k = last)

/-- a measured pass, stored, and what follows -/
theorem Tr.pass {α : Type} {D} {Q : α → Prop} {D2} (pref suff) (op k) (hk : k ≤ 1) (hi : (cfg.op op).iters > 0) (f : M α)
    (hf : Tr env cfg t0 (addD D op k) D2 f Q) :
    Tr env cfg t0 D D2 (runVerbosely env pref suff (phaseOf k) op (opRange cfg op k) (cfg.op op).threads >>= fun x =>
      setRes op k x.1 >>= fun _ => BigO.xorR x.2 >>= fun _ => f) Q := by
  intro s hs
  generalize hm : runVerbosely env pref suff (phaseOf k) op (opRange cfg op k) (cfg.op op).threads s = x
  obtain ⟨r, s1⟩ := x
  cases r with
  | fail e => exact absurd (by rw [hm]) (NoFail.verbosely env pref suff (phaseOf k) op (opRange cfg op k) (cfg.op op).threads s e)
  | ok x =>
    rw [M.bind_ok hm]
    obtain ⟨h1, h2, msg, h3⟩ := verbosely_ok hm
    refine hf _ ⟨?_, ?_, ?_⟩
    · obtain ⟨e, he⟩ := hs.since
      exact ⟨e ++ [.pass (phaseOf k) op (opRange cfg op k).1 (opRange cfg op k).2 (cfg.op op).threads, .out msg], by
        show s1.trace = _
        rw [h3, he]; simp⟩
    · intro o j hj hd hi'
      show MeasuredIn env t0 s1.trace _ _ _ _ _ (if o = op ∧ j = k then x.1 else s1.res o j)
      by_cases hc : o = op ∧ j = k
      · rw [if_pos hc]
        obtain ⟨rfl, rfl⟩ := hc
        obtain ⟨e, he⟩ := hs.since
        refine ⟨e, [.out msg], x.2, by rw [h3, he], ?_⟩
        rw [← he]; exact h1
      · rw [if_neg hc, h2]
        have hd' : D o j := hd.resolve_right hc
        have := hs.measured o j hj hd' hi'
        exact this.later (show Later s s1 from ⟨_, h3⟩)
    · intro o hd hi'
      have hd' : D o 2 := hd.resolve_right (by omega)
      exact (hs.judged o hd' hi').later (show Later s s1 from ⟨_, h3⟩)
  | panic e =>
    rw [M.bind_panic hm]
    intro hg
    obtain ⟨h1, h2, h3⟩ := hg.2.2.2 op hi
    have hr : (opRange cfg op k).1 < 2 ^ 31 ∧ (opRange cfg op k).2 < 2 ^ 31 := by
      have : k = 0 ∨ k = 1 := by omega
      unfold opRange
      rcases this with rfl | rfl <;> simp only [] <;> split <;> constructor <;> dsimp only <;> omega
    obtain ⟨l, hl⟩ := passChunks_fits (n := (cfg.op op).threads) env.profile hr.1 hr.2 h2 h3
    obtain ⟨pr, x, hmeas, hp, -⟩ := hg.2.1.2 s.trace (phaseOf k) op (opRange cfg op k).1 (opRange cfg op k).2 (cfg.op op).threads
    obtain ⟨tx, htx⟩ := fmtOverN_ok env.text env.profile hp 1
    have hrun : runIteratorPass env (phaseOf k) op (opRange cfg op k).1 (opRange cfg op k).2 (cfg.op op).threads s =
        (.ok (pr, x), { s with trace := s.trace ++ [.pass (phaseOf k) op (opRange cfg op k).1 (opRange cfg op k).2 (cfg.op op).threads] }) := by
      unfold runIteratorPass
      rw [hl]; simp only [hmeas]
    unfold runVerbosely at hm
    rw [M.bind_ok hrun] at hm
    have : displaySpacePass env.text env.profile pr.space = .ok tx := htx
    simp only [M.lift_ok_bind this] at hm
    have h5 : ∀ (msg : String) (s2 : CrudSt), (BigO.output msg >>= fun _ => (Pure.pure (pr, x) : M (PassResult × Nat))) s2 =
        (.ok (pr, x), { s2 with report := s2.report ++ msg, trace := s2.trace ++ [.out msg] }) := fun _ _ => rfl
    rw [h5] at hm
    cases hm

/-- the space class exists when readings are plausible -/
theorem opSpace_ok {p1 p2 : PassResult} (h1 : PlausibleReading p1.space) (h2 : PlausibleReading p2.space) (op) :
    ∃ c, opSpace env cfg op p1 p2 = .ok c := by
  cases op <;>
  · unfold opSpace
    simp only [analyseSpaceSetResizing, analyseSpaceConstantSet]
    unfold usizeSub
    rw [if_pos h1.before_le, if_pos h2.before_le]
    exact ⟨_, rfl⟩

theorem MeasuredIn.plausible (hb : BenignCrud env) {tr ph op a b th pr} (h : MeasuredIn env t0 tr ph op a b th pr) :
    PlausibleReading pr.space ∧ PlausibleTime pr.time := by
  obtain ⟨be, af, x, -, hm⟩ := h
  obtain ⟨pr', x', hm', hp⟩ := hb.2 (t0 ++ be) ph op a b th
  rw [hm] at hm'; cases hm'
  exact hp

/-- the verdict, given two measured passes -/
theorem Tr.verdict {α : Type} {D} (op : Op) (hi : (cfg.op op).iters > 0) (h0 : D op 0) (h1 : D op 1)
    (hj : ∀ o, o.rank < op.rank → D o 2) (mk : PassResult → PassResult → α) (s : CrudSt) (hs : Held env cfg t0 D s) :
    CrudOutcome env cfg t0 (addD D op 2)
      (fun v => ∃ an p1 p2, v = some an ∧ opSpace env cfg op p1 p2 = .ok an.space ∧ an.time = opTime env cfg op p1 p2 ∧ an.m = mk p1 p2 ∧
        (∃ tr ph a b th x, env.measure tr ph op a b th = .ok (p1, x)) ∧ (∃ tr ph a b th x, env.measure tr ph op a b th = .ok (p2, x)))
      ((M.lift (opSpace env cfg op (s.res op 0) (s.res op 1)) >>= fun space =>
        yieldAnalysis op (cfg.op op) (mk (s.res op 0) (s.res op 1)) (opTime env cfg op (s.res op 0) (s.res op 1)) space) s) := by
  have m0 := hs.measured op 0 (by norm_num) h0 hi
  have m1 := hs.measured op 1 (by norm_num) h1 hi
  cases hsp : opSpace env cfg op (s.res op 0) (s.res op 1) with
  | error e =>
    intro hg
    obtain ⟨c, hc⟩ := opSpace_ok (env := env) (cfg := cfg) (m0.plausible hg.2.1).1 (m1.plausible hg.2.1).1 op
    rw [hsp] at hc; cases hc
  | ok space =>
    rw [M.lift_ok_bind rfl]
    unfold yieldAnalysis
    split
    · rename_i ht
      refine ⟨op, s.res op 0, s.res op 1, hi, rfl, ⟨?_, ?_⟩, Or.inl ⟨rfl, rfl, ht⟩, fun o ho hi' => ?_⟩
      · exact m0.later (show Later s _ from ⟨[.out _], rfl⟩)
      · exact m1.later (show Later s _ from ⟨[.out _], rfl⟩)
      · exact (hs.judged o (hj o ho) hi').later (show Later s _ from ⟨[.out _], rfl⟩)
    · rename_i ht
      split
      · rename_i hsl
        refine ⟨op, s.res op 0, s.res op 1, hi, rfl, ⟨?_, ?_⟩, Or.inr ⟨rfl, Nat.le_of_not_lt ht, hsp, hsl⟩, fun o ho hi' => ?_⟩
        · exact m0.later (show Later s _ from ⟨[.out _], rfl⟩)
        · exact m1.later (show Later s _ from ⟨[.out _], rfl⟩)
        · exact (hs.judged o (hj o ho) hi').later (show Later s _ from ⟨[.out _], rfl⟩)
      · rename_i hsl
        refine ⟨⟨hs.since, fun o k hk hd hi' => hs.measured o k hk (hd.resolve_right (by omega)) hi', fun o hd hi' => ?_⟩, _, s.res op 0, s.res op 1, rfl, hsp, rfl, rfl, ?_, ?_⟩
        · rcases hd with hd | ⟨rfl, -⟩
          · exact hs.judged o hd hi'
          · exact ⟨_, _, space, ⟨m0, m1⟩, Nat.le_of_not_lt ht, hsp, Nat.le_of_not_lt hsl⟩
        · obtain ⟨_, _, x, -, hm⟩ := m0; exact ⟨_, _, _, _, _, x, hm⟩
        · obtain ⟨_, _, x, -, hm⟩ := m1; exact ⟨_, _, _, _, _, x, hm⟩

/-- what a pass that ends with an analysis tells of it -/
def SaysSR (env : CrudEnv) (cfg : CrudCfg) (op : Op) (v : Option (AnalysisOf SetResizingMeasurements)) : Prop :=
  (cfg.op op).iters > 0 → ∃ an p1 p2, v = some an ∧ opSpace env cfg op p1 p2 = .ok an.space ∧ an.time = opTime env cfg op p1 p2 ∧
    an.m = ⟨op.name, ⟨(cfg.op op).iters⟩, ⟨p1.time, p2.time⟩, ⟨p1.space, p2.space⟩⟩ ∧
    (∃ tr ph a b th x, env.measure tr ph op a b th = .ok (p1, x)) ∧ (∃ tr ph a b th x, env.measure tr ph op a b th = .ok (p2, x))

def SaysCS (env : CrudEnv) (cfg : CrudCfg) (op : Op) (v : Option (AnalysisOf ConstantSetMeasurements)) : Prop :=
  (cfg.op op).iters > 0 → ∃ an p1 p2, v = some an ∧ opSpace env cfg op p1 p2 = .ok an.space ∧ an.time = opTime env cfg op p1 p2 ∧
    an.m = ⟨op.name, ⟨(cfg.op .create).iters, 2 * (cfg.op .create).iters, (cfg.op op).iters⟩, ⟨p1.time, p2.time⟩, ⟨p1.space, p2.space⟩⟩ ∧
    (∃ tr ph a b th x, env.measure tr ph op a b th = .ok (p1, x)) ∧ (∃ tr ph a b th x, env.measure tr ph op a b th = .ok (p2, x))

theorem Held.mono {D D' : Op → Nat → Prop} {s : CrudSt} (h : Held env cfg t0 D s) (hm : ∀ o k, D' o k → (cfg.op o).iters > 0 → D o k) :
    Held env cfg t0 D' s := ⟨h.since, fun o k hk hd hi => h.measured o k hk (hm o k hd hi) hi, fun o hd hi => h.judged o (hm o 2 hd hi) hi⟩

theorem CrudOutcome.mono {α : Type} {D D' : Op → Nat → Prop} {Q Q' : α → Prop} {x} (h : CrudOutcome env cfg t0 D Q x)
    (hm : ∀ o k, D' o k → (cfg.op o).iters > 0 → D o k) (hq : ∀ a, Q a → Q' a) : CrudOutcome env cfg t0 D' Q' x := by
  obtain ⟨r, s⟩ := x
  cases r with
  | ok a => exact ⟨h.1.mono hm, hq a h.2⟩
  | fail e => exact h
  | panic e => exact h

theorem range_cru (hn : NoOverflow cfg) {op : Op} (ho : op ≠ .delete) {k : Nat} (hk : k ≤ 1) :
    cruRange env (cfg.op op).iters k = .ok (opRange cfg op k) := by
  obtain ⟨c1, c2⟩ := cruRange_ok env (hn op).1
  have : k = 0 ∨ k = 1 := by omega
  unfold opRange
  rcases this with rfl | rfl
  · rw [c1, if_neg ho]; simp
  · rw [c2, if_neg ho]; simp

theorem range_d (hn : NoOverflow cfg) {k : Nat} (hk : k ≤ 1) :
    dRange env (cfg.op .delete).iters k = .ok (opRange cfg .delete k) := by
  obtain ⟨c1, c2⟩ := dRange_ok env (hn .delete).1
  have : k = 0 ∨ k = 1 := by omega
  unfold opRange
  rcases this with rfl | rfl
  · rw [c1, if_pos rfl]; simp
  · rw [c2, if_pos rfl]; simp

theorem Tr.setResizing {D : Op → Nat → Prop} (op suff pref rf last k) (hk : k ≤ 1) (hop : op = .create ∨ op = .delete)
    (hrf : rf (cfg.op op).iters k = .ok (opRange cfg op k)) (hl : k = last → D op (1 - k) ∧ ∀ o, o.rank < op.rank → D o 2) :
    Tr env cfg t0 D (addPass D op k last) (setResizingPass env cfg op suff pref rf last k) (fun v => k = last → SaysSR env cfg op v) := by
  unfold setResizingPass
  by_cases hi : (cfg.op op).iters > 0
  · rw [if_pos hi, M.lift_ok_bind hrf]
    refine Tr.pass pref suff op k hk hi _ ?_
    by_cases hkl : k = last
    · rw [if_pos hkl]
      intro s hs
      have d : addD D op k op 0 ∧ addD D op k op 1 := by
        have : k = 0 ∨ k = 1 := by omega
        rcases this with h | h <;> subst h
        · exact ⟨Or.inr ⟨rfl, rfl⟩, Or.inl (hl hkl).1⟩
        · exact ⟨Or.inl (hl hkl).1, Or.inr ⟨rfl, rfl⟩⟩
      have := Tr.verdict op hi d.1 d.2 (fun o ho => Or.inl ((hl hkl).2 o ho)) (fun p1 p2 => (⟨op.name, ⟨(cfg.op op).iters⟩, ⟨p1.time, p2.time⟩, ⟨p1.space, p2.space⟩⟩ : SetResizingMeasurements)) s hs
      have e : ∀ p1 p2, opSpace env cfg op p1 p2 = analyseSpaceSetResizing env.f64 env.profile ⟨(cfg.op op).iters⟩ ⟨p1.space, p2.space⟩ ∧
          opTime env cfg op p1 p2 = analyseTimeSetResizing env.f64 ⟨(cfg.op op).iters⟩ ⟨p1.time, p2.time⟩ := by
        intro p1 p2
        rcases hop with rfl | rfl <;> exact ⟨rfl, rfl⟩
      rw [(e _ _).1, (e _ _).2] at this
      exact CrudOutcome.mono this (fun o j h _ => h.elim Or.inl fun h => Or.inr ⟨h.1, h.2.1⟩) (fun a ha _ _ => ha)
    · rw [if_neg hkl]
      exact fun s hs => ⟨hs.mono (fun o j h _ => h.resolve_right fun h => hkl h.2.2), fun h => absurd h hkl⟩
  · rw [if_neg hi]
    intro s hs
    refine ⟨hs.mono ?_, fun _ h => absurd h hi⟩
    rintro o j ((h | ⟨rfl, rfl⟩) | ⟨rfl, -⟩) hi'
    · exact h
    · exact absurd hi' hi
    · exact absurd hi' hi

theorem Tr.constantSet (hn : NoOverflow cfg) {D : Op → Nat → Prop} (op suff pref k) (hk : k ≤ 1) (hop : op = .read ∨ op = .update)
    (hl : k = 1 → D op 0 ∧ ∀ o, o.rank < op.rank → D o 2) :
    Tr env cfg t0 D (addPass D op k 1) (constantSetPass env cfg op suff pref k) (fun v => k = 1 → SaysCS env cfg op v) := by
  unfold constantSetPass
  by_cases hi : (cfg.op op).iters > 0
  · have ho : op ≠ .delete := by rcases hop with rfl | rfl <;> simp
    rw [if_pos hi, M.lift_ok_bind (range_cru hn ho hk)]
    refine Tr.pass pref suff op k hk hi _ ?_
    by_cases hkl : k = 1
    · subst hkl
      have two : u32Mul env.profile (cfg.op .create).iters 2 = .ok (2 * (cfg.op .create).iters) := by
        have := (hn .create).1
        rw [u32Mul_ok _ (by omega), Nat.mul_comm]
      rw [if_pos rfl, M.lift_ok_bind two]
      intro s hs
      have := Tr.verdict (α := ConstantSetMeasurements) op hi (Or.inl (hl rfl).1) (Or.inr ⟨rfl, rfl⟩) (fun o ho => Or.inl ((hl rfl).2 o ho))
        (fun p1 p2 => (⟨op.name, ⟨(cfg.op .create).iters, 2 * (cfg.op .create).iters, (cfg.op op).iters⟩, ⟨p1.time, p2.time⟩, ⟨p1.space, p2.space⟩⟩)) s hs
      have e : ∀ p1 p2, opSpace env cfg op p1 p2 = analyseSpaceConstantSet env.f64 env.profile ⟨(cfg.op .create).iters, 2 * (cfg.op .create).iters, (cfg.op op).iters⟩ ⟨p1.space, p2.space⟩ ∧
          opTime env cfg op p1 p2 = analyseTimeConstantSet env.f64 ⟨(cfg.op .create).iters, 2 * (cfg.op .create).iters, (cfg.op op).iters⟩ ⟨p1.time, p2.time⟩ := by
        intro p1 p2
        rcases hop with rfl | rfl <;> exact ⟨rfl, rfl⟩
      rw [(e _ _).1, (e _ _).2] at this
      exact CrudOutcome.mono this (fun o j h _ => h.elim Or.inl fun h => Or.inr ⟨h.1, h.2.1⟩) (fun a ha _ _ => ha)
    · rw [if_neg hkl]
      exact fun s hs => ⟨hs.mono (fun o j h _ => h.resolve_right fun h => hkl h.2.2), fun h => absurd h hkl⟩
  · rw [if_neg hi]
    intro s hs
    refine ⟨hs.mono ?_, fun _ h => absurd h hi⟩
    rintro o j ((h | ⟨rfl, rfl⟩) | ⟨rfl, -⟩) hi'
    · exact h
    · exact absurd hi' hi
    · exact absurd hi' hi

theorem Tr.report {α : Type} {D} (c : OpCfg) (a : Option α) (d : α → Rs String)
    (h : c.iters > 0 → ∃ x, a = some x ∧ (Good env cfg → ∃ t, d x = .ok t)) :
    Tr env cfg t0 D D (outputReport c a d) (fun _ => True) := by
  unfold outputReport
  split
  · rename_i hi
    obtain ⟨x, rfl, hx⟩ := h hi
    refine (Tr.lift fun _ => ⟨x, rfl⟩).bind fun y hy => ?_
    cases hy
    exact (Tr.lift hx).bind fun _ _ => Tr.output _
  · exact Tr.pure trivial

theorem SaysSR.report {op : Op} {v} (hs : SaysSR env cfg op v) (hi : (cfg.op op).iters > 0) :
    ∃ x, v = some x ∧ (Good env cfg → ∃ t, reportSetResizing env.f64 env.text env.profile x = .ok t) := by
  obtain ⟨an, p1, p2, h1, h2, h3, h4, ⟨tr, ph, a, b, th, x, hm1⟩, ⟨tr', ph', a', b', th', x', hm2⟩⟩ := hs hi
  refine ⟨an, h1, fun hg => ?_⟩
  obtain ⟨_, _, e1, q1, d1⟩ := hg.2.1.2 tr ph op a b th
  rw [hm1] at e1; cases e1
  obtain ⟨_, _, e2, q2, d2⟩ := hg.2.1.2 tr' ph' op a' b' th'
  rw [hm2] at e2; cases e2
  obtain ⟨at', as, am⟩ := an
  simp only at h4
  subst h4
  exact (C74_no_panic_partial env.f64 hg.1 env.text env.profile ⟨p1.time, p2.time⟩ ⟨p1.space, p2.space⟩ q1 q2 d1 d2 op.name at' as).2.2 _ hi (hg.2.2.1 op).1

theorem SaysCS.report {op : Op} {v} (hs : SaysCS env cfg op v) (hi : (cfg.op op).iters > 0) :
    ∃ x, v = some x ∧ (Good env cfg → ∃ t, reportConstantSet env.f64 env.text env.profile x = .ok t) := by
  obtain ⟨an, p1, p2, h1, h2, h3, h4, ⟨tr, ph, a, b, th, x, hm1⟩, ⟨tr', ph', a', b', th', x', hm2⟩⟩ := hs hi
  refine ⟨an, h1, fun hg => ?_⟩
  obtain ⟨_, _, e1, q1, d1⟩ := hg.2.1.2 tr ph op a b th
  rw [hm1] at e1; cases e1
  obtain ⟨_, _, e2, q2, d2⟩ := hg.2.1.2 tr' ph' op a' b' th'
  rw [hm2] at e2; cases e2
  obtain ⟨at', as, am⟩ := an
  simp only at h4
  subst h4
  have := (hg.2.2.1 op).1
  exact (C74_no_panic_partial env.f64 hg.1 env.text env.profile ⟨p1.time, p2.time⟩ ⟨p1.space, p2.space⟩ q1 q2 d1 d2 op.name at' as).2.1 _ _ _ hi (by omega)

theorem Tr.mono {α : Type} {D D1 D2 : Op → Nat → Prop} {Q Q' : α → Prop} {m : M α} (h : Tr env cfg t0 D D1 m Q)
    (hm : ∀ o k, D2 o k → D1 o k) (hq : ∀ a, Q a → Q' a) : Tr env cfg t0 D D2 m Q' :=
  fun s hs => (h s hs).mono (fun o k hd _ => hm o k hd) hq

theorem Tr.deletePasses (hn : NoOverflow cfg) {D : Op → Nat → Prop} (hD : ∀ o, o.rank < 3 → D o 2) :
    Tr env cfg t0 D D (deletePasses env cfg) (fun _ => True) := by
  unfold BigO.deletePasses BigO.deletePass
  split
  · refine (Tr.output _).bind fun _ _ => (Tr.setResizing .delete _ _ _ _ 1 (by norm_num) (Or.inr rfl) (range_d hn (by norm_num)) (by simp)).bind fun _ _ =>
      (Tr.setResizing .delete _ _ _ _ 0 (by norm_num) (Or.inr rfl) (range_d hn (by norm_num))
        (fun _ => ⟨Or.inl (Or.inr ⟨rfl, rfl⟩), fun o ho => Or.inl (Or.inl (hD o ho))⟩)).bind fun d hd =>
      (Tr.get _).bind fun _ _ => (Tr.output _).bind fun _ _ => (Tr.report _ _ _ (hd rfl).report).bind fun _ _ => ?_
    exact (Tr.pure (Q := fun _ => True) trivial).mono (fun o k h => Or.inl (Or.inl (Or.inl (Or.inl h)))) (fun _ h => h)
  · exact Tr.pure trivial

theorem Tr.body (hn : NoOverflow cfg) : Tr env cfg t0 (fun _ _ => False) (fun _ _ => False) (analyseBody env cfg) (fun _ => True) := by
  unfold analyseBody createPass readPass updatePass
  have keep : ∀ {D : Op → Nat → Prop} {op k last o j}, D o j → addPass D op k last o j := fun h => Or.inl (Or.inl h)
  have new : ∀ {D : Op → Nat → Prop} {op k last}, addPass D op k last op k := Or.inl (Or.inr ⟨rfl, rfl⟩)
  have jud : ∀ {D : Op → Nat → Prop} {op k}, addPass D op k k op 2 := Or.inr ⟨rfl, rfl, rfl⟩
  refine (Tr.output _).bind fun _ _ => Tr.warmup.bind fun _ _ => (Tr.output _).bind fun _ _ =>
    (Tr.setResizing .create _ _ _ _ 0 (by norm_num) (Or.inl rfl) (range_cru hn (by simp) (by norm_num)) (by simp)).bind fun _ _ =>
    (Tr.constantSet hn .read _ _ 0 (by norm_num) (Or.inl rfl) (by simp)).bind fun _ _ =>
    (Tr.constantSet hn .update _ _ 0 (by norm_num) (Or.inr rfl) (by simp)).bind fun _ _ => (Tr.output _).bind fun _ _ =>
    (Tr.setResizing .create _ _ _ _ 1 (by norm_num) (Or.inl rfl) (range_cru hn (by simp) (by norm_num))
      (fun _ => ⟨keep (keep new), fun o ho => (by cases ho)⟩)).bind fun c hc =>
    (Tr.constantSet hn .read _ _ 1 (by norm_num) (Or.inl rfl) (fun _ => ⟨keep (keep new), fun o ho => ?_⟩)).bind fun r hr =>
    (Tr.constantSet hn .update _ _ 1 (by norm_num) (Or.inr rfl) (fun _ => ⟨keep (keep new), fun o ho => ?_⟩)).bind fun u hu =>
    (Tr.output _).bind fun _ _ => (Tr.report _ _ _ (hc rfl).report).bind fun _ _ => (Tr.report _ _ _ (hr rfl).report).bind fun _ _ =>
    (Tr.report _ _ _ (hu rfl).report).bind fun _ _ => (Tr.deletePasses hn fun o ho => ?_).bind fun _ _ => ?_
  · cases o <;> first | exact jud | exact absurd ho (by decide)
  · cases o <;> first | exact keep jud | exact jud | exact absurd ho (by decide)
  · cases o <;> first | exact keep (keep jud) | exact keep jud | exact jud | exact absurd ho (by decide)
  exact (Tr.pure (Q := fun _ => True) trivial).mono (fun o k h => h.elim) (fun _ h => h)

/-- one analysis -/
theorem internalAnalyse_outcome (hn : NoOverflow cfg) (t : List Ev) :
    match internalAnalyse env cfg t with
    | (.ok _, _) => True
    | (.fail e, t') => Blames env cfg t t' e
    | (.panic _, _) => ¬ Good env cfg := by
  have h := Tr.body (env := env) (t0 := t) hn (crudStart t) ⟨⟨[], by simp [crudStart]⟩, fun _ _ _ h => h.elim, fun _ h => h.elim⟩
  unfold internalAnalyse
  show match (match analyseBody env cfg (crudStart t) with
    | (.ok a, s) => ((.ok (a, s.report), s.trace) : Res (CrudAnalyses × String) × List Ev)
    | (.fail e, s) => (.fail e, s.trace)
    | (.panic e, s) => (.panic e, s.trace)) with
    | (.ok _, _) => True
    | (.fail e, t') => Blames env cfg t t' e
    | (.panic _, _) => ¬ Good env cfg
  generalize analyseBody env cfg (crudStart t) = x at h
  obtain ⟨r, s⟩ := x
  cases r with
  | ok a => trivial
  | fail e => exact h
  | panic e => exact h

end
end BigO
