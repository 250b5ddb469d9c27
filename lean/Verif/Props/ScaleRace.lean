import Verif.Props.ScaleHeap

/-!
# C118, continued: data races on the static hash maps
-/
namespace BigO
open F

/-- a state that is reached from the start -/
def ScaleReached (E : FloatEnv) (m : ScaleMem) : Prop := ∃ h acts, (ScaleMem.initial h).run E acts = .ok m

theorem ScaleReached.inv {E : FloatEnv} {m : ScaleMem} (r : ScaleReached E m) : ScaleInv E m := by
  obtain ⟨h, acts, e⟩ := r
  exact ((scale_run acts _ (scaleInv_initial E h)).2 m e).1

theorem scaleRun_append {E : FloatEnv} (l l' : List ScaleAct) : ∀ (m m1 : ScaleMem), m.run E l = .ok m1 → m.run E (l ++ l') = m1.run E l' := by
  induction l with
  | nil => rintro m m1 ⟨⟩; rfl
  | cons x l ih =>
    intro m m1 h
    unfold ScaleMem.run at h
    rw [List.cons_append]
    conv_lhs => unfold ScaleMem.run
    cases e : m.act E x with
    | ok m2 => rw [e] at h; exact ih m2 m1 h
    | cannot => rw [e] at h; cases h
    | undefined => rw [e] at h; cases h

theorem ScaleReached.run {E : FloatEnv} {m m' : ScaleMem} (r : ScaleReached E m) {l : List ScaleAct} (h : m.run E l = .ok m') :
    ScaleReached E m' := by
  obtain ⟨h0, acts, e⟩ := r
  exact ⟨h0, acts ++ l, by rw [scaleRun_append acts l _ _ e, h]⟩

/-- what is noted about races -/
def ScaleMem.ghost (m : ScaleMem) : Prop × (ScaleFn → Nat) × (ScaleFn → Nat → Nat) × (Nat → ScaleFn → Nat) × (Nat → ScaleFn → Nat → Nat) :=
  (m.raced, m.writes, m.reads, m.seenWrites, m.seenReads)

theorem makeRoom_ghost {m : ScaleMem} {f : ScaleFn} {t : Option Nat} {l : List (String × Nat)} {c : ScaleChoice} {m2 : ScaleMem} {a : Nat}
    (h : m.makeRoom f t l c = .ok (m2, a)) : m2.ghost = m.ghost := by
  unfold ScaleMem.makeRoom at h
  split at h
  · cases h; rfl
  · cases h
  · split_ifs at h; cases h; rfl
  · split_ifs at h; cases h; rfl

/-- a call of a known unit only reads; one of a new unit reads and writes -/
theorem call_ghost {E : FloatEnv} {m m' : ScaleMem} (i : ScaleInv E m) {t : Nat} {f : ScaleFn} {v : F} {unit : String} {c : ScaleChoice}
    (h : m.call E t f v unit c = .ok m') :
    ((∃ w a, (f, unit, w, a) ∈ m.given) ∧ m'.ghost = (m.readMap t f).ghost) ∨
    ((∀ w a, (f, unit, w, a) ∉ m.given) ∧ m'.ghost = ((m.readMap t f).writeMap t f).ghost) := by
  have i1 : ScaleInv E (m.readMap t f) := i.agree rfl rfl fun _ _ h _ => h
  have he : (m.readMap t f).entries (((m.readMap t f).map f).getD none) = .ok ((m.readMap t f).tab f) := entries_tab i1 f
  unfold ScaleMem.call at h
  simp only [he] at h
  cases hl : ((m.readMap t f).tab f).lookup unit with
  | some b =>
    rw [hl] at h
    cases h
    obtain ⟨w, hw⟩ := i1.asked f unit b (mem_of_lookup hl)
    exact Or.inl ⟨⟨w, b, hw⟩, rfl⟩
  | none =>
    rw [hl] at h
    dsimp only at h
    refine Or.inr ⟨fun w a hw => lookup_none hl a (i1.given f unit w a hw), ?_⟩
    cases hr : ((m.readMap t f).writeMap t f).makeRoom f (((m.readMap t f).map f).getD none) ((m.readMap t f).tab f) c with
    | cannot => rw [hr] at h; cases h
    | undefined => rw [hr] at h; cases h
    | ok y =>
      obtain ⟨m2, a⟩ := y
      rw [hr] at h
      dsimp only at h
      split_ifs at h
      cases h
      have hm2 := makeRoom_ghost hr
      exact hm2

/-- a measurement of a unit that was measured before can always be made -/
theorem call_known {E : FloatEnv} {m : ScaleMem} (i : ScaleInv E m) (t : Nat) (f : ScaleFn) (v : F) (unit : String) (c : ScaleChoice)
    (h : ∃ w a, (f, unit, w, a) ∈ m.given) : ∃ m', m.call E t f v unit c = .ok m' := by
  have i1 : ScaleInv E (m.readMap t f) := i.agree rfl rfl fun _ _ h _ => h
  have he : (m.readMap t f).entries (((m.readMap t f).map f).getD none) = .ok ((m.readMap t f).tab f) := entries_tab i1 f
  obtain ⟨w, a, hg⟩ := h
  have hl := lookup_of_mem i1 (i1.given f unit w a hg)
  unfold ScaleMem.call
  simp only [he, hl]
  exact ⟨_, rfl⟩

/-- **C118** (it works): a measurement of a unit measured before can always be made; one of a new unit when there is memory for a table and a
buffer. -/
theorem C118_can_go_on (E : FloatEnv) (h : Nat → Option Cell) (acts : List ScaleAct) (m : ScaleMem)
    (hrun : (ScaleMem.initial h).run E acts = .ok m) (t : Nat) (f : ScaleFn) (v : F) (unit : String) :
    (∀ c, (∃ w a, (f, unit, w, a) ∈ m.given) → ∃ m', m.call E t f v unit c = .ok m') ∧
    (∀ a b, m.heap a = none → m.heap b = none → a ≠ b → ∃ m', m.call E t f v unit ⟨true, a, b⟩ = .ok m') := by
  have i : ScaleInv E m := ScaleReached.inv ⟨h, acts, hrun⟩
  refine ⟨fun c hk => call_known i t f v unit c hk, fun a b ha hb hab => ?_⟩
  have i1 : ScaleInv E (m.readMap t f) := i.agree rfl rfl fun _ _ h _ => h
  have he : (m.readMap t f).entries (((m.readMap t f).map f).getD none) = .ok ((m.readMap t f).tab f) := entries_tab i1 f
  unfold ScaleMem.call
  simp only [he]
  cases hl : ((m.readMap t f).tab f).lookup unit with
  | some x => exact ⟨_, rfl⟩
  | none =>
    have ha' : ((m.readMap t f).writeMap t f).heap a = none := ha
    have hb' : ((m.readMap t f).writeMap t f).heap b = none := hb
    dsimp only
    unfold ScaleMem.makeRoom
    cases ho : ((m.readMap t f).map f).getD none with
    | none =>
      dsimp only
      rw [if_neg (by rw [ha']; simp)]
      dsimp only
      rw [if_neg (by simp [ScaleMem.put, Ne.symm hab, hb'])]
      exact ⟨_, rfl⟩
    | some x =>
      dsimp only
      rw [if_neg (by rw [ha']; simp)]
      dsimp only
      rw [if_neg (by
        have : (if b = x then none else if b = a then some (Cell.units ((m.readMap t f).tab f)) else
          ((m.readMap t f).writeMap t f).heap b) = none := by
          rw [if_neg (Ne.symm hab), hb']; simp
        simp only [ScaleMem.put]; rw [this]; simp)]
      exact ⟨_, rfl⟩

/-! ## No race -/

/-- the threads that are ready have seen everything -/
def ReadyInv (ready : Nat → Prop) (m : ScaleMem) : Prop :=
  ¬ m.raced ∧ ∀ t, ready t → ∀ f, m.writes f ≤ m.seenWrites t f ∧ ∀ u, m.reads f u ≤ m.seenReads t f u

theorem ReadyInv.of_ghost {ready : Nat → Prop} {m m' : ScaleMem} (i : ReadyInv ready m) (h : m'.ghost = m.ghost) : ReadyInv ready m' := by
  simp only [ScaleMem.ghost, Prod.mk.injEq] at h
  obtain ⟨h1, h2, h3, h4, h5⟩ := h
  unfold ReadyInv
  rw [h1, h2, h3, h4, h5]
  exact i

theorem ReadyInv.read {ready : Nat → Prop} {m : ScaleMem} (i : ReadyInv ready m) {t : Nat} (ht : ready t) (f : ScaleFn) :
    ReadyInv (fun u => u = t) (m.readMap t f) := by
  obtain ⟨i1, i2⟩ := i
  refine ⟨?_, ?_⟩
  · rintro (h | h)
    · exact i1 h
    · exact absurd (i2 t ht f).1 (by omega)
  · rintro u rfl g
    refine ⟨(i2 u ht g).1, fun x => ?_⟩
    have := (i2 u ht g).2 x
    simp only [ScaleMem.readMap]
    by_cases hg : g = f ∧ x = u
    · rw [if_pos hg, if_pos ⟨trivial, hg.1, hg.2⟩]
    · rw [if_neg hg, if_neg fun e => hg ⟨e.2.1, e.2.2⟩]; exact this

theorem ReadyInv.write {m : ScaleMem} {t : Nat} (i : ReadyInv (fun u => u = t) m) (f : ScaleFn) :
    ReadyInv (fun u => u = t) (m.writeMap t f) := by
  obtain ⟨i1, i2⟩ := i
  refine ⟨?_, ?_⟩
  · rintro (h | h | ⟨x, h⟩)
    · exact i1 h
    · exact absurd (i2 t rfl f).1 (by omega)
    · exact absurd ((i2 t rfl f).2 x) (by omega)
  · rintro u rfl g
    refine ⟨?_, (i2 u rfl g).2⟩
    have := (i2 u rfl g).1
    simp only [ScaleMem.writeMap]
    by_cases hg : g = f
    · rw [if_pos hg, if_pos ⟨trivial, hg⟩]
    · rw [if_neg hg, if_neg fun e => hg e.2]; exact this

theorem ready_run {E : FloatEnv} : ∀ (acts : List ScaleAct) (ready : Nat → Prop) (m m' : ScaleMem), ScaleInv E m → ReadyInv ready m →
    CallsHandedOn ready acts → m.run E acts = .ok m' → ¬ m'.raced := by
  intro acts
  induction acts with
  | nil => rintro ready m m' - i - ⟨⟩; exact i.1
  | cons x l ih =>
    intro ready m m' iv i hc h
    unfold ScaleMem.run at h
    cases hx : m.act E x with
    | cannot => rw [hx] at h; cases h
    | undefined => rw [hx] at h; cases h
    | ok m1 =>
      rw [hx] at h
      have iv1 := ((scale_act iv x).2 m1 hx).1
      cases x with
      | call t f v unit c =>
        obtain ⟨h1, h2⟩ := hc
        refine ih _ m1 m' iv1 ?_ h2 h
        rcases call_ghost iv hx with ⟨-, hg⟩ | ⟨-, hg⟩
        · exact (i.read h1 f).of_ghost hg
        · exact ((i.read h1 f).write f).of_ghost hg
      | alloc a =>
        refine ih ready m1 m' iv1 (i.of_ghost ?_) hc h
        unfold ScaleMem.act at hx
        dsimp only at hx
        split_ifs at hx
        cases hx; rfl
      | free a =>
        refine ih ready m1 m' iv1 (i.of_ghost ?_) hc h
        unfold ScaleMem.act at hx
        dsimp only at hx
        split at hx
        · cases hx; rfl
        · cases hx
      | sync t u =>
        refine ih _ m1 m' iv1 ?_ hc h
        cases hx
        refine ⟨i.1, fun x hx f => ?_⟩
        dsimp only
        rcases hx with hx | ⟨rfl, hu⟩
        · by_cases e : x = t
          · subst e
            exact ⟨by rw [if_pos rfl]; exact le_trans (i.2 x hx f).1 (Nat.le_max_left _ _),
              fun y => by rw [if_pos rfl]; exact le_trans ((i.2 x hx f).2 y) (Nat.le_max_left _ _)⟩
          · exact ⟨by rw [if_neg e]; exact (i.2 x hx f).1, fun y => by rw [if_neg e]; exact (i.2 x hx f).2 y⟩
        · exact ⟨by rw [if_pos rfl]; exact le_trans (i.2 u hu f).1 (Nat.le_max_right _ _),
            fun y => by rw [if_pos rfl]; exact le_trans ((i.2 u hu f).2 y) (Nat.le_max_right _ _)⟩

/-- **C118** (no data race): if the calls are made one after another, each thread synchronising, maybe through others, with the one that made the
call before, there is no data race. -/
theorem C118_no_race (E : FloatEnv) (h : Nat → Option Cell) (acts : List ScaleAct) (m : ScaleMem)
    (hc : CallsHandedOn (fun _ => True) acts) (hrun : (ScaleMem.initial h).run E acts = .ok m) : ¬ m.raced :=
  ready_run acts _ _ m (scaleInv_initial E h)
    ⟨fun e => e, fun _ _ _ => ⟨Nat.le_refl _, fun _ => Nat.le_refl _⟩⟩ hc hrun

/-- the calls of a single thread are made one after another -/
theorem handedOn_single (t : Nat) : ∀ (acts : List ScaleAct) (ready : Nat → Prop), ready t →
    (∀ u f v unit c, ScaleAct.call u f v unit c ∈ acts → u = t) → CallsHandedOn ready acts := by
  intro acts
  induction acts with
  | nil => exact fun _ _ _ => trivial
  | cons x l ih =>
    intro ready hr h
    have hl : ∀ u f v unit c, ScaleAct.call u f v unit c ∈ l → u = t := fun u f v unit c hm => h u f v unit c (List.mem_cons_of_mem _ hm)
    cases x with
    | call u f v unit c =>
      have := h u f v unit c List.mem_cons_self
      subst this
      exact ⟨hr, ih _ rfl hl⟩
    | alloc a => exact ih _ hr hl
    | free a => exact ih _ hr hl
    | sync u w => exact ih _ (Or.inl hr) hl

/-- **C118** (no data race, a single thread): none if all calls are made by one thread, as the comments in the code suppose
(presentable_measurements.rs 123-124 and 156-157). -/
theorem C118_single_thread_no_race (E : FloatEnv) (h : Nat → Option Cell) (acts : List ScaleAct) (m : ScaleMem) (t : Nat)
    (hc : ∀ u f v unit c, ScaleAct.call u f v unit c ∈ acts → u = t) (hrun : (ScaleMem.initial h).run E acts = .ok m) : ¬ m.raced :=
  C118_no_race E h acts m (handedOn_single t acts _ trivial hc) hrun

/-! ## A race -/

/-- nobody has seen more than there was -/
def SeenInv (m : ScaleMem) : Prop := ∀ t f, m.seenWrites t f ≤ m.writes f ∧ ∀ u, m.seenReads t f u ≤ m.reads f u

theorem SeenInv.of_ghost {m m' : ScaleMem} (i : SeenInv m) (h : m'.ghost = m.ghost) : SeenInv m' := by
  simp only [ScaleMem.ghost, Prod.mk.injEq] at h
  obtain ⟨h1, h2, h3, h4, h5⟩ := h
  unfold SeenInv
  rw [h2, h3, h4, h5]
  exact i

theorem SeenInv.read {m : ScaleMem} (i : SeenInv m) (t : Nat) (f : ScaleFn) : SeenInv (m.readMap t f) := by
  intro u g
  refine ⟨(i u g).1, fun x => ?_⟩
  have := (i u g).2 x
  simp only [ScaleMem.readMap]
  split_ifs with h1 h2 h2
  · exact Nat.le_refl _
  · exact absurd ⟨h1.2.1, h1.2.2⟩ h2
  · obtain ⟨rfl, rfl⟩ := h2; omega
  · exact this

theorem SeenInv.write {m : ScaleMem} (i : SeenInv m) (t : Nat) (f : ScaleFn) : SeenInv (m.writeMap t f) := by
  intro u g
  refine ⟨?_, (i u g).2⟩
  have := (i u g).1
  simp only [ScaleMem.writeMap]
  split_ifs with h1 h2 h2
  · exact Nat.le_refl _
  · exact absurd h1.2 h2
  · subst h2; omega
  · exact this

/-- what a step does to the ghosts -/
theorem act_ghost {E : FloatEnv} {m m' : ScaleMem} (i : ScaleInv E m) (x : ScaleAct) (h : m.act E x = .ok m') :
    m'.ghost = m.ghost ∨ (∃ t f v unit c, x = .call t f v unit c ∧
      (m'.ghost = (m.readMap t f).ghost ∨ m'.ghost = ((m.readMap t f).writeMap t f).ghost)) ∨
    (∃ t u, x = .sync t u ∧ m'.ghost = (m.raced, m.writes, m.reads,
      (fun x f => if x = t then Nat.max (m.seenWrites t f) (m.seenWrites u f) else m.seenWrites x f),
      (fun x f y => if x = t then Nat.max (m.seenReads t f y) (m.seenReads u f y) else m.seenReads x f y))) := by
  cases x with
  | call t f v unit c =>
    refine Or.inr (Or.inl ⟨t, f, v, unit, c, rfl, ?_⟩)
    rcases call_ghost i h with ⟨-, hg⟩ | ⟨-, hg⟩
    · exact Or.inl hg
    · exact Or.inr hg
  | alloc a =>
    unfold ScaleMem.act at h
    dsimp only at h
    split_ifs at h
    cases h; exact Or.inl rfl
  | free a =>
    unfold ScaleMem.act at h
    dsimp only at h
    split at h
    · cases h; exact Or.inl rfl
    · cases h
  | sync t u => cases h; exact Or.inr (Or.inr ⟨t, u, rfl, rfl⟩)

theorem seen_act {E : FloatEnv} {m m' : ScaleMem} (i : ScaleInv E m) (s : SeenInv m) (x : ScaleAct) (h : m.act E x = .ok m') : SeenInv m' := by
  rcases act_ghost i x h with hg | ⟨t, f, v, unit, c, -, hg | hg⟩ | ⟨t, u, -, hg⟩
  · exact s.of_ghost hg
  · exact (s.read t f).of_ghost hg
  · exact ((s.read t f).write t f).of_ghost hg
  · simp only [ScaleMem.ghost, Prod.mk.injEq] at hg
    obtain ⟨h1, h2, h3, h4, h5⟩ := hg
    unfold SeenInv
    rw [h2, h3, h4, h5]
    intro x f
    dsimp only
    split_ifs with e
    · exact ⟨Nat.max_le.2 ⟨(s t f).1, (s u f).1⟩, fun y => Nat.max_le.2 ⟨(s t f).2 y, (s u f).2 y⟩⟩
    · exact s x f

theorem seen_run {E : FloatEnv} : ∀ (acts : List ScaleAct) (m m' : ScaleMem), ScaleInv E m → SeenInv m → m.run E acts = .ok m' → SeenInv m' := by
  intro acts
  induction acts with
  | nil => rintro m m' - s ⟨⟩; exact s
  | cons x l ih =>
    intro m m' i s h
    unfold ScaleMem.run at h
    cases hx : m.act E x with
    | cannot => rw [hx] at h; cases h
    | undefined => rw [hx] at h; cases h
    | ok m1 => rw [hx] at h; exact ih m1 m' ((scale_act i x).2 m1 hx).1 (seen_act i s x hx) h

theorem ScaleReached.seen {E : FloatEnv} {m : ScaleMem} (r : ScaleReached E m) : SeenInv m := by
  obtain ⟨h, acts, e⟩ := r
  exact seen_run acts _ m (scaleInv_initial E h) (fun _ _ => ⟨Nat.le_refl _, fun _ => Nat.le_refl _⟩) e

/-- thread `u` has not seen the last write of `f`, or there was a race already -/
def MissedWrite (u : Nat) (f : ScaleFn) (m : ScaleMem) : Prop := m.raced ∨ m.seenWrites u f < m.writes f

/-- thread `u` has not seen the last read of `f` by `t`, or there was a race already -/
def MissedRead (u : Nat) (f : ScaleFn) (t : Nat) (m : ScaleMem) : Prop := m.raced ∨ m.seenReads u f t < m.reads f t

theorem ghost_parts {m m' : ScaleMem} (h : m'.ghost = m.ghost) :
    m'.raced = m.raced ∧ m'.writes = m.writes ∧ m'.reads = m.reads ∧ m'.seenWrites = m.seenWrites ∧ m'.seenReads = m.seenReads := by
  simpa only [ScaleMem.ghost, Prod.mk.injEq] using h

theorem missedWrite_read {u : Nat} {f : ScaleFn} {m : ScaleMem} (h : MissedWrite u f m) (t : Nat) (g : ScaleFn) :
    MissedWrite u f (m.readMap t g) := by
  rcases h with h | h
  · exact Or.inl (Or.inl h)
  · exact Or.inr h

theorem missedWrite_write {u : Nat} {f : ScaleFn} {m : ScaleMem} (h : MissedWrite u f m) (t : Nat) (g : ScaleFn) :
    MissedWrite u f (m.writeMap t g) := by
  rcases h with h | h
  · exact Or.inl (Or.inl h)
  · by_cases e : g = f
    · subst e
      by_cases e' : t = u
      · subst e'; exact Or.inl (Or.inr (Or.inl h))
      · refine Or.inr ?_
        simp only [ScaleMem.writeMap]
        rw [if_neg fun e => e' e.1.symm, if_pos trivial]; omega
    · refine Or.inr ?_
      simp only [ScaleMem.writeMap]
      rw [if_neg fun e1 => e e1.2.symm, if_neg fun e1 => e e1.symm]; exact h

theorem missedRead_read {u t : Nat} {f : ScaleFn} {m : ScaleMem} (hne : u ≠ t) (h : MissedRead u f t m) (x : Nat) (g : ScaleFn) :
    MissedRead u f t (m.readMap x g) := by
  rcases h with h | h
  · exact Or.inl (Or.inl h)
  · refine Or.inr ?_
    simp only [ScaleMem.readMap]
    split_ifs with h1 h2 h2
    · exact absurd (h1.1.trans h1.2.2.symm) hne
    · exact absurd (h1.1.trans h1.2.2.symm) hne
    · obtain ⟨rfl, rfl⟩ := h2; omega
    · exact h

theorem missedRead_write {u t : Nat} {f : ScaleFn} {m : ScaleMem} (h : MissedRead u f t m) (x : Nat) (g : ScaleFn) :
    MissedRead u f t (m.writeMap x g) := by
  rcases h with h | h
  · exact Or.inl (Or.inl h)
  · exact Or.inr h

theorem missed_run {E : FloatEnv} {u t : Nat} (f : ScaleFn) (hne : u ≠ t) : ∀ (acts : List ScaleAct) (m m' : ScaleMem), ScaleInv E m →
    (∀ x, ScaleAct.sync u x ∉ acts) → m.run E acts = .ok m' →
    (MissedWrite u f m → MissedWrite u f m') ∧ (MissedRead u f t m → MissedRead u f t m') := by
  intro acts
  induction acts with
  | nil => rintro m m' - - ⟨⟩; exact ⟨id, id⟩
  | cons x l ih =>
    intro m m' i hs h
    unfold ScaleMem.run at h
    cases hx : m.act E x with
    | cannot => rw [hx] at h; cases h
    | undefined => rw [hx] at h; cases h
    | ok m1 =>
      rw [hx] at h
      obtain ⟨j1, j2⟩ := ih m1 m' ((scale_act i x).2 m1 hx).1 (fun y hy => hs y (List.mem_cons_of_mem _ hy)) h
      have key : (MissedWrite u f m → MissedWrite u f m1) ∧ (MissedRead u f t m → MissedRead u f t m1) := by
        have ofg : ∀ {a b : ScaleMem}, a.ghost = b.ghost → (MissedWrite u f b → MissedWrite u f a) ∧ (MissedRead u f t b → MissedRead u f t a) := by
          intro a b e
          obtain ⟨h1, h2, h3, h4, h5⟩ := ghost_parts e
          unfold MissedWrite MissedRead
          rw [h1, h2, h3, h4, h5]
          exact ⟨id, id⟩
        rcases act_ghost i x hx with hg | ⟨t', f', v, unit, c, -, hg | hg⟩ | ⟨t', u', e, hg⟩
        · exact ofg hg
        · exact ⟨fun k => (ofg hg).1 (missedWrite_read k _ _), fun k => (ofg hg).2 (missedRead_read hne k _ _)⟩
        · exact ⟨fun k => (ofg hg).1 (missedWrite_write (missedWrite_read k _ _) _ _),
            fun k => (ofg hg).2 (missedRead_write (missedRead_read hne k _ _) _ _)⟩
        · have hu : u ≠ t' := by rintro rfl; exact hs u' (by rw [e]; exact List.mem_cons_self)
          simp only [ScaleMem.ghost, Prod.mk.injEq] at hg
          obtain ⟨h1, h2, h3, h4, h5⟩ := hg
          unfold MissedWrite MissedRead
          rw [h1, h2, h3, h4, h5]
          dsimp only
          rw [if_neg hu, if_neg hu]
          exact ⟨id, id⟩
      exact ⟨fun k => j1 (key.1 k), fun k => j2 (key.2 k)⟩

/-- **C118** (a data race): nothing in the code ensures that a single thread calls these functions. If two threads call the same one, the second
not having synchronised with any thread in between, it is a data race as soon as the unit is new in one of the two calls: undefined behaviour. -/
theorem C118_race (E : FloatEnv) (h : Nat → Option Cell) (before between : List ScaleAct) (m m1 m2 m3 : ScaleMem) (t u : Nat) (htu : t ≠ u)
    (f : ScaleFn) (v v' : F) (unit unit' : String) (c c' : ScaleChoice) (h0 : (ScaleMem.initial h).run E before = .ok m)
    (h1 : m.call E t f v unit c = .ok m1) (h2 : m1.run E between = .ok m2) (h3 : m2.call E u f v' unit' c' = .ok m3)
    (hsync : ∀ x, ScaleAct.sync u x ∉ between)
    (hnew : (∀ w a, (f, unit, w, a) ∉ m.given) ∨ (∀ w a, (f, unit', w, a) ∉ m2.given)) : m3.raced := by
  have r : ScaleReached E m := ⟨h, before, h0⟩
  have r1 : ScaleReached E m1 := r.run (l := [.call t f v unit c]) (by simp [ScaleMem.run, ScaleMem.act, h1])
  have r2 : ScaleReached E m2 := r1.run h2
  have hm := missed_run f (Ne.symm htu) between m1 m2 r1.inv hsync h2
  rcases hnew with hnew | hnew
  · have k1 : MissedWrite u f m1 := by
      rcases call_ghost r.inv h1 with ⟨⟨w, a, hk⟩, -⟩ | ⟨-, hg⟩
      · exact absurd hk (hnew w a)
      · obtain ⟨-, e2, -, e4, -⟩ := ghost_parts hg
        refine Or.inr ?_
        rw [e2, e4]
        have := (r.seen u f).1
        simp only [ScaleMem.writeMap, ScaleMem.readMap]
        rw [if_neg fun e => htu e.1.symm, if_pos trivial]
        omega
    have k2 := hm.1 k1
    have k3 : ∀ x : ScaleMem, MissedWrite u f x → (x.readMap u f).raced := by
      rintro x (k | k)
      · exact Or.inl k
      · exact Or.inr k
    rcases call_ghost r2.inv h3 with ⟨-, hg⟩ | ⟨-, hg⟩
    · rw [(ghost_parts hg).1]; exact k3 _ k2
    · rw [(ghost_parts hg).1]; exact Or.inl (k3 _ k2)
  · have k1 : MissedRead u f t m1 := by
      have := (r.seen u f).2 t
      have k : (m.readMap t f).seenReads u f t < (m.readMap t f).reads f t := by
        simp only [ScaleMem.readMap]
        rw [if_neg fun e => htu e.1.symm, if_pos ⟨trivial, trivial⟩]
        omega
      rcases call_ghost r.inv h1 with ⟨-, hg⟩ | ⟨-, hg⟩
      · obtain ⟨-, -, e3, -, e5⟩ := ghost_parts hg
        refine Or.inr ?_
        rw [e3, e5]
        exact k
      · obtain ⟨-, -, e3, -, e5⟩ := ghost_parts hg
        refine Or.inr ?_
        rw [e3, e5]
        exact k
    have k2 := missedRead_read (Ne.symm htu) (hm.2 k1) u f
    rcases call_ghost r2.inv h3 with ⟨⟨w, a, hk⟩, -⟩ | ⟨-, hg⟩
    · exact absurd hk (hnew w a)
    · rw [(ghost_parts hg).1]
      rcases k2 with k2 | k2
      · exact Or.inl k2
      · exact Or.inr (Or.inr ⟨t, k2⟩)

/-! ## Units that were measured before -/

theorem known_run {E : FloatEnv} (m0 : ScaleMem) (who : Nat → Prop) : ∀ (acts : List ScaleAct) (m m' : ScaleMem), ScaleInv E m → (∀ x, x ∈ m0.given → x ∈ m.given) →
    (¬ m.raced ∧ ∀ t, who t → ∀ f, m.writes f ≤ m.seenWrites t f) → (∀ t f v unit c, ScaleAct.call t f v unit c ∈ acts → who t) →
    KnownUnits m0 acts → m.run E acts = .ok m' → ¬ m'.raced := by
  intro acts
  induction acts with
  | nil => rintro m m' - - k - - ⟨⟩; exact k.1
  | cons x l ih =>
    intro m m' i hg k hw hk h
    have hwl : ∀ t f v unit c, ScaleAct.call t f v unit c ∈ l → who t := fun t f v unit c hm => hw t f v unit c (List.mem_cons_of_mem _ hm)
    unfold ScaleMem.run at h
    cases hx : m.act E x with
    | cannot => rw [hx] at h; cases h
    | undefined => rw [hx] at h; cases h
    | ok m1 =>
      rw [hx] at h
      have i1 := ((scale_act i x).2 m1 hx).1
      cases x with
      | call t f v unit c =>
        obtain ⟨⟨w, a, hwa⟩, hk⟩ := hk
        obtain ⟨b, hgiven⟩ := (call_inv i t f v unit c).2 m1 hx |>.2
        refine ih m1 m' i1 (fun x hx => by rw [hgiven]; exact List.mem_append_left _ (hg x hx)) ?_ hwl hk h
        rcases call_ghost i hx with ⟨-, e⟩ | ⟨e, -⟩
        · obtain ⟨e1, e2, -, e4, -⟩ := ghost_parts e
          rw [e1, e2, e4]
          refine ⟨?_, k.2⟩
          rintro (h | h)
          · exact k.1 h
          · exact absurd (k.2 t (hw t f v unit c List.mem_cons_self) f) (by omega)
        · exact absurd (hg _ hwa) (e w a)
      | alloc a =>
        unfold ScaleMem.act at hx
        dsimp only at hx
        split_ifs at hx
        cases hx
        exact ih _ m' i1 hg k hwl hk h
      | free a =>
        unfold ScaleMem.act at hx
        dsimp only at hx
        split at hx
        · cases hx; exact ih _ m' i1 hg k hwl hk h
        · cases hx
      | sync t u =>
        cases hx
        refine ih _ m' i1 hg ⟨k.1, fun y hy f => ?_⟩ hwl hk h
        dsimp only
        split_ifs with e
        · subst e; exact le_trans (k.2 y hy f) (Nat.le_max_left _ _)
        · exact k.2 y hy f

/-- **C118** (what is safe): once all units were measured and the threads have seen that, each may measure them, in any order and without
synchronising with the others. -/
theorem C118_known_units_never_race (E : FloatEnv) (h : Nat → Option Cell) (before acts : List ScaleAct) (m m' : ScaleMem)
    (h0 : (ScaleMem.initial h).run E before = .ok m) (hraced : ¬ m.raced)
    (hseen : ∀ t f v unit c, ScaleAct.call t f v unit c ∈ acts → ∀ g, m.writes g ≤ m.seenWrites t g)
    (hk : KnownUnits m acts) (hrun : m.run E acts = .ok m') : ¬ m'.raced :=
  known_run m (fun t => ∀ g, m.writes g ≤ m.seenWrites t g) acts m m' (ScaleReached.inv ⟨h, before, h0⟩) (fun _ h => h)
    ⟨hraced, fun _ h => h⟩ hseen hk hrun

/-! ## Cases -/

/-- two units; for the second, the map moves, and its vector is put where the table was -/
def scaleDemo (v : F) : List ScaleAct :=
  [.call 0 .custom v "req" ⟨true, 10, 11⟩, .alloc 20, .call 0 .custom v "msg" ⟨true, 12, 10⟩, .free 20,
   .call 0 .perSecond v "req" ⟨true, 20, 21⟩, .call 0 .custom v "req" ⟨false, 0, 0⟩]

/-- where the vectors are after it: those of the first and the last call are the same, and those of the second are where the first table was -/
example (E : FloatEnv) (v : F) : ∃ m, (ScaleMem.initial fun _ => none).run E (scaleDemo v) = .ok m ∧
    m.given = [(.custom, "req", v, 11), (.custom, "msg", v, 10), (.perSecond, "req", v, 21), (.custom, "req", v, 11)] ∧
    m.find v 11 = .ok ⟨v, customTable "req"⟩ ∧ m.find v 10 = .ok ⟨v, customTable "msg"⟩ ∧ ¬ m.raced := by
  refine ⟨_, rfl, ?_, ?_, ?_, ?_⟩
  · rfl
  · rfl
  · rfl
  · exact C118_single_thread_no_race E (fun _ => none) (scaleDemo v) _ 0 (by
      simp [scaleDemo]
      rintro u f w unit c (h | h | h | h) <;> exact h.1) rfl

/-- two threads, the second having synchronised with the first: no race -/
example (E : FloatEnv) (v : F) : CallsHandedOn (fun _ => True)
      [.call 0 .custom v "req" ⟨true, 10, 11⟩, .sync 1 0, .call 1 .custom v "msg" ⟨true, 12, 13⟩] ∧
    ∃ m, (ScaleMem.initial fun _ => none).run E
      [.call 0 .custom v "req" ⟨true, 10, 11⟩, .sync 1 0, .call 1 .custom v "msg" ⟨true, 12, 13⟩] = .ok m ∧ ¬ m.raced := by
  have hc : CallsHandedOn (fun _ => True)
      [.call 0 .custom v "req" ⟨true, 10, 11⟩, .sync 1 0, .call 1 .custom v "msg" ⟨true, 12, 13⟩] := by simp [CallsHandedOn]
  exact ⟨hc, _, rfl, C118_no_race E (fun _ => none) _ _ hc rfl⟩

/-- two threads that have not, as two tests of a project may: a race -/
example (E : FloatEnv) (v : F) : ∃ m, (ScaleMem.initial fun _ => none).run E
    [.call 0 .custom v "req" ⟨true, 10, 11⟩, .call 1 .custom v "msg" ⟨false, 0, 13⟩] = .ok m ∧ m.raced := by
  refine ⟨_, rfl, ?_⟩
  exact C118_race E (fun _ => none) [] [] (.initial fun _ => none) _ _ _ 0 1 (by decide) .custom v v "req" "msg" ⟨true, 10, 11⟩ ⟨false, 0, 13⟩
    rfl rfl rfl rfl (by simp) (Or.inl (by simp [ScaleMem.initial]))

/-- known units: two threads that both know of a unit, then do not synchronise -/
example (E : FloatEnv) (v : F) : ∃ m m', (ScaleMem.initial fun _ => none).run E [.call 0 .custom v "req" ⟨true, 10, 11⟩, .sync 1 0] = .ok m ∧
    m.run E [.call 1 .custom v "req" ⟨false, 0, 0⟩, .call 0 .custom v "req" ⟨false, 0, 0⟩, .call 1 .custom v "req" ⟨false, 0, 0⟩] = .ok m' ∧
    ¬ m'.raced := by
  refine ⟨_, _, rfl, rfl, ?_⟩
  have h0 := C118_no_race E (fun _ => none) [.call 0 .custom v "req" ⟨true, 10, 11⟩, .sync 1 0] _ (by simp [CallsHandedOn]) rfl
  refine C118_known_units_never_race E (fun _ => none) [.call 0 .custom v "req" ⟨true, 10, 11⟩, .sync 1 0]
    [.call 1 .custom v "req" ⟨false, 0, 0⟩, .call 0 .custom v "req" ⟨false, 0, 0⟩, .call 1 .custom v "req" ⟨false, 0, 0⟩] _ _ rfl h0 ?_ ?_ rfl
  · intro t f w unit c hm g
    have : t = 0 ∨ t = 1 := by
      simp only [List.mem_cons, ScaleAct.call.injEq, List.not_mem_nil, or_false] at hm
      rcases hm with hm | hm | hm <;> simp [hm.1]
    rcases this with rfl | rfl <;> cases g <;> exact Nat.le_of_ble_eq_true rfl
  · exact ⟨⟨v, 11, List.mem_cons_self⟩, ⟨v, 11, List.mem_cons_self⟩, ⟨v, 11, List.mem_cons_self⟩, trivial⟩

end BigO
