import Verif.Spec.PassPanicSpec
import Verif.Proofs.Pass

/-! # Invariants of a pass whose closure may panic -/
namespace BigO

/-- the value computed from the first `j` threads -/
def joined (r0 : Nat) (ths : List GTh) (j : Nat) : Nat := (ths.take j).foldl (fun r th => r ^^^ th.acc) r0

/-- why the pass panics -/
def PanicReason (p : Profile) (ty : AlgoType) (start stop : Nat) (s : GPass) (e : Panic) : Prop :=
  (e = closurePanic ty start stop ∧ ∃ th ∈ s.threads, th.dead = true) ∨ u32Add p start 1 = .error e

/-- what the thread that runs the pass knows -/
def MainInv (p : Profile) (ty : AlgoType) (start stop : Nat) (s : GPass) : Prop :=
  match s.main with
  | .joining j r => ∃ r0, u32Add p start 1 = .ok r0 ∧ j ≤ s.threads.length ∧
      (∀ th ∈ s.threads.take j, th.todo = [] ∧ th.dead = false) ∧ r = joined r0 s.threads j
  | .unwinding e => PanicReason p ty start stop s e
  | .ended (.ok r) => ∃ r0, u32Add p start 1 = .ok r0 ∧ (∀ th ∈ s.threads, th.todo = [] ∧ th.dead = false) ∧
      r = joined r0 s.threads s.threads.length
  | .ended (.error e) => (∀ th ∈ s.threads, th.Finished) ∧ PanicReason p ty start stop s e

structure GInv (chunks : List (Nat × Nat)) (s : GPass) : Prop where
  len : s.threads.length = chunks.length
  each : ∀ (t : Nat) (c : Nat × Nat) (th : GTh), chunks[t]? = some c → s.threads[t]? = some th →
    argsOf s t ++ th.todo = threadElems c.1 c.2
  dead : ∀ (t : Nat) (th : GTh), s.threads[t]? = some th → th.dead = true →
    ∃ pre c, threadCalls s t = pre ++ [c] ∧ c.panicked = true ∧ ∀ c ∈ pre, c.panicked = false
  alive : ∀ (t : Nat) (th : GTh), s.threads[t]? = some th → th.dead = false → ∀ c ∈ threadCalls s t, c.panicked = false
  all : ((s.calls.map PCall.arg) ++ (s.threads.map GTh.todo).flatten).Perm ((chunks.map fun c => threadElems c.1 c.2).flatten)
  tids : ∀ c ∈ s.calls, c.thread < chunks.length

section
variable {p : Profile} {ty : AlgoType} {start stop : Nat}

theorem gInv_start (chunks : List (Nat × Nat)) : GInv chunks (GPass.start p start chunks) := by
  refine ⟨by simp [GPass.start], ?_, ?_, ?_, ?_, by simp [GPass.start]⟩
  · intro t c th hc hth
    simp only [GPass.start, List.getElem?_map, hc, Option.map_some, Option.some.injEq] at hth
    subst hth
    simp [argsOf, threadCalls, GPass.start]
  · intro t th hth hd
    simp only [GPass.start, List.getElem?_map, Option.map_eq_some_iff] at hth
    obtain ⟨c, -, rfl⟩ := hth
    simp at hd
  · intro t th hth hd
    simp [threadCalls, GPass.start]
  · simp only [GPass.start, List.map_nil, List.nil_append, List.map_map]
    exact List.Perm.refl _

theorem gInv_call {chunks : List (Nat × Nat)} {s : GPass} (h : GInv chunks s) {t e acc acc' : Nat} {es : List Nat} {b : Bool}
    (hth : s.threads[t]? = some ⟨e :: es, acc, false⟩) (m : MainSt) :
    GInv chunks ⟨s.threads.set t ⟨es, acc', b⟩, s.calls ++ [⟨t, e, b⟩], m⟩ := by
  have htlt : t < s.threads.length := by
    rcases Nat.lt_or_ge t s.threads.length with h1 | h1
    · exact h1
    · rw [List.getElem?_eq_none h1] at hth; simp at hth
  refine ⟨by simpa using h.len, ?_, ?_, ?_, ?_, ?_⟩
  · intro u c th hc hu
    by_cases hut : u = t
    · subst hut
      simp only [List.getElem?_set_self htlt, Option.some.injEq] at hu
      subst hu
      have := h.each u c _ hc hth
      simpa [argsOf, threadCalls] using this
    · simp only [List.getElem?_set_ne (Ne.symm hut)] at hu
      have := h.each u c th hc hu
      simpa [argsOf, threadCalls, Ne.symm hut] using this
  · intro u th hu hd
    by_cases hut : u = t
    · subst hut
      simp only [List.getElem?_set_self htlt, Option.some.injEq] at hu
      subst hu
      refine ⟨threadCalls s u, ⟨u, e, b⟩, ?_, hd, h.alive u _ hth rfl⟩
      simp [threadCalls]
    · simp only [List.getElem?_set_ne (Ne.symm hut)] at hu
      have := h.dead u th hu hd
      simpa [threadCalls, Ne.symm hut] using this
  · intro u th hu hd
    by_cases hut : u = t
    · subst hut
      simp only [List.getElem?_set_self htlt, Option.some.injEq] at hu
      subst hu
      intro c hc
      simp only [threadCalls, List.filter_append, List.mem_append] at hc
      rcases hc with hc | hc
      · exact h.alive u _ hth rfl c hc
      · simp at hc; subst hc; exact hd
    · simp only [List.getElem?_set_ne (Ne.symm hut)] at hu
      have := h.alive u th hu hd
      simpa [threadCalls, Ne.symm hut] using this
  · refine List.Perm.trans ?_ h.all
    simp only [List.map_append, List.map_cons, List.map_nil, List.append_assoc, List.map_set]
    apply List.Perm.append_left
    have : (s.threads.map GTh.todo)[t]? = some (e :: es) := by rw [List.getElem?_map, hth]; rfl
    exact (flatten_set_perm this).symm
  · intro c hc
    simp only [List.mem_append, List.mem_singleton] at hc
    rcases hc with hc | rfl
    · exact h.tids c hc
    · rw [← h.len]; exact htlt

theorem gInv_main {chunks : List (Nat × Nat)} {s : GPass} (h : GInv chunks s) (m : MainSt) : GInv chunks { s with main := m } :=
  ⟨h.len, h.each, h.dead, h.alive, h.all, h.tids⟩

theorem stepMain_same (s : GPass) : ∃ m, s.stepMain ty start stop = { s with main := m } := by
  unfold GPass.stepMain
  split
  · split
    · exact ⟨_, rfl⟩
    · split
      · exact ⟨_, rfl⟩
      · split
        · exact ⟨_, rfl⟩
        · exact ⟨s.main, rfl⟩
  · split
    · exact ⟨_, rfl⟩
    · exact ⟨s.main, rfl⟩
  · exact ⟨s.main, rfl⟩

theorem gInv_step (f) {chunks : List (Nat × Nat)} {s : GPass} (h : GInv chunks s) (a : GAct) :
    GInv chunks (s.step ty start stop f a) := by
  cases a with
  | main =>
    obtain ⟨m, hm⟩ := stepMain_same (ty := ty) (start := start) (stop := stop) s
    show GInv chunks (s.stepMain ty start stop)
    rw [hm]; exact gInv_main h m
  | thread t =>
    show GInv chunks (s.stepThread f t)
    unfold GPass.stepThread
    split
    · rename_i e es acc hth
      split
      · exact gInv_call h hth _
      · exact gInv_call h hth _
    · exact h

theorem run_append_gpass (f) (s : GPass) (l : List GAct) (a : GAct) :
    s.run ty start stop f (l ++ [a]) = (s.run ty start stop f l).step ty start stop f a := by
  simp [GPass.run, List.foldl_append]

theorem gInv_run (f) (chunks : List (Nat × Nat)) (sched : List GAct) :
    GInv chunks ((GPass.start p start chunks).run ty start stop f sched) := by
  induction sched using List.reverseRecOn with
  | nil => exact gInv_start chunks
  | append_singleton l t ih => rw [run_append_gpass]; exact gInv_step f ih t

/-! ### the joining thread -/

theorem take_set_of_busy {l : List GTh} {t j e acc : Nat} {es : List Nat} {x : GTh} (hth : l[t]? = some ⟨e :: es, acc, false⟩)
    (h : ∀ th ∈ l.take j, th.todo = [] ∧ th.dead = false) : (l.set t x).take j = l.take j := by
  by_cases htj : t < j
  · exfalso
    have : (l.take j)[t]? = some ⟨e :: es, acc, false⟩ := by rw [List.getElem?_take_of_lt htj, hth]
    have := h _ (List.mem_of_getElem? this)
    simp at this
  · rw [List.take_set, List.set_eq_of_length_le]
    rw [List.length_take]; omega

theorem mainInv_call {s : GPass} (h : MainInv p ty start stop s) {t e acc : Nat} {es : List Nat} {x : GTh} {cs : List PCall}
    (hth : s.threads[t]? = some ⟨e :: es, acc, false⟩) : MainInv p ty start stop ⟨s.threads.set t x, cs, s.main⟩ := by
  have htlt : t < s.threads.length := by
    rcases Nat.lt_or_ge t s.threads.length with h1 | h1
    · exact h1
    · rw [List.getElem?_eq_none h1] at hth; simp at hth
  have reason : ∀ e', PanicReason p ty start stop s e' → PanicReason p ty start stop ⟨s.threads.set t x, cs, s.main⟩ e' := by
    rintro e' (⟨he, th, hth', hd⟩ | he)
    · refine Or.inl ⟨he, th, ?_, hd⟩
      obtain ⟨i, hi, rfl⟩ := List.getElem_of_mem hth'
      have hit : i ≠ t := by
        rintro rfl
        rw [List.getElem?_eq_getElem hi] at hth
        injection hth with hth
        rw [hth] at hd
        simp at hd
      refine List.mem_of_getElem? (i := i) ?_
      show (s.threads.set t x)[i]? = _
      rw [List.getElem?_set_ne (Ne.symm hit), List.getElem?_eq_getElem hi]
    · exact Or.inr he
  unfold MainInv at h ⊢
  simp only
  cases hm : s.main with
  | joining j r =>
    rw [hm] at h
    obtain ⟨r0, h0, h1, h2, h3⟩ := h
    have ht := take_set_of_busy (x := x) hth h2
    refine ⟨r0, h0, by simpa using h1, ?_, ?_⟩
    · rw [ht]; exact h2
    · rw [h3]; unfold joined; rw [ht]
  | unwinding e' => rw [hm] at h; simp only at h ⊢; have := reason e' h; rwa [hm] at this
  | ended out =>
    rw [hm] at h
    have hmem := List.mem_of_getElem? hth
    cases out with
    | ok r =>
      obtain ⟨r0, h0, h1, h2⟩ := h
      have := h1 _ hmem
      simp at this
    | error e' =>
      simp only at h
      have := h.1 _ hmem
      simp [GTh.Finished] at this

theorem mainInv_step (f) {s : GPass} (h : MainInv p ty start stop s) (a : GAct) :
    MainInv p ty start stop (s.step ty start stop f a) := by
  cases a with
  | thread t =>
    show MainInv p ty start stop (s.stepThread f t)
    unfold GPass.stepThread
    split
    · rename_i e es acc hth
      split
      · exact mainInv_call h hth
      · exact mainInv_call h hth
    · exact h
  | main =>
    show MainInv p ty start stop (s.stepMain ty start stop)
    unfold GPass.stepMain
    split
    · rename_i j r hm
      have h' := h
      unfold MainInv at h'
      rw [hm] at h'
      obtain ⟨r0, h0, h1, h2, h3⟩ := h'
      split
      · rename_i hn
        have hj : j = s.threads.length := by
          have := List.getElem?_eq_none_iff.1 hn
          omega
        subst hj
        refine ⟨r0, h0, ?_, h3⟩
        rw [List.take_length] at h2
        exact h2
      · rename_i th hth
        have hjlt : j < s.threads.length := by
          rcases Nat.lt_or_ge j s.threads.length with h1 | h1
          · exact h1
          · rw [List.getElem?_eq_none h1] at hth; simp at hth
        split
        · rename_i hd
          exact Or.inl ⟨rfl, th, List.mem_of_getElem? hth, hd⟩
        · rename_i hd
          split
          · rename_i ht
            refine ⟨r0, h0, hjlt, ?_, ?_⟩
            · intro x hx
              rw [List.take_add_one, hth, List.mem_append] at hx
              rcases hx with hx | hx
              · exact h2 x hx
              · simp at hx; subst hx; exact ⟨ht, by simpa using hd⟩
            · rw [h3]
              unfold joined
              rw [List.take_add_one, hth, List.foldl_append]
              rfl
          · exact h
    · rename_i e hm
      have h' := h
      unfold MainInv at h'
      rw [hm] at h'
      split
      · rename_i hall
        exact ⟨hall, h'⟩
      · exact h
    · exact h

theorem mainInv_start (chunks : List (Nat × Nat)) : MainInv p ty start stop (GPass.start p start chunks) := by
  unfold MainInv GPass.start
  cases h : u32Add p start 1 with
  | ok r => exact ⟨r, rfl, by omega, by simp, by simp [joined]⟩
  | error e => exact Or.inr h

theorem mainInv_run (f) (chunks : List (Nat × Nat)) (sched : List GAct) :
    MainInv p ty start stop ((GPass.start p start chunks).run ty start stop f sched) := by
  induction sched using List.reverseRecOn with
  | nil => exact mainInv_start chunks
  | append_singleton l t ih => rw [run_append_gpass]; exact mainInv_step f ih t

end

/-! ### without panics it is the pass of `Verif.Model.Pass` -/

/-- thread and argument of a call -/
def PCall.pair (c : PCall) : Nat × Nat := (c.thread, c.arg)

/-- forgets who panicked -/
def GPass.forget (s : GPass) : PassRun := ⟨s.threads.map fun th => ⟨th.todo, th.acc⟩, s.calls.map PCall.pair⟩

/-- a closure that never panics -/
def calm (g : List (Nat × Nat) → Nat → Nat) (h : List PCall) (e : Nat) : Rs Nat := .ok (g (h.map PCall.pair) e)

theorem forget_step (ty : AlgoType) (start stop : Nat) (g : List (Nat × Nat) → Nat → Nat) (s : GPass)
    (hd : ∀ th ∈ s.threads, th.dead = false) (a : GAct) :
    (∃ l, (s.step ty start stop (calm g) a).forget = s.forget.run g l) ∧
      ∀ th ∈ (s.step ty start stop (calm g) a).threads, th.dead = false := by
  cases a with
  | main =>
    obtain ⟨m, hm⟩ := stepMain_same (ty := ty) (start := start) (stop := stop) s
    have e : s.step ty start stop (calm g) .main = { s with main := m } := hm
    rw [e]
    exact ⟨⟨[], rfl⟩, hd⟩
  | thread t =>
    show (∃ l, (s.stepThread (calm g) t).forget = s.forget.run g l) ∧ ∀ th ∈ (s.stepThread (calm g) t).threads, th.dead = false
    unfold GPass.stepThread
    split
    · rename_i e es acc hth
      refine ⟨⟨[t], ?_⟩, ?_⟩
      · have hth' : s.forget.threads[t]? = some ⟨e :: es, acc⟩ := by
          show (s.threads.map _)[t]? = _
          rw [List.getElem?_map, hth]; rfl
        show _ = s.forget.step g t
        unfold PassRun.step
        rw [hth']
        simp [GPass.forget, PCall.pair, List.map_set, calm]
      · intro th hth'
        rcases List.mem_or_eq_of_mem_set hth' with h | h
        · exact hd th h
        · rw [h]
    · exact ⟨⟨[], rfl⟩, hd⟩

theorem forget_run (p : Profile) (ty : AlgoType) (start stop : Nat) (g : List (Nat × Nat) → Nat → Nat) (chunks : List (Nat × Nat))
    (sched : List GAct) :
    (∃ l, ((GPass.start p start chunks).run ty start stop (calm g) sched).forget = (PassRun.start chunks).run g l) ∧
      ∀ th ∈ ((GPass.start p start chunks).run ty start stop (calm g) sched).threads, th.dead = false := by
  induction sched using List.reverseRecOn with
  | nil =>
    refine ⟨⟨[], ?_⟩, ?_⟩
    · simp [GPass.forget, GPass.start, PassRun.start, PassRun.run, GPass.run]
    · intro th hth
      simp [GPass.start, GPass.run] at hth
      obtain ⟨a, b, -, rfl⟩ := hth
      rfl
  | append_singleton l a ih =>
    rw [run_append_gpass]
    obtain ⟨⟨l', h1⟩, h2⟩ := ih
    obtain ⟨⟨l'', h3⟩, h4⟩ := forget_step ty start stop g _ h2 a
    refine ⟨⟨l' ++ l'', ?_⟩, h4⟩
    rw [h3, h1]
    simp [PassRun.run, List.foldl_append]

end BigO
