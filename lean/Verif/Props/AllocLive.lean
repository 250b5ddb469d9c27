import Verif.Proofs.AllocLive

/-!
# C114: calls on the metrics allocator return

`FRun p N s0 σ st` (`Verif.Spec.AllocLiveSpec`): `st n` is the allocator after `n` actions of the infinite schedule `σ`; all threads'
atomic accesses to the statistics (stale reads included) and to the ring buffer interleave as in `Verif.Model.AllocRing`.  The allocator
has three retry loops: two on the minimum and maximum used memory, one that publishes a save point.
-/
namespace BigO

variable {p : Profile} {N : Nat} {s0 : Stats} {σ : Nat → AAct} {st : Nat → AFine}

/-- after `call` the thread is in the bookkeeping of a heap call -/
theorem entered_call {f f' : AFine} {t : Nat} {c : HeapCall} (h : f.act (.call t c) = some f') :
    (f'.core.th t).pc = toRmw (rmws c) := by
  obtain ⟨s', hs, rfl⟩ := Option.map_eq_some_iff.1 h
  simp only [AConc.act] at hs
  split at hs <;> simp at hs
  subst hs
  exact pc_goto _ _ _

theorem entered_save {f f' : AFine} {t : Nat} (h : f.act (.save t) = some f') : (f'.core.th t).pc = .spMin := by
  obtain ⟨s', hs, rfl⟩ := Option.map_eq_some_iff.1 h
  simp only [AConc.act] at hs
  split at hs <;> simp at hs
  subst hs
  exact pc_goto _ _ _

theorem entered_delta {f f' : AFine} {t k : Nat} (h : f.act (.delta t k) = some f') : (f'.core.th t).pc = .dPeek k := by
  obtain ⟨s', hs, rfl⟩ := Option.map_eq_some_iff.1 h
  simp only [AConc.act] at hs
  split at hs
  · split at hs <;> simp at hs
    subst hs
    exact pc_goto _ _ _
  · simp at hs

/-- C114: allocating, freeing and reallocating return as long as the calling thread keeps running, whatever the other threads do: they may
compete for the extremes, take save points, or have stopped for good inside their own calls -/
theorem C114_heap_call_returns (hN : 0 < N) (hN32 : N < 2 ^ 32) (hrun : FRun p N s0 σ st) (hsaves : ∀ n, (st n).begun < 2 ^ 32)
    (t : Nat) (hk : KeepsGoing σ st t) (n : Nat) (c : HeapCall) (hcall : σ n = .call t c) :
    ∃ m, n < m ∧ ((st m).core.th t).pc = .idle := by
  by_contra hcon
  have hstuck : ∀ m, n + 1 ≤ m → ((st m).core.th t).pc ≠ .idle := fun m hm h => hcon ⟨m, by omega, h⟩
  have ha := hrun.acts n
  rw [hcall] at ha
  have hpc := entered_call ha
  have hns := (class_stays hN hN32 hrun hsaves t (n + 1) hstuck).2.1 (by rw [hpc]; exact (toRmw_facts _).2.1)
  obtain ⟨n0, hn0, h⟩ := stuck_kinds hN hN32 hrun hsaves t (n + 1) hk hstuck
  obtain ⟨n1, hres⟩ := resets_end hN hN32 hrun hsaves
  rcases h with ⟨x, r, h⟩ | ⟨cur, h1, h2⟩ | ⟨cur, h1, h2⟩
  · have hp := ((run_inv hN hN32 hrun hsaves n0).1.pend t x r (Or.inr (h n0 (Nat.le_refl _)))).2.2
    have := hns n0 hn0
    rw [hp] at this; cases this
  · exact not_spinMin hrun t (max n0 n1) hk (fun m hm => hres m (by omega)) cur (fun m hm => h1 m (by omega)) (fun m hm => h2 m (by omega))
  · exact not_spinMax hrun t (max n0 n1) hk (fun m hm => hres m (by omega)) cur (fun m hm => h1 m (by omega)) (fun m hm => h2 m (by omega))

/-- C114: `delta_statistics` returns as long as the calling thread keeps running, whatever the other threads do -/
theorem C114_delta_returns (hN : 0 < N) (hN32 : N < 2 ^ 32) (hrun : FRun p N s0 σ st) (hsaves : ∀ n, (st n).begun < 2 ^ 32)
    (t : Nat) (hk : KeepsGoing σ st t) (n k : Nat) (hcall : σ n = .delta t k) :
    ∃ m, n < m ∧ ((st m).core.th t).pc = .idle := by
  by_contra hcon
  have hstuck : ∀ m, n + 1 ≤ m → ((st m).core.th t).pc ≠ .idle := fun m hm h => hcon ⟨m, by omega, h⟩
  have ha := hrun.acts n
  rw [hcall] at ha
  have hpc := entered_delta ha
  have hd := (class_stays hN hN32 hrun hsaves t (n + 1) hstuck).2.2 (by rw [hpc]; trivial)
  obtain ⟨n0, hn0, h⟩ := stuck_kinds hN hN32 hrun hsaves t (n + 1) hk hstuck
  have hd0 := hd n0 hn0
  rcases h with ⟨x, r, h⟩ | ⟨cur, h1, _⟩ | ⟨cur, h1, _⟩
  · have hp := ((run_inv hN hN32 hrun hsaves n0).1.pend t x r (Or.inr (h n0 (Nat.le_refl _)))).2.2
    rw [hp] at hd0; exact hd0
  · obtain ⟨_, mn, e⟩ := h1 n0 (Nat.le_refl _)
    rw [e] at hd0; exact hd0
  · obtain ⟨_, mn, e⟩ := h1 n0 (Nat.le_refl _)
    rw [e] at hd0; exact hd0

/-- C114: `save_point` returns when all threads keep running -/
theorem C114_save_point_returns (hN : 0 < N) (hN32 : N < 2 ^ 32) (hrun : FRun p N s0 σ st) (hsaves : ∀ n, (st n).begun < 2 ^ 32)
    (hk : ∀ u, KeepsGoing σ st u) (t n : Nat) (hcall : σ n = .save t) :
    ∃ m, n < m ∧ ((st m).core.th t).pc = .idle := by
  by_contra hcon
  have hstuck : ∀ m, n + 1 ≤ m → ((st m).core.th t).pc ≠ .idle := fun m hm h => hcon ⟨m, by omega, h⟩
  have ha := hrun.acts n
  rw [hcall] at ha
  have hpc := entered_save ha
  have hd := (class_stays hN hN32 hrun hsaves t (n + 1) hstuck).1 (by rw [hpc]; rfl)
  obtain ⟨n0, hn0, h⟩ := stuck_kinds hN hN32 hrun hsaves t (n + 1) (hk t) hstuck
  have hd0 := hd n0 hn0
  rcases h with ⟨x, r, h⟩ | ⟨cur, h1, _⟩ | ⟨cur, h1, _⟩
  · exact not_spinWritten hN hN32 hrun hsaves hk t n0 x r h
  · obtain ⟨_, mn, e⟩ := h1 n0 (Nat.le_refl _)
    rw [e] at hd0; cases hd0
  · obtain ⟨_, mn, e⟩ := h1 n0 (Nat.le_refl _)
    rw [e] at hd0; cases hd0

/-- C114: when all threads keep running, each of them is outside the allocator again and again: nothing hangs -/
theorem C114_nothing_hangs (hN : 0 < N) (hN32 : N < 2 ^ 32) (hrun : FRun p N s0 σ st) (hsaves : ∀ n, (st n).begun < 2 ^ 32)
    (hk : ∀ u, KeepsGoing σ st u) (t n : Nat) : ∃ m, n ≤ m ∧ ((st m).core.th t).pc = .idle := by
  by_contra hcon
  have hstuck : ∀ m, n ≤ m → ((st m).core.th t).pc ≠ .idle := fun m hm h => hcon ⟨m, by omega, h⟩
  obtain ⟨n0, hn0, h⟩ := stuck_kinds hN hN32 hrun hsaves t n (hk t) hstuck
  obtain ⟨n1, hres⟩ := resets_end hN hN32 hrun hsaves
  rcases h with ⟨x, r, h⟩ | ⟨cur, h1, h2⟩ | ⟨cur, h1, h2⟩
  · exact not_spinWritten hN hN32 hrun hsaves hk t n0 x r h
  · exact not_spinMin hrun t (max n0 n1) (hk t) (fun m hm => hres m (by omega)) cur (fun m hm => h1 m (by omega)) (fun m hm => h2 m (by omega))
  · exact not_spinMax hrun t (max n0 n1) (hk t) (fun m hm => hres m (by omega)) cur (fun m hm => h1 m (by omega)) (fun m hm => h2 m (by omega))

/-! ## a concrete execution -/

/-- thread 1 takes a save point and stops for good after reserving its slot; thread 0 allocates 8 bytes, its compare-exchange on the maximum
failing spuriously once -/
def liveDemo : List AAct :=
  [.save 1, .step 1 0 false, .step 1 0 false, .step 1 0 false,
   .call 0 (.alloc 8 true), .step 0 0 false, .step 0 0 false, .step 0 0 false, .step 0 1 false, .step 0 0 false, .step 0 0 false,
   .step 0 0 false, .step 0 0 true]

/-- then thread 0 only synchronises, for ever -/
def liveσ (n : Nat) : AAct := (liveDemo[n]?).getD (.sync 0 0)

/-- the states -/
def liveSt : Nat → AFine
  | 0 => AFine.init .checked 4 (fun _ => 0)
  | n + 1 => ((liveSt n).act (liveσ n)).getD (liveSt n)

theorem live_sync (n : Nat) (hn : 13 ≤ n) : liveσ n = .sync 0 0 := by
  unfold liveσ
  rw [List.getElem?_eq_none (by exact hn)]
  rfl

theorem live_tail (k : Nat) : ((liveSt (13 + k)).core.th 0).pc = .idle ∧ (liveSt (13 + k)).begun = 1 ∧
    (liveSt (13 + k)).rpc 1 = .reserved ⟨0, 0⟩ 0 := by
  induction k with
  | zero => exact ⟨by decide +kernel, by decide +kernel, by decide +kernel⟩
  | succ k ih =>
    have e : liveSt (13 + (k + 1)) = ((liveSt (13 + k)).act (.sync 0 0)).getD (liveSt (13 + k)) := by
      show ((liveSt (13 + k)).act (liveσ (13 + k))).getD (liveSt (13 + k)) = _
      rw [live_sync _ (by omega)]
    have e2 : (liveSt (13 + k)).act (.sync 0 0) =
        some { liveSt (13 + k) with core := (liveSt (13 + k)).core.learn 0 ((liveSt (13 + k)).core.th 0).view } := by
      simp only [AFine.act, AConc.act, ih.1, if_true, Option.map_some]
    rw [e, e2]
    exact ⟨by simp only [Option.getD_some, learn_pc]; exact ih.1, ih.2.1, ih.2.2⟩

theorem live_run : FRun .checked 4 (fun _ => 0) liveσ liveSt := by
  refine ⟨rfl, fun n => ?_⟩
  have hsome : ((liveSt n).act (liveσ n)).isSome = true := by
    by_cases hn : n < 13
    · have : ∀ m : Fin 13, ((liveSt m).act (liveσ m)).isSome = true := by decide +kernel
      exact this ⟨n, hn⟩
    · obtain ⟨k, rfl⟩ := Nat.exists_eq_add_of_le (Nat.not_lt.1 hn)
      rw [live_sync _ (by omega)]
      simp only [AFine.act, AConc.act, (live_tail k).1, if_true, Option.map_some, Option.isSome_some]
  show _ = some (((liveSt n).act (liveσ n)).getD (liveSt n))
  cases h : (liveSt n).act (liveσ n) with
  | none => rw [h] at hsome; cases hsome
  | some x => rfl

theorem live_begun (n : Nat) : (liveSt n).begun < 2 ^ 32 := by
  by_cases hn : n < 13
  · have : ∀ m : Fin 13, (liveSt m).begun < 2 ^ 32 := by decide +kernel
    exact this ⟨n, hn⟩
  · obtain ⟨k, rfl⟩ := Nat.exists_eq_add_of_le (Nat.not_lt.1 hn)
    rw [(live_tail k).2.1]; decide

/-- thread 0 keeps running (thread 1 does not) -/
theorem live_keeps : KeepsGoing liveσ liveSt 0 := by
  refine ⟨fun n => ⟨13 + n, by omega, Or.inl (live_tail n).1⟩, fun h => ?_⟩
  obtain ⟨m, hm, _, i, ok, hσ⟩ := h 13
  rw [live_sync m hm] at hσ; cases hσ

/-- the hypotheses of `C114_heap_call_returns` are met although thread 1 is stopped inside `save_point` for ever -/
example : (∃ m, 4 < m ∧ ((liveSt m).core.th 0).pc = .idle) ∧ ∀ k, (liveSt (13 + k)).Enqueues 1 0 :=
  ⟨C114_heap_call_returns (by decide) (by decide) live_run live_begun 0 live_keeps 4 (.alloc 8 true) rfl,
    fun k => ⟨⟨0, 0⟩, Or.inl (live_tail k).2.2⟩⟩

/-- thread 1 takes a save point, its compare-exchange failing spuriously once; then thread 0 only synchronises, for ever -/
def saveDemo : List AAct :=
  .save 1 :: readSteps 1 [0, 0, 0, 0] ++ [.step 1 0 false, .step 1 0 true] ++
    readSteps 1 ([0, 0, 0, 0, 0] ++ [0, 0, 0, 0, 0, 0, 0, 0, 0, 0, 1, 1] ++ [0])

def saveσ (n : Nat) : AAct := (saveDemo[n]?).getD (.sync 0 0)

def saveSt : Nat → AFine
  | 0 => AFine.init .checked 4 (fun _ => 0)
  | n + 1 => ((saveSt n).act (saveσ n)).getD (saveSt n)

theorem save_sync (n : Nat) (hn : 25 ≤ n) : saveσ n = .sync 0 0 := by
  unfold saveσ
  rw [List.getElem?_eq_none (by exact hn)]
  rfl

theorem save_tail (k : Nat) : ((saveSt (25 + k)).core.th 0).pc = .idle ∧ ((saveSt (25 + k)).core.th 1).pc = .idle ∧ (saveSt (25 + k)).begun = 1 := by
  induction k with
  | zero => exact ⟨by decide +kernel, by decide +kernel, by decide +kernel⟩
  | succ k ih =>
    have e : saveSt (25 + (k + 1)) = ((saveSt (25 + k)).act (.sync 0 0)).getD (saveSt (25 + k)) := by
      show ((saveSt (25 + k)).act (saveσ (25 + k))).getD (saveSt (25 + k)) = _
      rw [save_sync _ (by omega)]
    have e2 : (saveSt (25 + k)).act (.sync 0 0) =
        some { saveSt (25 + k) with core := (saveSt (25 + k)).core.learn 0 ((saveSt (25 + k)).core.th 0).view } := by
      simp only [AFine.act, AConc.act, ih.1, if_true, Option.map_some]
    rw [e, e2]
    exact ⟨by simp only [Option.getD_some, learn_pc]; exact ih.1, by simp only [Option.getD_some, learn_pc]; exact ih.2.1, ih.2.2⟩

theorem save_run : FRun .checked 4 (fun _ => 0) saveσ saveSt := by
  refine ⟨rfl, fun n => ?_⟩
  have hsome : ((saveSt n).act (saveσ n)).isSome = true := by
    by_cases hn : n < 25
    · have : ∀ m : Fin 25, ((saveSt m).act (saveσ m)).isSome = true := by decide +kernel
      exact this ⟨n, hn⟩
    · obtain ⟨k, rfl⟩ := Nat.exists_eq_add_of_le (Nat.not_lt.1 hn)
      rw [save_sync _ (by omega)]
      simp only [AFine.act, AConc.act, (save_tail k).1, if_true, Option.map_some, Option.isSome_some]
  show _ = some (((saveSt n).act (saveσ n)).getD (saveSt n))
  cases h : (saveSt n).act (saveσ n) with
  | none => rw [h] at hsome; cases hsome
  | some x => rfl

theorem save_begun (n : Nat) : (saveSt n).begun < 2 ^ 32 := by
  by_cases hn : n < 25
  · have : ∀ m : Fin 25, (saveSt m).begun < 2 ^ 32 := by decide +kernel
    exact this ⟨n, hn⟩
  · obtain ⟨k, rfl⟩ := Nat.exists_eq_add_of_le (Nat.not_lt.1 hn)
    rw [(save_tail k).2.2]; decide

theorem save_others (u : Nat) (hu : 2 ≤ u) (n : Nat) : ((saveSt n).core.th u).pc = .idle := by
  induction n with
  | zero => rfl
  | succ n ih =>
    have htid : (saveσ n).tid ≤ 1 := by
      by_cases hn : n < 25
      · have : ∀ m : Fin 25, (saveσ m).tid ≤ 1 := by decide +kernel
        exact this ⟨n, hn⟩
      · rw [save_sync n (by omega)]; decide
    rw [fine_others (save_run.acts n) (by omega)]; exact ih

/-- all threads keep running -/
theorem save_keeps (u : Nat) : KeepsGoing saveσ saveSt u := by
  refine ⟨fun n => ⟨25 + n, by omega, Or.inl ?_⟩, fun h => ?_⟩
  · match u with
    | 0 => exact (save_tail n).1
    | 1 => exact (save_tail n).2.1
    | u + 2 => exact save_others (u + 2) (by omega) _
  · obtain ⟨m, hm, _, i, ok, hσ⟩ := h 25
    rw [save_sync m hm] at hσ; cases hσ

/-- the hypotheses of `C114_save_point_returns` are met -/
example : (∃ m, 0 < m ∧ ((saveSt m).core.th 1).pc = .idle) ∧ (saveSt 25).core.saved.length = 1 :=
  ⟨C114_save_point_returns (by decide) (by decide) save_run save_begun save_keeps 1 0 rfl, by decide +kernel⟩

end BigO
