import Verif.Proofs.AllocWeak
import Verif.Props.AllocRing

/-!
# The metrics allocator with the memory orderings written in the code (C116)

`Verif.Model.AllocWeak`: stale reads of the statistics and of the ring buffer, data races on its slots.
-/
namespace BigO

theorem wsched_append {f f' : AWeak} {as bs} : f.sched (as ++ bs) = some f' ↔ ∃ f1, f.sched as = some f1 ∧ f1.sched bs = some f' := by
  induction as generalizing f with
  | nil => simp [AWeak.sched]
  | cons a as ih =>
    simp only [List.cons_append, AWeak.sched]
    cases f.act a with
    | none => simp
    | some g => exact ih

section
variable (pr : Profile) (N : Nat) (hN : 0 < N) (hN32 : N < 2 ^ 32) (s0 : Stats) {acts : List AAct} {w : AWeak}
  (h : (AWeak.init pr N s0).sched acts = some w) (hsaves : w.begun < 2 ^ 32)
  (hone : OneAfterAnother anyone (AWeak.init pr N s0) acts)
include hN hN32 h hsaves hone

/-- C116. save points and requests made one after another (heap calls at any time): no data race on the slots of the ring buffer, although
nothing in it makes one thread wait for another's store -/
theorem C116_no_race : ¬ w.raced := by
  obtain ⟨_, _, _, _, hs, _⟩ := wksim_sched acts [] (wkSim_init hN hN32 s0) (by rw [List.append_nil]; exact hone) h hsaves
  exact hs.inv.clean

/-- C116. ... no thread panics in the ring buffer, and none reads a slot never written -/
theorem C116_no_panic (t : Nat) : ¬ w.Panicked t := by
  obtain ⟨_, _, _, _, hs, _⟩ := wksim_sched acts [] (wkSim_init hN hN32 s0) (by rw [List.append_nil]; exact hone) h hsaves
  rintro ⟨e, he⟩
  exact hs.sim.inv.calm t e he

/-- C116. ... and the values of the statistics, the save points and the answers to all requests are those of an execution in which every ring
operation is atomic, with the same calls in the same order (so what is proved of those holds).  No bound on the number of threads, and no
request is overrun. -/
theorem C116_refines : ∃ acts' c, Skips acts' acts ∧ (AConc.init pr N s0).sched acts' = some c ∧ SameStatistics c w.core := by
  obtain ⟨_, L, P, as', hs, _, hk, hr, _⟩ := wksim_sched acts [] (wkSim_init hN hN32 s0) (by rw [List.append_nil]; exact hone) h hsaves
  exact ⟨as', w.core.over L P, hk, hr, sameStatistics hs.sim⟩

end

/-! ## one thread measures -/

theorem wfine_core_act {w w' : AWeak} {a : AAct} (h : w.act a = some w') : ∀ u, u ≠ a.tid → w'.core.th u = w.core.th u := by
  intro u hu
  cases a with
  | step t i ok =>
    have hu' : u ≠ t := hu
    have h' : w.step t i ok = some w' := h
    unfold AWeak.step at h'
    split at h'
    · have hcore : ∀ {c}, atRing (w.core.th t).pc = false → w.core.step t i ok = some c → c.th u = w.core.th u :=
        fun ha hc => (core_step ha hc).others u hu'
      unfold AWeak.outStep at h'
      split at h'
      · injection h' with h'; subst h'; rfl
      · split at h'
        · injection h' with h'; subst h'; exact goto_others hu'
        · cases h'
      · obtain ⟨c, _, rfl⟩ := Option.map_eq_some_iff.1 h'; rfl
      · rename_i hpc
        obtain ⟨c, hc, rfl⟩ := Option.map_eq_some_iff.1 h'; exact hcore (by rw [hpc]; rfl) hc
      · rename_i h1 h2 h3 h4
        obtain ⟨c, hc, rfl⟩ := Option.map_eq_some_iff.1 h'
        refine hcore ?_ hc
        cases hpc : (w.core.th t).pc <;> first | rfl | skip
        · exact absurd hpc (h1 _ _)
        · exact absurd hpc h2
        · exact absurd hpc (h3 _)
    · unfold AWeak.ringStep at h'
      split at h'
      · cases h'
      · cases h'
      · split at h' <;> injection h' with h' <;> subst h' <;> rfl
      · split at h'
        · injection h' with h'; subst h'; rfl
        · split at h'
          · split at h'
            · injection h' with h'; subst h'; exact goto_others hu'
            · cases h'
          · split at h'
            · split at h' <;> injection h' with h' <;> subst h' <;> rfl
            · cases h'
      · split at h'
        · split at h'
          · injection h' with h'; subst h'; rfl
          · cases h'
          · injection h' with h'; subst h'; exact goto_others hu'
          · injection h' with h'; subst h'; rfl
        · cases h'
      · injection h' with h'; subst h'; exact goto_others hu'
      · split at h'
        · split at h' <;> injection h' with h' <;> subst h' <;> rfl
        · cases h'
  | _ =>
    obtain ⟨c, hc, rfl⟩ := Option.map_eq_some_iff.1 h
    exact (enter_step (by simp) hc).others u hu

theorem wrpc_act {w w' : AWeak} {a : AAct} (h : w.act a = some w') : ∀ u, u ≠ a.tid → w'.rpc u = w.rpc u := by
  intro u hu
  cases a with
  | step t i ok =>
    have hu' : u ≠ t := hu
    have hset : ∀ (g : AWeak) x, (g.setRpc t x).rpc u = g.rpc u := fun g x => by simp [AWeak.setRpc, hu']
    have h' : w.step t i ok = some w' := h
    unfold AWeak.step at h'
    split at h'
    · unfold AWeak.outStep at h'
      split at h'
      · injection h' with h'; subst h'; exact hset _ _
      · split at h'
        · injection h' with h'; subst h'; rfl
        · cases h'
      · obtain ⟨c, _, rfl⟩ := Option.map_eq_some_iff.1 h'; exact hset _ _
      · obtain ⟨c, hc, rfl⟩ := Option.map_eq_some_iff.1 h'; rfl
      · obtain ⟨c, hc, rfl⟩ := Option.map_eq_some_iff.1 h'; rfl
    · unfold AWeak.ringStep at h'
      split at h'
      · cases h'
      · cases h'
      · split at h' <;> injection h' with h' <;> subst h' <;> exact hset _ _
      · split at h'
        · injection h' with h'; subst h'; exact hset _ _
        · split at h'
          · split at h'
            · injection h' with h'; subst h'; exact hset _ _
            · cases h'
          · split at h'
            · split at h' <;> injection h' with h' <;> subst h' <;> exact hset _ _
            · cases h'
      · split at h'
        · split at h'
          · injection h' with h'; subst h'; exact hset _ _
          · cases h'
          · injection h' with h'; subst h'; exact hset _ _
          · injection h' with h'; subst h'; exact hset _ _
        · cases h'
      · injection h' with h'; subst h'; exact hset _ _
      · split at h'
        · split at h' <;> injection h' with h' <;> subst h' <;> exact hset _ _
        · cases h'
  | _ =>
    obtain ⟨c, hc, rfl⟩ := Option.map_eq_some_iff.1 h
    rfl

/-- a thread outside the ring that neither takes save points nor asks for statistics keeps out of it -/
theorem bystander_act {w w' : AWeak} {a : AAct} (h : w.act a = some w') (hr : w.rpc a.tid = .out) (hm : ¬ w.core.Measures a.tid)
    (h1 : ∀ u, a ≠ .save u) (h2 : ∀ u k, a ≠ .delta u k) : w'.rpc a.tid = .out ∧ ¬ w'.core.Measures a.tid := by
  by_cases ha : ∀ t i ok, a ≠ .step t i ok
  · have key : ∀ {c : AConc}, w.core.act a = some c → ¬ c.Measures a.tid := by
      intro c hc hu
      have he := enter_step ha hc
      have hu' : ((c.th a.tid).pc).measures = true := hu
      rcases (measures_iff _).1 hu' with e | e
      · obtain ⟨t, e⟩ := he.save e; exact h1 t e
      · obtain ⟨t, k, e⟩ := he.delta e; exact h2 t k e
    cases a with
    | step t i ok => exact absurd rfl (ha t i ok)
    | save t => exact absurd rfl (h1 t)
    | delta t k => exact absurd rfl (h2 t k)
    | _ =>
      obtain ⟨c, hc, rfl⟩ := Option.map_eq_some_iff.1 h
      exact ⟨hr, key hc⟩
  · push Not at ha
    obtain ⟨t, i, ok, rfl⟩ := ha
    have hr' : w.rpc t = .out := hr
    have hm' : ¬ (w.core.th t).pc.measures = true := hm
    have h' : w.step t i ok = some w' := h
    have e1 : w.step t i ok = w.outStep t i ok (w.core.th t).pc := by simp only [AWeak.step, hr']
    rw [e1] at h'
    have hout : ∃ c, w.core.step t i ok = some c ∧ w' = { w with core := c } ∧ atRing (w.core.th t).pc = false := by
      cases hpc : (w.core.th t).pc <;> rw [hpc] at h' hm' <;> first | exact absurd rfl hm' | skip
      all_goals
        obtain ⟨c, hc, e⟩ := Option.map_eq_some_iff.1 h'
        exact ⟨c, hc, e.symm, rfl⟩
    obtain ⟨c, hc, rfl, ha⟩ := hout
    refine ⟨hr', ?_⟩
    intro hu
    have hu' : ((c.th t).pc).measures = true := hu
    have hs := core_step ha hc
    exact hm' ((measures_iff _).2 (((measures_iff _).1 hu').imp hs.save hs.delta))

theorem onlyMeasurer_ordered (t : Nat) : ∀ (acts : List AAct) {ready : Nat → Prop} {w w' : AWeak}, ready t →
    (∀ u, u ≠ t → w.rpc u = .out ∧ ¬ w.core.Measures u) → OnlyMeasurer t acts → w.sched acts = some w' → OneAfterAnother ready w acts := by
  intro acts
  induction acts with
  | nil => intro ready w w' _ _ _ _; trivial
  | cons a as ih =>
    intro ready w w' hrd hby hon hs
    obtain ⟨g, hg, hs'⟩ := wsched_cons hs
    have hona := hon a (by simp)
    have hidle : (∀ t i ok, a ≠ .step t i ok) → (w.core.th a.tid).pc = .idle := by
      intro ha
      cases a with
      | step t i ok => exact absurd rfl (ha t i ok)
      | _ =>
        obtain ⟨c, hc, _⟩ := Option.map_eq_some_iff.1 hg
        exact (enter_step ha hc).idle
    have hnone : (w.core.th t).pc = .idle → ∀ u, ¬ w.core.Measures u := by
      intro hi u
      by_cases hu : u = t
      · subst hu; unfold AConc.Measures; rw [hi]; simp [APc.measures]
      · exact (hby u hu).2
    have hby' : ∀ u, u ≠ t → g.rpc u = .out ∧ ¬ g.core.Measures u := by
      intro u hu
      by_cases he : u = a.tid
      · have h1 : ∀ v, a ≠ .save v := by rintro v rfl; exact hu (he.trans (hona.1 v rfl))
        have h2 : ∀ v k, a ≠ .delta v k := by rintro v k rfl; exact hu (he.trans (hona.2 v k rfl))
        rw [he] at hu ⊢
        exact bystander_act hg (hby _ hu).1 (hby _ hu).2 h1 h2
      · refine ⟨by rw [wrpc_act hg u he]; exact (hby u hu).1, ?_⟩
        unfold AConc.Measures
        rw [wfine_core_act hg u he]
        exact (hby u hu).2
    refine ⟨?_, fun s' hs'' => ?_⟩
    · cases a with
      | save u =>
        have := hona.1 u rfl
        subst this
        exact ⟨hrd, hnone (hidle (by simp))⟩
      | delta u k =>
        have := hona.2 u k rfl
        subst this
        exact ⟨hrd, hnone (hidle (by simp))⟩
      | _ => trivial
    · rw [hg] at hs''
      injection hs'' with e
      subst e
      refine ih ?_ hby' (fun b hb => hon b (by simp [hb])) hs'
      cases a with
      | save u => exact (hona.1 u rfl).symm
      | delta u k => exact (hona.2 u k rfl).symm
      | sync u v => exact Or.inl hrd
      | _ => exact hrd

/-- C116. when a single thread takes all save points and asks for all statistics (others allocate and free), they are made one after
another -/
theorem C116_one_measuring_thread (pr : Profile) (N : Nat) (s0 : Stats) {acts : List AAct} {w : AWeak}
    (h : (AWeak.init pr N s0).sched acts = some w) (t : Nat) (hon : OnlyMeasurer t acts) :
    OneAfterAnother anyone (AWeak.init pr N s0) acts :=
  onlyMeasurer_ordered t acts trivial (fun u _ => ⟨rfl, by show ¬ (APc.idle).measures = true; simp [APc.measures]⟩) hon h

/-- C116. a measured pass with several threads (as `C106_pass_statistics`), the ring buffer with its memory orderings: nothing is going on
and thread `t` has seen all that happened to the statistics (`w1`); `t` takes a save point (`w2`); `t`, the threads it starts, those they
start and so on allocate and free, interleaved in any way, and are done and joined (`w3`); `t` asks for the statistics since the save point
(`w4`); and this save point and this request, like those made before, are made one after another.  Then there is no data race and the
answer is: for each counter exactly what all the threads did between; the memory used now; a minimum and a maximum that enclose the memory
used at both ends, and that were really used at some time since the save point. -/
theorem C116_pass_statistics (pr : Profile) (N : Nat) (hN : 0 < N) (hN32 : N < 2 ^ 32) (s0 : Stats) (h0 : ∀ c, s0 c < 2 ^ 64) {t : Nat}
    {pre save mid req : List AAct} {w1 w2 w3 w4 : AWeak}
    (h1 : (AWeak.init pr N s0).sched pre = some w1) (q1 : w1.core.Quiescent) (u1 : w1.core.UpToDate t)
    (h2 : w1.sched (.save t :: save) = some w2) (a2 : Alone t save) (i2 : (w2.core.th t).pc = .idle)
    (h3 : w2.sched mid = some w3) (a3 : StartedBy [t] mid) (q3 : w3.core.Quiescent) (u3 : w3.core.UpToDate t)
    (h4 : w3.sched (.delta t w1.core.saved.length :: req) = some w4) (a4 : Alone t req) (i4 : (w4.core.th t).pc = .idle)
    (hone : OneAfterAnother anyone (AWeak.init pr N s0)
      (pre ++ ((.save t :: save) ++ (mid ++ (.delta t w1.core.saved.length :: req)))))
    (hsaves : w4.begun < 2 ^ 32)
    (hroom : ∀ k ∈ deltaCtrs, (w1.core.loc k).last + ((callsIn mid).map (contribution k)).sum < 2 ^ 64) :
    ∃ used mn mx : Nat, w4.core.results = w1.core.results ++ [(w1.core.saved.length,
        .stats ((deltaCtrs.map fun k => ((callsIn mid).map (contribution k)).sum) ++ [used, mn, mx]))] ∧
      (used : Int) = ((w1.core.loc .currentUsedMemory).last + ((callsIn mid).map netBytes).sum) % (2 ^ 64 : Int) ∧
      (mn ≤ (w1.core.loc .currentUsedMemory).last ∧ mn ≤ used) ∧ ((w1.core.loc .currentUsedMemory).last ≤ mx ∧ used ≤ mx) ∧
      (w4.core.loc .currentUsedMemory).HadSince (w1.core.loc .currentUsedMemory).top mn ∧
      (w4.core.loc .currentUsedMemory).HadSince (w1.core.loc .currentUsedMemory).top mx ∧
      w4.core.Quiescent ∧ w4.core.UpToDate t ∧ ¬ w4.raced := by
  have b3 : w3.begun < 2 ^ 32 := Nat.lt_of_le_of_lt (wbegun_sched _ w3 w4 h4) hsaves
  have b2 : w2.begun < 2 ^ 32 := Nat.lt_of_le_of_lt (wbegun_sched _ w2 w3 h3) b3
  have b1 : w1.begun < 2 ^ 32 := Nat.lt_of_le_of_lt (wbegun_sched _ w1 w2 h2) b2
  obtain ⟨d1, L1, P1, pre', m1, o1, k1, r1, _⟩ := wksim_sched pre _ (wkSim_init hN hN32 s0) hone h1 b1
  obtain ⟨d2, L2, P2, save', m2, o2, k2, r2, _⟩ := wksim_sched (.save t :: save) _ m1 o1 h2 b2
  obtain ⟨d3, L3, P3, mid', m3, o3, k3, r3, _⟩ := wksim_sched mid _ m2 o2 h3 b3
  obtain ⟨d4, L4, P4, req', m4, _, k4, r4, _⟩ := wksim_sched (.delta t w1.core.saved.length :: req) [] m3
    (by rw [List.append_nil]; exact o3) h4 hsaves
  obtain ⟨save2, rfl, k2'⟩ := skips_cons k2 (by simp)
  obtain ⟨req2, rfl, k4'⟩ := skips_cons k4 (by simp)
  have S1 : SameStatistics _ w1.core := sameStatistics m1.sim
  have S2 : SameStatistics _ w2.core := sameStatistics m2.sim
  have S3 : SameStatistics _ w3.core := sameStatistics m3.sim
  have S4 : SameStatistics _ w4.core := sameStatistics m4.sim
  obtain ⟨used, mn, mx, e1, e2, e3, e4, e5, e6, _, e8, e9⟩ := C88_pass_statistics pr N s0 h0 r1 (fun u => (S1.idle u).2 (q1 u)) u1
    r2 (k2'.alone a2) ((S2.idle t).2 i2) r3 (k3.startedBy a3) (fun u => (S3.idle u).2 (q3 u)) u3 r4 (k4'.alone a4) ((S4.idle t).2 i4)
    (by rw [k3.calls]; exact hroom)
  rw [k3.calls] at e1 e2
  exact ⟨used, mn, mx, e1, e2, e3, e4, e5, e6, fun u => (S4.idle u).1 (e8 u), e9, m4.inv.clean⟩

/-! ## concrete executions -/

theorem wuntouched {u : Nat} : ∀ (as : List AAct) {f f' : AWeak}, (∀ a ∈ as, a.tid ≠ u) → f.sched as = some f' →
    f'.core.th u = f.core.th u := by
  intro as
  induction as with
  | nil => intro f f' _ h; simp [AWeak.sched] at h; subst h; rfl
  | cons a as ih =>
    intro f f' ha h
    obtain ⟨g, hg, hs⟩ := wsched_cons h
    rw [ih (fun b hb => ha b (by simp [hb])) hs, wfine_core_act hg u (fun e => ha a (by simp) e.symm)]

theorem wsched_rest {f f' f'' : AWeak} {as bs} (h : f.sched as = some f') (h' : f.sched (as ++ bs) = some f'') : f'.sched bs = some f'' := by
  obtain ⟨x, h1, h2⟩ := wsched_append.1 h'
  rw [h] at h1; injection h1 with h1; subst h1; exact h2

/-- thread 1 alone takes its save point: in the ring buffer it reserves, stores and publishes, and then loads the `published_tail` it
wrote -/
def exWeakSave : List AAct := readSteps 1 ([0, 0] ++ [0, 0, 0] ++ [1, 0, 0, 0, 0] ++ [0, 0, 0, 0, 0, 0, 0, 0, 0, 0, 1, 1] ++ [0])

/-- thread 1 alone asks for the statistics: in the ring buffer it loads `head` and `published_tail` and finds no slot -/
def exWeakReq : List AAct := readSteps 1 ([0, 1, 0] ++ [1, 2] ++ [2, 1, 0, 0, 2, 1, 0, 0, 0] ++ [0, 3])

/-- the hypotheses of `C116_pass_statistics` (and so of the others) are met by this pass (the work is that of `example_pass`: thread 2 is
started, allocates and is joined), and this is what it gives -/
theorem example_weak_pass : ∃ w2 w3 w4, (AWeak.init .checked 1024 (fun _ => 0)).sched (.save 1 :: exWeakSave) = some w2 ∧
    w2.sched (exWork ++ [2].map (.sync 1)) = some w3 ∧ w3.sched (.delta 1 0 :: exWeakReq) = some w4 ∧
    (AWeak.init .checked 1024 (fun _ => 0)).core.Quiescent ∧ (AWeak.init .checked 1024 (fun _ => 0)).core.UpToDate 1 ∧
    Alone 1 exWeakSave ∧ StartedBy [1] (exWork ++ [2].map (.sync 1)) ∧ Alone 1 exWeakReq ∧
    (w2.core.th 1).pc = .idle ∧ w3.core.Quiescent ∧ w3.core.UpToDate 1 ∧ (w4.core.th 1).pc = .idle ∧
    OneAfterAnother anyone (AWeak.init .checked 1024 (fun _ => 0))
      ([] ++ ((.save 1 :: exWeakSave) ++ ((exWork ++ [2].map (.sync 1)) ++ (.delta 1 0 :: exWeakReq)))) ∧ w4.begun = 1 ∧
    w4.core.results = [(0, .stats [2, 1, 0, 0, 150, 100, 0, 0, 0, 50, 0, 150])] := by
  have e4 : ((AWeak.init .checked 1024 (fun _ => 0)).sched (((.save 1 :: exWeakSave) ++ (exWork ++ [2].map (.sync 1))) ++
      (.delta 1 0 :: exWeakReq))).map (fun f => ((f.core.th 1).pc, f.core.results, f.begun)) =
      some (.idle, [(0, .stats [2, 1, 0, 0, 150, 100, 0, 0, 0, 50, 0, 150])], 1) := by decide +kernel
  have e3 : ((AWeak.init .checked 1024 (fun _ => 0)).sched ((.save 1 :: exWeakSave) ++ (exWork ++ [2].map (.sync 1)))).map
      (fun f => ((f.core.th 1).pc, (f.core.th 2).pc, allCtrs.map fun c => decide ((f.core.th 1).view c = (f.core.loc c).top))) =
      some (.idle, .idle, allCtrs.map fun _ => true) := by decide +kernel
  have e2 : ((AWeak.init .checked 1024 (fun _ => 0)).sched (.save 1 :: exWeakSave)).map (fun f => (f.core.th 1).pc) = some .idle := by
    decide +kernel
  obtain ⟨f4, h4, g4⟩ := Option.map_eq_some_iff.1 e4
  obtain ⟨f3, h3, g3⟩ := Option.map_eq_some_iff.1 e3
  obtain ⟨f2, h2, g2⟩ := Option.map_eq_some_iff.1 e2
  simp only [Prod.mk.injEq] at g4 g3
  have a1 : ∀ as : List Nat, Alone 1 (readSteps 1 as) := by
    intro as a ha; obtain ⟨i, _, rfl⟩ := List.mem_map.1 ha; exact ⟨i, true, rfl⟩
  refine ⟨f2, f3, f4, h2, wsched_rest h2 h3, wsched_rest h3 h4, fun _ => rfl, fun _ => rfl, a1 _, by decide, a1 _, g2, ?_, ?_, g4.1,
    ?_, g4.2.2, g4.2.1⟩
  · intro u
    by_cases h1 : u = 1
    · subst h1; exact g3.1
    · by_cases h2 : u = 2
      · subst h2; exact g3.2.1
      · rw [wuntouched (u := u) _ (fun a ha e => ((show ∀ a ∈ (.save 1 :: exWeakSave) ++ (exWork ++ [2].map (.sync 1)),
          AAct.tid a = 1 ∨ AAct.tid a = 2 by decide) a ha).elim (fun h => h1 (e.symm.trans h)) (fun h => h2 (e.symm.trans h))) h3]
        rfl
  · intro c
    have := List.map_inj_left.1 g3.2.2 c (by cases c <;> decide)
    simpa using this
  · rw [List.append_assoc] at h4
    refine C116_one_measuring_thread _ _ _ h4 1 ?_
    intro a ha
    have key : ∀ a ∈ ((AAct.save 1 :: exWeakSave) ++ ((exWork ++ [2].map (AAct.sync 1)) ++ (AAct.delta 1 0 :: exWeakReq))),
        (match a with | .save u => u = 1 | .delta u _ => u = 1 | _ => True) := by
      have : ((AAct.save 1 :: exWeakSave) ++ ((exWork ++ [2].map (AAct.sync 1)) ++ (AAct.delta 1 0 :: exWeakReq))).all
          (fun a => match a with | .save u => u == 1 | .delta u _ => u == 1 | _ => true) = true := by decide
      intro a ha
      have := List.all_eq_true.1 this a ha
      cases a <;> simp_all
    refine ⟨?_, ?_⟩
    · rintro u rfl; exact key _ ha
    · rintro u k rfl; exact key _ ha

theorem oneAfterAnother_steps {ready : Nat → Prop} : ∀ (steps rest : List AAct) {w : AWeak}, (∀ a ∈ steps, ∃ t i ok, a = AAct.step t i ok) →
    (∀ w1, w.sched steps = some w1 → OneAfterAnother ready w1 rest) → OneAfterAnother ready w (steps ++ rest) := by
  intro steps
  induction steps with
  | nil => intro rest w _ h; exact h w rfl
  | cons a as ih =>
    intro rest w hst h
    obtain ⟨t, i, ok, rfl⟩ := hst a (by simp)
    refine ⟨trivial, fun s' hs' => ih rest (fun b hb => hst b (by simp [hb])) fun w1 h1 => h w1 ?_⟩
    simp only [AWeak.sched, hs']
    exact h1

/-- the accesses of thread 0 in its `save_point` -/
def exTurns0 : List AAct := readSteps 0 ([0, 0] ++ [0, 0, 0] ++ [1, 0, 0, 0, 0] ++ [0, 0, 0, 0, 0, 0, 0, 0, 0, 0, 1, 1] ++ [0])
/-- those of thread 1 in its `save_point` -/
def exTurns1 : List AAct := readSteps 1 ([1, 1] ++ [0, 0, 0] ++ [2, 0, 0, 0, 0] ++ [0, 0, 0, 0, 0, 0, 0, 0, 0, 0, 2, 2] ++ [0])
/-- those of thread 1 in its request for statistics -/
def exTurns2 : List AAct := readSteps 1 ([0, 2] ++ [1, 1, 0] ++ [2, 2] ++ [0, 0, 0, 0, 0, 0, 0, 0, 0] ++ [0, 0])
/-- thread 0 takes a save point and then thread 1, which waited for it, takes one and asks for the statistics since the other's -/
def exTurns : List AAct :=
  (.save 0 :: exTurns0) ++ (.sync 1 0 :: .save 1 :: exTurns1) ++ (.delta 1 0 :: exTurns2)

theorem not_measuring {w w' : AWeak} {acts : List AAct} (h : w.sched acts = some w') (hq : w.core.Quiescent) (ht : ∀ a ∈ acts, a.tid < 2)
    (h0 : (w'.core.th 0).pc = .idle) (h1 : (w'.core.th 1).pc = .idle) : ∀ u, ¬ w'.core.Measures u := by
  intro u
  unfold AConc.Measures
  have : (w'.core.th u).pc = .idle := by
    match u with
    | 0 => exact h0
    | 1 => exact h1
    | u + 2 =>
      rw [wuntouched (u := u + 2) acts (fun a ha e => by have := ht a ha; omega) h]
      exact hq _
  rw [this]
  simp [APc.measures]

/-- the hypotheses of `C116_no_race`, `C116_no_panic` and `C116_refines` are also met when two threads take turns, one reading the slot the
other stored -/
theorem example_weak_turns : ∃ w : AWeak, (AWeak.init .checked 4 (fun _ => 0)).sched exTurns = some w ∧ w.begun = 2 ∧
    OneAfterAnother anyone (AWeak.init .checked 4 (fun _ => 0)) exTurns ∧
    w.core.results = [(0, .stats [0, 0, 0, 0, 0, 0, 0, 0, 0, 0, 0, 0])] := by
  have e : ((AWeak.init .checked 4 (fun _ => 0)).sched exTurns).map (fun w => (w.begun, w.core.results)) =
      some (2, [(0, .stats [0, 0, 0, 0, 0, 0, 0, 0, 0, 0, 0, 0])]) := by decide +kernel
  obtain ⟨w, hw, g⟩ := Option.map_eq_some_iff.1 e
  simp only [Prod.mk.injEq] at g
  refine ⟨w, hw, g.1, ?_, g.2⟩
  have hsteps : ∀ t is, ∀ a ∈ readSteps t is, ∃ t i ok, a = AAct.step t i ok := by
    intro t is a ha; obtain ⟨i, _, rfl⟩ := List.mem_map.1 ha; exact ⟨t, i, true, rfl⟩
  have q0 : (AWeak.init .checked 4 (fun _ => 0)).core.Quiescent := fun _ => rfl
  have idle0 : ∀ u, ¬ (AWeak.init .checked 4 (fun _ => 0)).core.Measures u := by
    intro u; show ¬ (APc.idle).measures = true; simp [APc.measures]
  have nm : ∀ {acts : List AAct} {w' : AWeak}, (AWeak.init .checked 4 (fun _ => 0)).sched acts = some w' → (∀ a ∈ acts, a.tid < 2) →
      ((AWeak.init .checked 4 (fun _ => 0)).sched acts).map (fun w => ((w.core.th 0).pc, (w.core.th 1).pc)) = some (.idle, .idle) →
      ∀ u, ¬ w'.core.Measures u := by
    intro acts w' h ht hm
    rw [h] at hm
    have hm' := Option.some.inj hm
    simp only [Prod.mk.injEq] at hm'
    exact not_measuring h q0 ht hm'.1 hm'.2
  have cons : ∀ {w w1 : AWeak} {a as}, w.act a = some w1 → w.sched (a :: as) = w1.sched as := by
    intro w w1 a as h; simp only [AWeak.sched, h]
  unfold exTurns
  rw [List.append_assoc, List.cons_append]
  refine ⟨⟨trivial, idle0⟩, fun s1 hs1 => ?_⟩
  refine oneAfterAnother_steps exTurns0 _ (hsteps _ _) fun s2 hs2 => ?_
  have r2 : (AWeak.init .checked 4 (fun _ => 0)).sched (.save 0 :: exTurns0) = some s2 := (cons hs1).trans hs2
  have n2 := nm r2 (by decide) (by decide +kernel)
  rw [List.cons_append]
  refine ⟨trivial, fun s3 hs3 => ?_⟩
  have n3 : ∀ u, ¬ s3.core.Measures u := nm (acts := (.save 0 :: exTurns0) ++ [AAct.sync 1 0])
    (wsched_append.2 ⟨s2, r2, cons hs3⟩) (by decide) (by decide +kernel)
  rw [List.cons_append]
  refine ⟨⟨Or.inr ⟨rfl, rfl, n2 0⟩, n3⟩, fun s4 hs4 => ?_⟩
  refine oneAfterAnother_steps exTurns1 _ (hsteps _ _) fun s5 hs5 => ?_
  have n5 : ∀ u, ¬ s5.core.Measures u := nm (acts := (.save 0 :: exTurns0) ++ (.sync 1 0 :: .save 1 :: exTurns1))
    (wsched_append.2 ⟨s2, r2, ((cons hs3).trans (cons hs4)).trans hs5⟩) (by decide) (by decide +kernel)
  refine ⟨⟨rfl, n5⟩, fun s6 hs6 => ?_⟩
  rw [← List.append_nil exTurns2]
  exact oneAfterAnother_steps exTurns2 [] (hsteps _ _) (fun _ _ => trivial)

/-- thread 0 takes a save point; thread 1 takes one up to the publication of its slot; thread 0 asks for the statistics, sees
`published_tail` and goes on to read the slot of thread 1 -/
def exRace : List AAct :=
  [AAct.save 0] ++ readSteps 0 ([0, 0] ++ [0, 0, 0] ++ [1, 0, 0, 0, 0] ++ [0, 0, 0, 0, 0, 0, 0, 0, 0, 0, 1, 1] ++ [0]) ++
  [AAct.save 1] ++ readSteps 1 [0, 0, 0, 0, 0] ++ [AAct.delta 0 0] ++ readSteps 0 [0, 2]

/-- C116. without the hypothesis the guarantees are lost: two threads measure, each with its own save point, without synchronising, as tests
run in parallel do.  Thread 0's request reads the slot thread 1 stored: a data race; and since nothing makes the store visible, what it
reads may be uninitialised memory. -/
theorem C116_race : ∃ w : AWeak, (AWeak.init .checked 4 (fun _ => 0)).sched (exRace ++ [AAct.step 0 0 true]) = some w ∧
    (∀ a ∈ exRace ++ [AAct.step 0 0 true], a.tid < 2) ∧ w.begun = 2 ∧ w.raced ∧
    w.rpc 0 = .panicked (.msg "undefined behaviour: uninitialised slot") := by
  have e : ((AWeak.init .checked 4 (fun _ => 0)).sched exRace).map (fun w => (w.rpc 0, w.rview 0 (.slot 1), (w.slot 1).top,
      (w.slot 1).val 0, w.begun)) = some (.reading 0 usizeMax 0 [(1, .min), (1, .max)], 0, 1, none, 2) := by decide +kernel
  obtain ⟨w, hw, g⟩ := Option.map_eq_some_iff.1 e
  simp only [Prod.mk.injEq] at g
  obtain ⟨g1, g2, g3, g4, g5⟩ := g
  refine ⟨(w.fetch 0 1 0).setRpc 0 (.panicked (.msg "undefined behaviour: uninitialised slot")), wsched_append.2 ⟨w, hw, ?_⟩, by decide, g5,
    Or.inr ?_, ?_⟩
  · have hrd : w.readable 0 (.slot 1) 0 = true := by simp [AWeak.readable, g2]
    simp only [AWeak.sched, AWeak.act, AWeak.step, g1, AWeak.ringStep, hrd, if_true, g4]
  · show w.rview 0 (.slot 1) < (w.slot 1).top
    omega
  · simp [AWeak.setRpc]

end BigO
