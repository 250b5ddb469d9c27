import Verif.Proofs.Disturb
import Verif.Props.AllocPass
import Verif.Props.Background
import Verif.Props.SpaceThreads

/-!
# C121: the disturbance of a space measurement by other threads, atomic access by atomic access
-/
namespace BigO

theorem isCallDelta_alone {t k : Nat} {as : List AAct} (h : Alone t as) : callsIn (.delta t k :: as) = [] := callsIn_alone as h

/-- **C121** (a pass): whatever the interleaving of the atomic accesses, stale reads included, and although the other threads may be anywhere when
the statistics are asked for: a pass in which the measuring thread needs at most `need` bytes, while the other threads together swing
by at most `D`, reports a peak which is within `D` bytes of `need` above the memory it found in use. -/
theorem C121_pass (pr : Profile) (N : Nat) (s0 : Stats) (h0 : ∀ c, s0 c < 2 ^ 64) {t n need D : Nat} {pre mid : List AAct} {s1 s4 : AConc}
    (reach : (AConc.init pr N s0).sched pre = some s1) (pass : DisturbedPass t s1 s4 mid) (dist : Disturbance t n need D s1.used mid)
    (room : ∀ k ∈ deltaCtrs, s0 k + ((callsIn pre ++ callsIn mid).map (contribution k)).sum < 2 ^ 64) :
    ∃ m, s4.passSpace s1.saved.length = some m ∧ m.usedBefore = s1.used ∧ m.maxUsed < 2 ^ 64 ∧
      |(m.maxUsed : Int) - m.usedBefore - need| ≤ D ∧
      ∃ post, (AConc.init pr N s0).sched (pre ++ post) = some s4 ∧ callsIn post = callsIn mid := by
  obtain ⟨q1, f1, ho, save, req, s2, s3, h2, a2, i2, h3, h4, a4, i4⟩ := pass
  obtain ⟨F2, hsv, -, hmax2⟩ := save_alone f1 a2 h2 i2
  have h12 : (AConc.init pr N s0).sched (pre ++ .save t :: save) = some s2 := sched_append.2 ⟨s1, reach, h2⟩
  have V2 := view_sched h12
  have q2 : s2.Quiescent := by
    intro u
    by_cases hu : u = t
    · subst hu; exact i2
    · rw [F2.others u hu]; exact q1 u
  have hcur : s2.loc .currentUsedMemory = s1.loc .currentUsedMemory := F2.other_locs _ (by simp) (by simp)
  have hstart : s2.started = callsIn (pre ++ .save t :: save) := by
    rw [started_sched _ _ _ h12]; rfl
  have hbase := sums_sched (k := .currentUsedMemory) (by decide) (by decide) (h0 _) h12 q2
  rw [hcur] at hbase
  change (s1.used : Int) = _ at hbase
  have I0 : DInv s0 (callsIn (pre ++ .save t :: save)) n t s1.used (s2.loc .currentUsedMemory).top (s2.loc .maxUsedMemory).top (fun _ => []) s2 :=
    DInv.start hstart hbase (by rw [hcur]; rfl) hmax2 q2 F2.fresh V2.views
  obtain ⟨I3, e1, e2⟩ := I0.sched hbase mid (fun _ => []) s2 s3 dist.threads ho
    (fun u hu c hc => dist.moves u hu c (by simpa using hc)) h3
  have i3 : (s3.th t).pc = .idle := by
    obtain ⟨s, hs, -⟩ := sched_cons_some h4
    simp only [AConc.act] at hs
    split at hs
    · assumption
    · simp at hs
  have hsp : s3.saved[s1.saved.length]? = some ⟨allCtrs.map fun c => (s2.loc c).last, s2.slots.length, (s2.th t).view⟩ := by
    rw [e1, hsv, List.getElem?_append_right (Nat.le_refl _), Nat.sub_self]; rfl
  obtain ⟨e4, hask⟩ := ask_alone a4 hsp (by rw [e2]) (by simp [allCtrs, deltaCtrs]) h4 i4
  have h14 : s1.sched ((.save t :: save) ++ (mid ++ (.delta t s1.saved.length :: req))) = some s4 :=
    sched_append.2 ⟨s2, h2, sched_append.2 ⟨s3, h3, h4⟩⟩
  have hcalls : callsIn ((.save t :: save) ++ (mid ++ (.delta t s1.saved.length :: req))) = callsIn mid := by
    rw [callsIn_append, callsIn_append, show callsIn (.save t :: save) = [] from callsIn_alone save a2,
      show callsIn (.delta t s1.saved.length :: req) = [] from callsIn_alone req a4, List.nil_append, List.append_nil]
  have hall : (AConc.init pr N s0).sched (pre ++ ((.save t :: save) ++ (mid ++ (.delta t s1.saved.length :: req)))) = some s4 :=
    sched_append.2 ⟨s1, reach, h14⟩
  rcases hask with hr | ⟨got, u, mn, i, hl, hi1, hi2, hr⟩
  · exfalso
    refine C88_no_underflow pr N s0 hall (fun k hk => ?_) s1.saved.length (by rw [hr]; simp)
    rw [callsIn_append, hcalls]; exact room k hk
  have hb9 : (allCtrs.map fun c => (s2.loc c).last).getD 9 0 = s1.used := by
    show (s2.loc .currentUsedMemory).last = _
    rw [hcur]; rfl
  obtain ⟨d, hd, hD⟩ := dist.swings
  have hnear := I3.maximum i3 dist.here (d := d) (need := need) (D := D) (fun u _ hu => by simpa using hd u hu) hD
    (by simpa using dist.needs) (by simpa using dist.low) dist.high hi1 hi2
  have hlt := (abs_le.1 hnear).2
  have hh := dist.high
  refine ⟨⟨s1.used, u, (s3.loc .maxUsedMemory).val i, mn⟩, ?_, rfl, ?_, hnear, _, hall, hcalls⟩
  · unfold AConc.passSpace
    rw [hr, List.getLast?_append, e4, hsp]
    simp only [List.getLast?_singleton, Option.some_or, spaceOfLists, hb9]
    have h9 : got.length = 9 := hl
    simp [List.getD_eq_getElem?_getD, h9]
  · show (s3.loc .maxUsedMemory).val i < 2 ^ 64
    omega

theorem near_error {m : SpacePass} {need D : ℕ} {δ : ℝ} (h : |(m.maxUsed : Int) - m.usedBefore - need| ≤ D) (hδ : δ < 1) (hD : D ≤ δ * need) (hn : 0 < need) :
    m.usedBefore < m.maxUsed ∧ WithinError δ need (bytesUsed m) := by
  have hr : (D : ℝ) < need := lt_of_le_of_lt hD (by have : (0:ℝ) < need := by exact_mod_cast hn
                                                    nlinarith)
  have hDn : D < need := by exact_mod_cast hr
  have hlt : m.usedBefore < m.maxUsed := by
    have := (abs_le.1 h).1
    omega
  refine ⟨hlt, ?_⟩
  have hc : (bytesUsed m : Int) = (m.maxUsed : Int) - m.usedBefore := by unfold bytesUsed; omega
  rw [← hc] at h
  have h' : |(bytesUsed m : ℝ) - need| ≤ D := by exact_mod_cast h
  exact h'.trans hD

section verdicts
variable {p : Profile} {log2 : F → F} {powi : F → ℕ → F} (powf : F → F → F) (H : AccurateLibrary log2 powi) {tol : ℝ} (ht : tol = 1 / 10 ∨ tol = 1 / 4)
  (N : ℕ) (s0 : Stats) (h0 : ∀ c, s0 c < 2 ^ 64) {t n x1 x2 d1 d2 : ℕ} {pre mid1 between mid2 : List AAct} {s1 s2 s3 s4 : AConc}
  (reach : (AConc.init p N s0).sched pre = some s1) (pass1 : DisturbedPass t s1 s2 mid1) (dist1 : Disturbance t n x1 d1 s1.used mid1)
  (hbetween : s2.sched between = some s3) (pass2 : DisturbedPass t s3 s4 mid2) (dist2 : Disturbance t n x2 d2 s3.used mid2)
  (room : ∀ k ∈ deltaCtrs, s0 k + ((callsIn pre ++ callsIn mid1 ++ callsIn between ++ callsIn mid2).map (contribution k)).sum < 2 ^ 64)
  (p1 : 0 < x1) (p2 : 0 < x2) (δ : ℝ) (hδ0 : 0 ≤ δ) (e1 : d1 ≤ δ * x1) (e2 : d2 ≤ δ * x2)

include h0 reach pass1 dist1 hbetween pass2 dist2 room p1 p2 e1 e2 in
theorem disturbed_passes (hδ : δ < 1) : ∃ m1 m2, s2.passSpace s1.saved.length = some m1 ∧ s4.passSpace s3.saved.length = some m2 ∧
    WithinError δ x1 (bytesUsed m1) ∧ WithinError δ x2 (bytesUsed m2) ∧ m1.usedBefore < m1.maxUsed ∧ m2.usedBefore ≤ m2.maxUsed ∧
    m1.maxUsed ≤ usizeMax ∧ m2.maxUsed ≤ usizeMax := by
  obtain ⟨m1, r1, -, t1, n1, post, hpost, hc⟩ := C121_pass p N s0 h0 reach pass1 dist1 (fun k hk => by
    have := room k hk
    simp only [List.map_append, List.sum_append] at this ⊢
    omega)
  have reach3 : (AConc.init p N s0).sched ((pre ++ post) ++ between) = some s3 := sched_append.2 ⟨s2, hpost, hbetween⟩
  obtain ⟨m2, r2, -, t2, n2, -⟩ := C121_pass p N s0 h0 reach3 pass2 dist2 (fun k hk => by
    rw [callsIn_append, callsIn_append, hc]; exact room k hk)
  obtain ⟨b1, w1⟩ := near_error n1 hδ e1 p1
  obtain ⟨b2, w2⟩ := near_error n2 hδ e2 p2
  exact ⟨m1, m2, r1, r2, w1, w2, b1, b2.le, Nat.le_pred_of_lt t1, Nat.le_pred_of_lt t2⟩

include H ht h0 reach pass1 dist1 hbetween pass2 dist2 room p1 p2 hδ0 e1 e2 in
/-- **C121** (harmless disturbance): as C120, with every interleaving of the atomic accesses of any number of threads and every stale read: if the
memory the measuring thread needs grows between two passes no more than the limit allows, and the other threads together swing by at
most `tol / (2 + tol)` of that need (minus one part in 2^40), each of the space analyses accepts. -/
theorem C121_accepted (hδ : δ + 1 / 2 ^ 40 ≤ tol / (2 + tol)) (limit : Complexity) :
    let E := shippedEnv log2 powi powf tol
    ∃ m1 m2, s2.passSpace s1.saved.length = some m1 ∧ s4.passSpace s3.saved.length = some m2 ∧
      (∀ (a b : ℕ) (f : ℝ → ℝ), 3 ≤ a → a ≤ b → b ≤ 2 ^ 32 → growth limit = some f → (x2 : ℝ) / x1 ≤ grows f a b →
        ∃ v, analyseSpace E p ⟨a, b⟩ ⟨m1, m2⟩ = .ok v ∧ v.asU32 ≤ limit.asU32) ∧
      (∀ (a b rep : ℕ) (f : ℝ → ℝ), 3 ≤ a → 3 ≤ b → a ≤ 2 ^ 32 → b ≤ 2 ^ 32 → growth limit = some f →
        (x2 : ℝ) / x1 ≤ grows f (min a b : ℕ) (max a b : ℕ) →
        ∃ v, analyseSpaceConstantSet E p ⟨a, b, rep⟩ ⟨m1, m2⟩ = .ok v ∧ v.asU32 ≤ limit.asU32) ∧
      (∀ (n : ℕ) (g : ℝ), 2 ≤ n → n ≤ 2 ^ 32 → resizingGrowth n limit = some g → (x2 : ℝ) / x1 ≤ g →
        ∃ v, analyseSpaceSetResizing E p ⟨n⟩ ⟨m1, m2⟩ = .ok v ∧ v.asU32 ≤ limit.asU32) := by
  intro E
  have htol : 0 < tol := by rcases ht with rfl | rfl <;> norm_num
  obtain ⟨m1, m2, r1, r2, u1, u2, b1, b2, t1, t2⟩ := disturbed_passes N s0 h0 reach pass1 dist1 hbetween pass2 dist2 room p1 p2 δ e1 e2
    (margin_lt_one htol hδ)
  have hx1 : (0:ℝ) < x1 := by exact_mod_cast p1
  have hx2 : (0:ℝ) < x2 := by exact_mod_cast p2
  have within : ∀ {g : ℝ}, (x2 : ℝ) / x1 ≤ g → (bytesUsed m2 : ℝ) * abitMore / bytesUsed m1 < (1 + tol) * g := fun hg =>
    noisy_within htol hδ0 hδ hx1 hx2 hg u1 u2
  obtain ⟨A, B, C⟩ := C83_space log2 powi powf H tol ht p m1 m2 b1 b2 t1 t2 limit
  refine ⟨m1, m2, r1, r2, ?_, ?_, ?_⟩
  · intro a b f ha hab hb32 hf hg
    obtain ⟨v, hv, acc, -⟩ := A a b ha hab hb32 (Or.inl (polynomial_of_growth hf))
    exact ⟨v, hv, acc ((meets_named hf).2 (within hg).le)⟩
  · intro a b rep f ha hb3 ha32 hb32 hf hg
    obtain ⟨v, hv, acc, -⟩ := B a b rep ha hb3 ha32 hb32 (Or.inl (polynomial_of_growth hf))
    exact ⟨v, hv, acc ((meets_named hf).2 (within hg).le)⟩
  · intro n g hn hn32 hg hq
    obtain ⟨v, hv, acc, -⟩ := C n hn hn32
    exact ⟨v, hv, acc (meets_resizing (within hq) (resizing_cases hg))⟩

include H ht h0 reach pass1 dist1 hbetween pass2 dist2 room p1 p2 hδ0 e1 e2 in
/-- **C121** (the disturbance hides nothing big): if the memory the measuring thread needs grows between two passes more than
`(1 + tol)(1 + δ)/(1 - δ)` times as much as the limit (and one part in 2^40 for the arithmetic), while the other threads together
swing by at most `δ` of that need, each of the space analyses finds more than the limit, whatever the interleavings and the stale reads. -/
theorem C121_rejected (hδ : δ < 1) (limit : Complexity) :
    let E := shippedEnv log2 powi powf tol
    let Exceeds := fun g : ℝ => (1 + tol) * ((1 + δ) / (1 - δ)) * g < x2 / x1 * abitLess
    ∃ m1 m2, s2.passSpace s1.saved.length = some m1 ∧ s4.passSpace s3.saved.length = some m2 ∧
      (∀ (a b : ℕ) (f : ℝ → ℝ), 3 ≤ a → a ≤ b → b ≤ 2 ^ 32 → growth limit = some f → Exceeds (grows f a b) →
        ∃ v, analyseSpace E p ⟨a, b⟩ ⟨m1, m2⟩ = .ok v ∧ limit.asU32 < v.asU32) ∧
      (∀ (a b rep : ℕ) (f : ℝ → ℝ), 3 ≤ a → 3 ≤ b → a ≤ 2 ^ 32 → b ≤ 2 ^ 32 → growth limit = some f →
        Exceeds (grows f (min a b : ℕ) (max a b : ℕ)) →
        ∃ v, analyseSpaceConstantSet E p ⟨a, b, rep⟩ ⟨m1, m2⟩ = .ok v ∧ limit.asU32 < v.asU32) ∧
      (∀ (n : ℕ) (g : ℝ), 2 ≤ n → n ≤ 2 ^ 32 → resizingGrowth n limit = some g → Exceeds g →
        ∃ v, analyseSpaceSetResizing E p ⟨n⟩ ⟨m1, m2⟩ = .ok v ∧ limit.asU32 < v.asU32) := by
  intro E Exceeds
  have htol : 0 < tol := by rcases ht with rfl | rfl <;> norm_num
  obtain ⟨m1, m2, r1, r2, u1, u2, b1, b2, t1, t2⟩ := disturbed_passes N s0 h0 reach pass1 dist1 hbetween pass2 dist2 room p1 p2 δ e1 e2 hδ
  have hx1 : (0:ℝ) < x1 := by exact_mod_cast p1
  have hx2 : (0:ℝ) < x2 := by exact_mod_cast p2
  have beyond : ∀ {g : ℝ}, Exceeds g → (1 + tol) * g < (bytesUsed m2 : ℝ) * abitLess / bytesUsed m1 := fun hg =>
    noisy_beyond hδ0 hδ hx1 hx2 hg u1 u2
  obtain ⟨A, B, C⟩ := C83_space log2 powi powf H tol ht p m1 m2 b1 b2 t1 t2 limit
  refine ⟨m1, m2, r1, r2, ?_, ?_, ?_⟩
  · intro a b f ha hab hb32 hf hg
    obtain ⟨v, hv, -, acc⟩ := A a b ha hab hb32 (Or.inl (polynomial_of_growth hf))
    exact ⟨v, hv, lt_of_not_ge fun hle => absurd ((meets_named hf).1 (acc hle)) (not_le.2 (beyond hg))⟩
  · intro a b rep f ha hb3 ha32 hb32 hf hg
    obtain ⟨v, hv, -, acc⟩ := B a b rep ha hb3 ha32 hb32 (Or.inl (polynomial_of_growth hf))
    exact ⟨v, hv, lt_of_not_ge fun hle => absurd ((meets_named hf).1 (acc hle)) (not_le.2 (beyond hg))⟩
  · intro n g hn hn32 hg hq
    obtain ⟨v, hv, -, acc⟩ := C n hn hn32
    exact ⟨v, hv, lt_of_not_ge fun hle => not_meets_resizing htol hn (beyond hq) (resizing_cases hg) (acc hle)⟩

end verdicts

/-! ## Resizes to the same size -/

/-- steps of thread `t`, each reading the given position -/
def readsOf (t : Nat) (is : List Nat) : List AAct := is.map fun i => .step t i true

/-- thread 1 allocates 1000 bytes and frees them -/
def oldPeak : List AAct :=
  .call 1 (.alloc 1000 true) :: readsOf 1 [0, 0, 0, 1, 0, 0, 0] ++ .call 1 (.dealloc 1000) :: readsOf 1 [0, 0, 0, 2, 0, 1]

/-- thread 1 takes a save point -/
def oldPeakSave : List AAct := readsOf 1 [0, 1, 0, 0, 2, 0, 2, 0, 1, 1, 0, 0, 1, 1, 0, 0, 0, 2, 1, 2, 0]

/-- thread 2, which has not synchronised with thread 1, resizes 8 bytes to 8 bytes; the used memory it loads is one of before the save point -/
def sameSize : List AAct := .call 2 (.realloc 8 8 true) :: readsOf 2 [0, 0, 0, 1, 1, 2, 0]

/-- thread 1 asks for the statistics -/
def oldPeakAsk : List AAct := readsOf 1 [0, 1, 3, 1, 1, 0, 1, 1, 1, 0, 1, 1, 0, 2]

theorem all_ctrs {s : AConc} {t : Nat} (h : allCtrs.map (fun c => decide ((s.th t).view c = (s.loc c).top)) = allCtrs.map (fun _ => true)) :
    s.UpToDate t := by
  intro c
  have := List.map_inj_left.1 h c (by cases c <;> decide)
  simpa using this

theorem alone_readsOf (t : Nat) (is : List Nat) : Alone t (readsOf t is) := by
  intro a ha; obtain ⟨i, _, rfl⟩ := List.mem_map.1 ha; exact ⟨i, true, rfl⟩

theorem quiescent_of {s : AConc} (h1 : (s.th 1).pc = .idle) (h2 : (s.th 2).pc = .idle) (h3 : ∀ u, u ≠ 1 → u ≠ 2 → (s.th u).pc = .idle) : s.Quiescent := by
  intro u
  by_cases e1 : u = 1
  · rw [e1]; exact h1
  · by_cases e2 : u = 2
    · rw [e2]; exact h2
    · exact h3 u e1 e2

theorem idle_of_untouched {as : List AAct} {s : AConc} {u : Nat} (h : (AConc.init .checked 1024 (fun _ => 0)).sched as = some s)
    (hn : ∀ a ∈ as, a.tid ≠ u) : (s.th u).pc = .idle := by rw [untouched as _ s hn h]; rfl

/-- **C121** (what the exception is for): another thread that resizes a block to the size it has, and so uses no more and no less memory at any
time, can record a peak of before the save point as one of after it: the pass reports that 1000 bytes were used although nobody used
any. -/
theorem C121_old_peak : ∃ s1 s4, (AConc.init .checked 1024 (fun _ => 0)).sched oldPeak = some s1 ∧ DisturbedPass 1 s1 s4 sameSize ∧
    s1.used = 0 ∧ heapCallsBy 1 sameSize = [] ∧ CallsSwing 0 (heapCallsBy 2 sameSize) ∧
    s4.passSpace 0 = some ⟨0, 0, 1000, 0⟩ := by
  have e1 : ((AConc.init .checked 1024 (fun _ => 0)).sched oldPeak).map (fun s => ((s.th 1).pc, s.saved.length, s.used,
      allCtrs.map fun c => decide ((s.th 1).view c = (s.loc c).top))) = some (.idle, 0, 0, allCtrs.map fun _ => true) := by decide +kernel
  have e2 : ((AConc.init .checked 1024 (fun _ => 0)).sched (oldPeak ++ (.save 1 :: oldPeakSave))).map (fun s => (s.th 1).pc) = some .idle := by
    decide +kernel
  have e3 : ((AConc.init .checked 1024 (fun _ => 0)).sched ((oldPeak ++ (.save 1 :: oldPeakSave)) ++ sameSize)).map (fun s => (s.th 1).pc) =
      some .idle := by decide +kernel
  have e4 : ((AConc.init .checked 1024 (fun _ => 0)).sched (((oldPeak ++ (.save 1 :: oldPeakSave)) ++ sameSize) ++ (.delta 1 0 :: oldPeakAsk))).map
      (fun s => ((s.th 1).pc, s.passSpace 0)) = some (.idle, some ⟨0, 0, 1000, 0⟩) := by decide +kernel
  obtain ⟨s1, h1, f1⟩ := Option.map_eq_some_iff.1 e1
  obtain ⟨s2, h2, f2⟩ := Option.map_eq_some_iff.1 e2
  obtain ⟨s3, h3, f3⟩ := Option.map_eq_some_iff.1 e3
  obtain ⟨s4, h4, f4⟩ := Option.map_eq_some_iff.1 e4
  simp only [Prod.mk.injEq] at f1 f4
  have c1 := sched_rest h1 h2
  have c2 := sched_rest h2 h3
  have c3 := sched_rest h3 h4
  refine ⟨s1, s4, h1, ⟨?_, all_ctrs f1.2.2.2, ?_, oldPeakSave, oldPeakAsk, s2, s3, c1, alone_readsOf _ _, f2, c2, ?_, alone_readsOf _ _, f4.1⟩,
    f1.2.2.1, by decide, ?_, f4.2⟩
  · refine quiescent_of f1.1 (idle_of_untouched h1 (by decide)) fun u hu _ => idle_of_untouched h1 ?_
    have : ∀ a ∈ oldPeak, a.tid = 1 := by decide
    intro a ha e; exact hu (by rw [← e, this a ha])
  · intro x hx
    simp only [sameSize, readsOf, List.mem_cons, List.mem_map] at hx
    rcases hx with rfl | ⟨i, -, rfl⟩
    · exact Or.inl ⟨2, _, rfl⟩
    · exact Or.inr (Or.inr ⟨2, i, true, rfl⟩)
  · rw [f1.2.1]; exact c3
  · unfold CallsSwing
    simp only [← List.mem_inits]
    decide

/-! ## A concrete case -/

/-- thread 1 takes 8 bytes -/
def bgPre : List AAct := .call 1 (.alloc 8 true) :: readsOf 1 [0, 0, 0, 1, 0, 0, 0]
/-- thread 1 alone takes a save point -/
def bgSave1 : List AAct := readsOf 1 [0, 1, 0, 0, 1, 0, 1, 0, 1, 0, 0, 0, 1, 0, 0, 0, 0, 1, 1, 2, 0]
/-- thread 2 takes 4 bytes at the same time as thread 1 takes 100, they read stale values and lose a compare-exchange; each starts to free, and
thread 2 is in the middle of it when thread 1 is done -/
def bgWork1 : List AAct :=
  [.call 2 (.alloc 4 true), .call 1 (.alloc 100 true)] ++ readsOf 2 [0, 0, 0] ++ readsOf 1 [0, 0, 0, 3, 1] ++ readsOf 2 [2, 0] ++ readsOf 1 [2, 0] ++
  readsOf 2 [0] ++ [.step 2 3 false] ++ .call 2 (.dealloc 4) :: readsOf 2 [0, 0] ++ .call 1 (.dealloc 100) :: readsOf 1 [0, 0, 0, 4, 1, 3]
/-- thread 1 alone asks for the statistics -/
def bgAsk1 : List AAct := readsOf 1 [0, 1, 3, 3, 2, 0, 0, 3, 2, 0, 0, 0, 0, 4]
/-- thread 2 gets done and thread 1 waits for it -/
def bgBetween : List AAct := readsOf 2 [0, 5, 0, 3] ++ [.sync 1 2]
def bgSave2 : List AAct := readsOf 1 [1, 3, 0, 0, 5, 0, 5, 0, 3, 2, 0, 0, 3, 2, 0, 0, 0, 5, 2, 4, 0]
/-- the same with 200 bytes -/
def bgWork2 : List AAct :=
  [.call 2 (.alloc 4 true), .call 1 (.alloc 200 true)] ++ readsOf 2 [0, 0, 0] ++ readsOf 1 [0, 0, 0, 7, 2] ++ readsOf 2 [6, 0] ++ readsOf 1 [4, 0] ++
  readsOf 2 [3] ++ .call 2 (.dealloc 4) :: readsOf 2 [0, 0] ++ .call 1 (.dealloc 200) :: readsOf 1 [0, 0, 0, 8, 2, 5]
def bgAsk2 : List AAct := readsOf 1 [0, 2, 5, 5, 4, 0, 0, 5, 4, 0, 0, 0, 0, 8]

theorem bg_disturbance (n : ℕ) (w : List AAct) (h1 : heapCallsBy 1 w = [.alloc n true, .dealloc n])
    (h2 : heapCallsBy 2 w = [.alloc 4 true, .dealloc 4]) (ht : ∀ x ∈ w, x.tid = 1 ∨ x.tid = 2) (hn : n < 1000) : Disturbance 1 3 n 4 8 w := by
  have other : ∀ (w : List AAct) (u : ℕ), (∀ x ∈ w, x.tid = 1 ∨ x.tid = 2) → u ≠ 1 → u ≠ 2 → heapCallsBy u w = [] := by
    intro w
    induction w with
    | nil => intros; rfl
    | cons x w ih =>
      intro u h e1 e2
      have hx := h x (by simp)
      have hr := ih u (fun y hy => h y (by simp [hy])) e1 e2
      cases x with
      | call t c =>
        have : ¬ t = u := by
          rintro rfl
          rcases hx with e | e
          · exact e1 e
          · exact e2 e
        show (if t = u then _ else _) = _
        rw [if_neg this, hr]
      | _ => exact hr
  have pref : ∀ (m : ℕ) (pr : List HeapCall), pr <+: [.alloc m true, .dealloc m] → netCalls pr = 0 ∨ netCalls pr = m := by
    intro m pr h
    rcases pr with _ | ⟨x, _ | ⟨y, pr⟩⟩
    · exact Or.inl rfl
    · obtain ⟨rfl, -⟩ := List.cons_prefix_cons.1 h
      right; simp [netCalls, netBytes]
    · obtain ⟨rfl, h2⟩ := List.cons_prefix_cons.1 h
      obtain ⟨rfl, h'⟩ := List.cons_prefix_cons.1 h2
      obtain rfl := List.prefix_nil.1 h'
      left; simp [netCalls, netBytes]
  refine ⟨by decide, fun x hx => by rcases ht x hx with e | e <;> omega, ?_, ⟨fun u => if u = 2 then 4 else 0, ?_, by decide⟩, ?_, ?_, by omega⟩
  · rw [h1]
    refine ⟨⟨[.alloc n true], ⟨[.dealloc n], rfl⟩, by simp [netCalls, netBytes]⟩, fun pr h => ?_⟩
    rcases pref n pr h with e | e <;> omega
  · intro u hu
    by_cases e : u = 2
    · subst e
      rw [h2]
      intro pr h
      rcases pref 4 pr h with e | e <;> rw [e] <;> decide
    · rw [other w u ht hu e]
      intro pr h
      obtain rfl := List.prefix_nil.1 h
      simp [netCalls, e]
  · intro u hu c hc
    by_cases e : u = 2
    · subst e
      rw [h2] at hc
      simp only [List.mem_cons, List.not_mem_nil, or_false] at hc
      rcases hc with rfl | rfl <;> intro _ _ h <;> cases h
    · rw [other w u ht hu e] at hc; cases hc
  · rw [h1]
    intro pr h
    rcases pref n pr h with e | e <;> omega

theorem bg_heap {w : List AAct} (h : ∀ x ∈ w, (match x with | .call _ _ => true | .sync _ _ => true | .step _ _ _ => true | _ => false) = true) :
    OnlyHeap w := by
  intro x hx
  have := h x hx
  cases x with
  | call u c => exact Or.inl ⟨u, c, rfl⟩
  | sync u v => exact Or.inr (Or.inl ⟨u, v, rfl⟩)
  | step u i ok => exact Or.inr (Or.inr ⟨u, i, ok, rfl⟩)
  | save u => simp at this
  | delta u k => simp at this

/-- the hypotheses of `C121_pass`, `C121_accepted` and `C121_rejected` are met by two passes of thread 1 disturbed by thread 2, which is in the
middle of a call when the statistics are asked for; this is what they report -/
theorem example_disturbed : ∃ s1 s2 s3 s4, (AConc.init .checked 1024 (fun _ => 0)).sched bgPre = some s1 ∧ DisturbedPass 1 s1 s2 bgWork1 ∧
    Disturbance 1 3 100 4 s1.used bgWork1 ∧ s2.sched bgBetween = some s3 ∧ DisturbedPass 1 s3 s4 bgWork2 ∧
    Disturbance 1 3 200 4 s3.used bgWork2 ∧ ¬ s2.Quiescent ∧
    (s2.passSpace s1.saved.length).map (fun m => (m.usedBefore, m.maxUsed)) = some (8, 112) ∧
    (s4.passSpace s3.saved.length).map (fun m => (m.usedBefore, m.maxUsed)) = some (8, 212) := by
  have e1 : ((AConc.init .checked 1024 (fun _ => 0)).sched bgPre).map (fun s => ((s.th 1).pc, s.saved.length, s.used,
      allCtrs.map fun c => decide ((s.th 1).view c = (s.loc c).top))) = some (.idle, 0, 8, allCtrs.map fun _ => true) := by decide +kernel
  have e2 : ((AConc.init .checked 1024 (fun _ => 0)).sched (bgPre ++ (.save 1 :: bgSave1))).map (fun s => (s.th 1).pc) = some .idle := by
    decide +kernel
  have e3 : ((AConc.init .checked 1024 (fun _ => 0)).sched ((bgPre ++ (.save 1 :: bgSave1)) ++ bgWork1)).map (fun s => (s.th 1).pc) =
      some .idle := by decide +kernel
  have e4 : ((AConc.init .checked 1024 (fun _ => 0)).sched (((bgPre ++ (.save 1 :: bgSave1)) ++ bgWork1) ++ (.delta 1 0 :: bgAsk1))).map
      (fun s => ((s.th 1).pc, decide ((s.th 2).pc = .idle), (s.passSpace 0).map fun m => (m.usedBefore, m.maxUsed))) =
      some (.idle, false, some (8, 112)) := by decide +kernel
  have e5 : ((AConc.init .checked 1024 (fun _ => 0)).sched ((((bgPre ++ (.save 1 :: bgSave1)) ++ bgWork1) ++ (.delta 1 0 :: bgAsk1)) ++ bgBetween)).map
      (fun s => ((s.th 1).pc, (s.th 2).pc, s.saved.length, s.used, allCtrs.map fun c => decide ((s.th 1).view c = (s.loc c).top))) =
      some (.idle, .idle, 1, 8, allCtrs.map fun _ => true) := by decide +kernel
  have e6 : ((AConc.init .checked 1024 (fun _ => 0)).sched (((((bgPre ++ (.save 1 :: bgSave1)) ++ bgWork1) ++ (.delta 1 0 :: bgAsk1)) ++ bgBetween) ++
      (.save 1 :: bgSave2))).map (fun s => (s.th 1).pc) = some .idle := by decide +kernel
  have e7 : ((AConc.init .checked 1024 (fun _ => 0)).sched ((((((bgPre ++ (.save 1 :: bgSave1)) ++ bgWork1) ++ (.delta 1 0 :: bgAsk1)) ++ bgBetween) ++
      (.save 1 :: bgSave2)) ++ bgWork2)).map (fun s => (s.th 1).pc) = some .idle := by decide +kernel
  have e8 : ((AConc.init .checked 1024 (fun _ => 0)).sched (((((((bgPre ++ (.save 1 :: bgSave1)) ++ bgWork1) ++ (.delta 1 0 :: bgAsk1)) ++ bgBetween) ++
      (.save 1 :: bgSave2)) ++ bgWork2) ++ (.delta 1 1 :: bgAsk2))).map
      (fun s => ((s.th 1).pc, (s.passSpace 1).map fun m => (m.usedBefore, m.maxUsed))) = some (.idle, some (8, 212)) := by decide +kernel
  obtain ⟨s1, h1, f1⟩ := Option.map_eq_some_iff.1 e1
  obtain ⟨a2, h2, f2⟩ := Option.map_eq_some_iff.1 e2
  obtain ⟨a3, h3, f3⟩ := Option.map_eq_some_iff.1 e3
  obtain ⟨s2, h4, f4⟩ := Option.map_eq_some_iff.1 e4
  obtain ⟨s3, h5, f5⟩ := Option.map_eq_some_iff.1 e5
  obtain ⟨b2, h6, f6⟩ := Option.map_eq_some_iff.1 e6
  obtain ⟨b3, h7, f7⟩ := Option.map_eq_some_iff.1 e7
  obtain ⟨s4, h8, f8⟩ := Option.map_eq_some_iff.1 e8
  simp only [Prod.mk.injEq] at f1 f4 f5 f8
  have q : ∀ {as : List AAct} {s : AConc}, (∀ a ∈ as, a.tid = 1 ∨ a.tid = 2) → (AConc.init .checked 1024 (fun _ => 0)).sched as = some s →
      (s.th 1).pc = .idle → (s.th 2).pc = .idle → s.Quiescent := fun ht h i1 i2 =>
    quiescent_of i1 i2 fun u hu1 hu2 => idle_of_untouched h fun a ha e => by
      rcases ht a ha with h | h
      · exact hu1 (e.symm.trans h)
      · exact hu2 (e.symm.trans h)
  have d4 := sched_rest h3 h4
  have d8 := sched_rest h7 h8
  refine ⟨s1, s2, s3, s4, h1, ⟨q (by decide) h1 f1.1 (idle_of_untouched h1 (by decide)), all_ctrs f1.2.2.2, bg_heap (by decide), bgSave1, bgAsk1, a2, a3,
      sched_rest h1 h2, alone_readsOf _ _, f2, sched_rest h2 h3, by rw [f1.2.1]; exact d4, alone_readsOf _ _, f4.1⟩, ?_, sched_rest h4 h5,
    ⟨q (by decide) h5 f5.1 f5.2.1, all_ctrs f5.2.2.2.2, bg_heap (by decide), bgSave2, bgAsk2, b2, b3, sched_rest h5 h6, alone_readsOf _ _, f6,
      sched_rest h6 h7, by rw [f5.2.2.1]; exact d8, alone_readsOf _ _, f8.1⟩, ?_, ?_, ?_, ?_⟩
  · rw [f1.2.2.1]; exact bg_disturbance 100 bgWork1 (by decide) (by decide) (by decide) (by decide)
  · rw [f5.2.2.2.1]; exact bg_disturbance 200 bgWork2 (by decide) (by decide) (by decide) (by decide)
  · intro hq
    have := f4.2.1
    rw [hq 2] at this
    simp at this
  · rw [f1.2.1]; exact f4.2.2
  · rw [f5.2.2.1]; exact f8.2

-- growth from 100 to 200 bytes, each disturbed by 4, is accepted as O(n) and not as O(1)
example : ∃ s1 s2 s3 s4 : AConc, ∃ m1 m2 v, s2.passSpace s1.saved.length = some m1 ∧ s4.passSpace s3.saved.length = some m2 ∧
    analyseSpace (shippedEnv idealLog2 idealPowi (fun x _ => x) (1 / 10)) .checked ⟨1000, 2000⟩ ⟨m1, m2⟩ = .ok v ∧
    v.asU32 ≤ Complexity.oN.asU32 ∧ Complexity.o1.asU32 < v.asU32 := by
  obtain ⟨s1, s2, s3, s4, h1, p1, d1, hb, p2, d2, -, -, -⟩ := example_disturbed
  have room : ∀ k ∈ deltaCtrs, (fun _ => 0 : Stats) k +
      ((callsIn bgPre ++ callsIn bgWork1 ++ callsIn bgBetween ++ callsIn bgWork2).map (contribution k)).sum < 2 ^ 64 := by decide
  obtain ⟨m1, m2, r1, r2, h, -⟩ := C121_accepted (fun x _ => x) ideal_library (Or.inl rfl) 1024 (fun _ => 0) (fun _ => by decide) h1 p1 d1 hb p2 d2 room
    (by norm_num) (by norm_num) (1 / 25) (by norm_num) (by norm_num) (by norm_num) (by norm_num) .oN
  obtain ⟨m1', m2', r1', r2', h', -⟩ := C121_rejected (fun x _ => x) ideal_library (Or.inl rfl) 1024 (fun _ => 0) (fun _ => by decide) h1 p1 d1 hb p2 d2 room
    (by norm_num) (by norm_num) (1 / 25) (by norm_num) (by norm_num) (by norm_num) (by norm_num) .o1
  obtain rfl : m1 = m1' := Option.some.inj (r1.symm.trans r1')
  obtain rfl : m2 = m2' := Option.some.inj (r2.symm.trans r2')
  obtain ⟨v, hv, hle⟩ := h 1000 2000 (fun n => n) (by norm_num) (by norm_num) (by norm_num) rfl (by norm_num [grows])
  obtain ⟨v', hv', hlt⟩ := h' 1000 2000 (fun _ => 1) (by norm_num) (by norm_num) (by norm_num) rfl (by norm_num [grows, abitLess])
  rw [hv] at hv'
  obtain rfl : v = v' := Except.ok.inj hv'
  exact ⟨s1, s2, s3, s4, m1, m2, v, r1, r2, hv, hle, hlt⟩

end BigO
