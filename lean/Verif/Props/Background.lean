import Verif.Spec.BackgroundSpec
import Verif.Props.EndToEnd
import Verif.Props.NoiseTests

/-!
# C120: other threads' use of the heap disturbs a space measurement by at most its own swing
-/
namespace BigO

theorem mem_liveTrace (es : List AllocEv) : ∀ (live : List ℕ) (x : ℕ), x ∈ liveTrace live es ↔ ∃ pr, pr <+: es ∧ x = (liveBlocks live pr).sum := by
  induction es with
  | nil => intro live x; simp [liveTrace, liveBlocks]
  | cons e es ih =>
    intro live x
    have key : ∀ live', (∀ pr, liveBlocks live (e :: pr) = liveBlocks live' pr) →
        ((x = live.sum ∨ x ∈ liveTrace live' es) ↔ ∃ pr, pr <+: e :: es ∧ x = (liveBlocks live pr).sum) := by
      intro live' hl
      rw [ih]
      constructor
      · rintro (h | ⟨pr, hp, h⟩)
        · exact ⟨[], List.nil_prefix, h⟩
        · exact ⟨e :: pr, List.cons_prefix_cons.2 ⟨rfl, hp⟩, by rw [hl]; exact h⟩
      · rintro ⟨pr, hp, h⟩
        cases pr with
        | nil => exact Or.inl h
        | cons e' pr =>
          have hp' := List.cons_prefix_cons.1 hp
          rw [hp'.1, hl] at h
          exact Or.inr ⟨pr, hp'.2, h⟩
    cases e with
    | call c => simpa [liveTrace] using key _ fun _ => rfl
    | savePoint => simpa [liveTrace] using key _ fun _ => rfl

theorem netOf_call (c : HeapCall) (es : List AllocEv) : netOf (.call c :: es) = netBytes c + netOf es := by
  simp [netOf, callsOf]

theorem netOf_save (es : List AllocEv) : netOf (.savePoint :: es) = netOf es := rfl

/-- the live bytes are those at the start and what the calls added -/
theorem live_net (es : List AllocEv) : ∀ (live : List ℕ), Respects live es → (∀ c ∈ callsOf es, succeeds c = true) →
    ((liveBlocks live es).sum : Int) = live.sum + netOf es := by
  induction es with
  | nil => intro live _ _; simp [liveBlocks, netOf, callsOf]
  | cons e es ih =>
    intro live hr hs
    cases e with
    | savePoint => exact ih live hr hs
    | call c =>
      rw [netOf_call]
      have h := ih (liveAfter live c) hr.2 (fun x hx => hs x (by simp [callsOf, hx]))
      have hc := hs c (by simp [callsOf])
      have h1 := hr.1
      show ((liveBlocks (liveAfter live c) es).sum : Int) = _
      rw [h]
      cases c with
      | alloc n ok => simp [succeeds] at hc; subst hc; simp only [liveAfter, netBytes, List.sum_cons]; push_cast; ring
      | allocZeroed n ok => simp [succeeds] at hc; subst hc; simp only [liveAfter, netBytes, List.sum_cons]; push_cast; ring
      | dealloc n =>
        have := sum_erase h1.1
        simp only [liveAfter, netBytes]; omega
      | realloc a b ok =>
        simp [succeeds] at hc; subst hc
        have := sum_erase h1.1
        simp only [liveAfter, netBytes, List.sum_cons]; omega

theorem netOf_mix (l : List MixedEv) : netOf (whole l) = netOf (side true l) + netOf (side false l) := by
  induction l with
  | nil => rfl
  | cons e l ih =>
    obtain ⟨who, e⟩ := e
    cases who <;> cases e <;> simp only [whole, side, List.map_cons, List.filter_cons, reduceCtorEq, decide_true, decide_false, if_true, if_false,
      Bool.false_eq_true, netOf_call, netOf_save] at ih ⊢ <;> rw [ih] <;> ring

theorem side_prefix {who : Bool} {l q : List MixedEv} (h : q <+: l) : side who q <+: side who l := by
  obtain ⟨r, rfl⟩ := h
  exact ⟨side who r, by simp [side]⟩

theorem whole_prefix {l : List MixedEv} {pr : List AllocEv} (h : pr <+: whole l) : ∃ q, q <+: l ∧ pr = whole q := by
  refine ⟨l.take pr.length, List.take_prefix _ _, ?_⟩
  rw [List.prefix_iff_eq_take.1 h]
  simp [whole, List.map_take]

/-- an instant of one side is an instant of the whole -/
theorem side_instant {who : Bool} (l : List MixedEv) : ∀ {pr : List AllocEv}, pr <+: side who l → ∃ q, q <+: l ∧ side who q = pr := by
  induction l with
  | nil => intro pr h; exact ⟨[], List.nil_prefix, by simpa [side, eq_comm] using h⟩
  | cons e l ih =>
    intro pr h
    by_cases he : e.1 = who
    · have hc : ∀ r, side who (e :: r) = e.2 :: side who r := fun r => by simp [side, he]
      rw [hc] at h
      cases pr with
      | nil => exact ⟨[], List.nil_prefix, rfl⟩
      | cons x pr =>
        obtain ⟨rfl, hp⟩ := List.cons_prefix_cons.1 h
        obtain ⟨q, hq, e'⟩ := ih hp
        exact ⟨e :: q, List.cons_prefix_cons.2 ⟨rfl, hq⟩, by rw [hc, e']⟩
    · have hc : ∀ r, side who (e :: r) = side who r := fun r => by simp [side, he]
      rw [hc] at h
      obtain ⟨q, hq, e'⟩ := ih h
      exact ⟨e :: q, List.cons_prefix_cons.2 ⟨rfl, hq⟩, by rw [hc, e']⟩

/-- the peak of the whole is that of the algorithm, up to the swing of the rest -/
theorem peak_mixed {live : List ℕ} {l : List MixedEv} (hr : Respects live (whole l)) (hs : ∀ c ∈ callsOf (whole l), succeeds c = true)
    {need d peak : ℕ} (hn : PeakNeed need (side true l)) (hd : SwingAtMost d (side false l)) (hp : IsMaxOf peak (liveTrace live (whole l))) :
    |(peak : Int) - live.sum - need| ≤ d := by
  have at' : ∀ q, q <+: l → ((liveBlocks live (whole q)).sum : Int) = live.sum + (netOf (side true q) + netOf (side false q)) := by
    rintro q ⟨r, rfl⟩
    have e : whole (q ++ r) = whole q ++ whole r := by simp [whole]
    rw [e] at hr hs
    rw [live_net _ _ ((respects_append _ _ _).1 hr).1 (fun c hc => hs c (by rw [callsOf_append]; exact List.mem_append_left _ hc)), netOf_mix]
  rw [abs_le]
  constructor
  · obtain ⟨pr, hpr, e⟩ := hn.1
    obtain ⟨q, hq, rfl⟩ := side_instant l hpr
    have h1 := hp.2 _ ((mem_liveTrace _ _ _).2 ⟨whole q, by obtain ⟨r, rfl⟩ := hq; exact ⟨whole r, by simp [whole]⟩, rfl⟩)
    have h2 := at' q hq
    have h3 := (abs_le.1 (hd _ (side_prefix (who := false) hq))).1
    omega
  · obtain ⟨pr, hpr, e⟩ := (mem_liveTrace _ _ _).1 hp.1
    obtain ⟨q, hq, rfl⟩ := whole_prefix hpr
    have h2 := at' q hq
    have h3 := (abs_le.1 (hd _ (side_prefix (who := false) hq))).2
    have h4 := hn.2 _ (side_prefix (who := true) hq)
    omega

/-- **C120** (a pass): whatever happened before, a pass in which the algorithm needs at most `need` bytes, while everything else in the process
holds at every instant at most `d` bytes more or less than when the pass began, reports a peak which is within `d` bytes of `need`
above the memory it found in use; whatever the interleaving of the two. -/
theorem C120_pass {p : Profile} {N : Nat} (hN : 0 < N) (hN32 : N < 2 ^ 32) (pre : List AllocEv) (l : List MixedEv)
    (ho : OrdinaryPass p N pre (whole l)) (need d : ℕ) (hn : PeakNeed need (side true l)) (hd : SwingAtMost d (side false l)) :
    ∃ m : SpacePass, (AllocSys.new.run p N pre).pass p N (whole l) = (AllocSys.new.run p N (pre ++ .savePoint :: whole l), .ok m) ∧
      m.usedBefore = (liveBlocks [] pre).sum ∧ m.usedBefore ≤ m.maxUsed ∧ m.maxUsed < 2 ^ 64 ∧ |(bytesUsed m : Int) - need| ≤ d := by
  obtain ⟨m, e, b, -, -, x⟩ := C84_pass_reports_live_bytes hN hN32 pre _ ho
  have hle : m.usedBefore ≤ m.maxUsed := by rw [b]; exact x.2 _ (liveTrace_head _ _)
  refine ⟨m, e, b, hle, ho.small _ x.1, ?_⟩
  have h := peak_mixed ((respects_append _ _ _).1 ho.respected).2
    (fun c hc => ho.granted c (by rw [callsOf_append]; exact List.mem_append_right _ hc)) hn hd x
  rw [← b] at h
  unfold bytesUsed
  rwa [Nat.cast_sub hle]

theorem resizing_cases {n : ℕ} {c : Complexity} {g : ℝ} (h : resizingGrowth n c = some g) :
    c = .o1 ∧ g = 1 ∨ c = .oLogN ∧ g = Real.logb 2 ((n : ℝ) * 3) / Real.logb 2 n ∨ c = .oN ∧ g = 3 := by
  cases c <;> simp [resizingGrowth, grows] at h ⊢ <;> exact h.symm

/-- two passes in one process, each with its own background activity of at most `δ` times what the algorithm needs -/
theorem mixed_passes {p : Profile} {N : Nat} (hN : 0 < N) (hN32 : N < 2 ^ 32) (pre mid : List AllocEv) (l1 l2 : List MixedEv)
    (h1 : OrdinaryPass p N pre (whole l1)) (h2 : OrdinaryPass p N (pre ++ .savePoint :: whole l1 ++ mid) (whole l2))
    (x1 x2 d1 d2 : ℕ) (n1 : PeakNeed x1 (side true l1)) (n2 : PeakNeed x2 (side true l2)) (w1 : SwingAtMost d1 (side false l1))
    (w2 : SwingAtMost d2 (side false l2)) (δ : ℝ) (e1 : d1 ≤ δ * x1) (e2 : d2 ≤ δ * x2) :
    ∃ s1 m1 s2 m2, (AllocSys.new.run p N pre).pass p N (whole l1) = (s1, .ok m1) ∧ (s1.run p N mid).pass p N (whole l2) = (s2, .ok m2) ∧
      WithinError δ x1 (bytesUsed m1) ∧ WithinError δ x2 (bytesUsed m2) ∧ m1.usedBefore ≤ m1.maxUsed ∧ m2.usedBefore ≤ m2.maxUsed ∧
      m1.maxUsed ≤ usizeMax ∧ m2.maxUsed ≤ usizeMax := by
  obtain ⟨m1, r1, -, b1, t1, a1⟩ := C120_pass hN hN32 pre l1 h1 x1 d1 n1 w1
  obtain ⟨m2, r2, -, b2, t2, a2⟩ := C120_pass hN hN32 _ l2 h2 x2 d2 n2 w2
  rw [run_append_alloc] at r2
  have cast : ∀ {a b d : ℕ}, |(a : Int) - b| ≤ d → |(a : ℝ) - b| ≤ d := by
    intro a b d h
    exact_mod_cast h
  exact ⟨_, m1, _, m2, r1, r2, (cast a1).trans e1, (cast a2).trans e2, b1, b2, Nat.le_pred_of_lt t1, Nat.le_pred_of_lt t2⟩

section verdicts
variable {p : Profile} {N : Nat} (hN : 0 < N) (hN32 : N < 2 ^ 32) {log2 : F → F} {powi : F → ℕ → F} (powf : F → F → F)
  (H : AccurateLibrary log2 powi) {tol : ℝ} (ht : tol = 1 / 10 ∨ tol = 1 / 4) (pre mid : List AllocEv) (l1 l2 : List MixedEv)
  (h1 : OrdinaryPass p N pre (whole l1)) (h2 : OrdinaryPass p N (pre ++ .savePoint :: whole l1 ++ mid) (whole l2))
  (x1 x2 d1 d2 : ℕ) (n1 : PeakNeed x1 (side true l1)) (n2 : PeakNeed x2 (side true l2)) (w1 : SwingAtMost d1 (side false l1))
  (w2 : SwingAtMost d2 (side false l2)) (p1 : 0 < x1) (p2 : 0 < x2) (δ : ℝ) (hδ0 : 0 ≤ δ) (e1 : d1 ≤ δ * x1) (e2 : d2 ≤ δ * x2)

include hN hN32 H ht h1 h2 n1 n2 w1 w2 p1 p2 hδ0 e1 e2 in
/-- **C120** (harmless background activity): if the memory an algorithm needs grows between two passes no more than the limit allows, and whatever
else uses the heap meanwhile swings by at most `tol / (2 + tol)` of that need (4.76% at a tolerance of 10%, 11.1% at 25%; minus one part
in 2^40 for the arithmetic), each of the space analyses accepts, whatever the interleavings. -/
theorem C120_accepted (hδ : δ + 1 / 2 ^ 40 ≤ tol / (2 + tol)) (limit : Complexity) :
    let E := shippedEnv log2 powi powf tol
    ∃ s1 m1 s2 m2, (AllocSys.new.run p N pre).pass p N (whole l1) = (s1, .ok m1) ∧ (s1.run p N mid).pass p N (whole l2) = (s2, .ok m2) ∧
      (∀ (a b : ℕ) (f : ℝ → ℝ), 3 ≤ a → a ≤ b → b ≤ 2 ^ 32 → growth limit = some f → (x2 : ℝ) / x1 ≤ grows f a b →
        ∃ v, analyseSpace E p ⟨a, b⟩ ⟨m1, m2⟩ = .ok v ∧ v.asU32 ≤ limit.asU32) ∧
      (∀ (a b rep : ℕ) (f : ℝ → ℝ), 3 ≤ a → 3 ≤ b → a ≤ 2 ^ 32 → b ≤ 2 ^ 32 → growth limit = some f →
        (x2 : ℝ) / x1 ≤ grows f (min a b : ℕ) (max a b : ℕ) →
        ∃ v, analyseSpaceConstantSet E p ⟨a, b, rep⟩ ⟨m1, m2⟩ = .ok v ∧ v.asU32 ≤ limit.asU32) ∧
      (∀ (n : ℕ) (g : ℝ), 2 ≤ n → n ≤ 2 ^ 32 → resizingGrowth n limit = some g → (x2 : ℝ) / x1 ≤ g →
        ∃ v, analyseSpaceSetResizing E p ⟨n⟩ ⟨m1, m2⟩ = .ok v ∧ v.asU32 ≤ limit.asU32) := by
  intro E
  have htol : 0 < tol := by rcases ht with rfl | rfl <;> norm_num
  obtain ⟨s1, m1, s2, m2, r1, r2, u1, u2, b1, b2, t1, t2⟩ := mixed_passes hN hN32 pre mid l1 l2 h1 h2 x1 x2 d1 d2 n1 n2 w1 w2 δ e1 e2
  have hx1 : (0:ℝ) < x1 := by exact_mod_cast p1
  have hx2 : (0:ℝ) < x2 := by exact_mod_cast p2
  have hu1 := (noisy_quotient (margin_lt_one htol hδ) hx1 hx2 u1 u2).1
  have hb : m1.usedBefore < m1.maxUsed := by
    have : 0 < bytesUsed m1 := by exact_mod_cast hu1
    unfold bytesUsed at this
    omega
  have within : ∀ {g : ℝ}, (x2 : ℝ) / x1 ≤ g → (bytesUsed m2 : ℝ) * abitMore / bytesUsed m1 < (1 + tol) * g := fun hg =>
    noisy_within htol hδ0 hδ hx1 hx2 hg u1 u2
  obtain ⟨A, B, C⟩ := C83_space log2 powi powf H tol ht p m1 m2 hb b2 t1 t2 limit
  refine ⟨s1, m1, s2, m2, r1, r2, ?_, ?_, ?_⟩
  · intro a b f ha hab hb32 hf hg
    obtain ⟨v, hv, acc, -⟩ := A a b ha hab hb32 (Or.inl (polynomial_of_growth hf))
    exact ⟨v, hv, acc ((meets_named hf).2 (within hg).le)⟩
  · intro a b rep f ha hb3 ha32 hb32 hf hg
    obtain ⟨v, hv, acc, -⟩ := B a b rep ha hb3 ha32 hb32 (Or.inl (polynomial_of_growth hf))
    exact ⟨v, hv, acc ((meets_named hf).2 (within hg).le)⟩
  · intro n g hn hn32 hg hq
    obtain ⟨v, hv, acc, -⟩ := C n hn hn32
    exact ⟨v, hv, acc (meets_resizing (within hq) (resizing_cases hg))⟩

include hN hN32 H ht h1 h2 n1 n2 w1 w2 p1 p2 hδ0 e1 e2 in
/-- **C120** (background activity hides nothing big): if the memory an algorithm needs grows between two passes more than
`(1 + tol)(1 + δ)/(1 - δ)` times as much as the limit (and one part in 2^40 for the arithmetic), while whatever else uses the heap meanwhile
swings by at most `δ` of that need, each of the space analyses finds more than the limit, whatever the interleavings. -/
theorem C120_rejected (hδ : δ < 1) (limit : Complexity) :
    let E := shippedEnv log2 powi powf tol
    let Exceeds := fun g : ℝ => (1 + tol) * ((1 + δ) / (1 - δ)) * g < x2 / x1 * abitLess
    ∃ s1 m1 s2 m2, (AllocSys.new.run p N pre).pass p N (whole l1) = (s1, .ok m1) ∧ (s1.run p N mid).pass p N (whole l2) = (s2, .ok m2) ∧
      (∀ (a b : ℕ) (f : ℝ → ℝ), 3 ≤ a → a ≤ b → b ≤ 2 ^ 32 → growth limit = some f → Exceeds (grows f a b) →
        ∃ v, analyseSpace E p ⟨a, b⟩ ⟨m1, m2⟩ = .ok v ∧ limit.asU32 < v.asU32) ∧
      (∀ (a b rep : ℕ) (f : ℝ → ℝ), 3 ≤ a → 3 ≤ b → a ≤ 2 ^ 32 → b ≤ 2 ^ 32 → growth limit = some f →
        Exceeds (grows f (min a b : ℕ) (max a b : ℕ)) →
        ∃ v, analyseSpaceConstantSet E p ⟨a, b, rep⟩ ⟨m1, m2⟩ = .ok v ∧ limit.asU32 < v.asU32) ∧
      (∀ (n : ℕ) (g : ℝ), 2 ≤ n → n ≤ 2 ^ 32 → resizingGrowth n limit = some g → Exceeds g →
        ∃ v, analyseSpaceSetResizing E p ⟨n⟩ ⟨m1, m2⟩ = .ok v ∧ limit.asU32 < v.asU32) := by
  intro E Exceeds
  have htol : 0 < tol := by rcases ht with rfl | rfl <;> norm_num
  obtain ⟨s1, m1, s2, m2, r1, r2, u1, u2, b1, b2, t1, t2⟩ := mixed_passes hN hN32 pre mid l1 l2 h1 h2 x1 x2 d1 d2 n1 n2 w1 w2 δ e1 e2
  have hx1 : (0:ℝ) < x1 := by exact_mod_cast p1
  have hx2 : (0:ℝ) < x2 := by exact_mod_cast p2
  have hu1 := (noisy_quotient hδ hx1 hx2 u1 u2).1
  have hb : m1.usedBefore < m1.maxUsed := by
    have : 0 < bytesUsed m1 := by exact_mod_cast hu1
    unfold bytesUsed at this
    omega
  have beyond : ∀ {g : ℝ}, Exceeds g → (1 + tol) * g < (bytesUsed m2 : ℝ) * abitLess / bytesUsed m1 := fun hg =>
    noisy_beyond hδ0 hδ hx1 hx2 hg u1 u2
  obtain ⟨A, B, C⟩ := C83_space log2 powi powf H tol ht p m1 m2 hb b2 t1 t2 limit
  refine ⟨s1, m1, s2, m2, r1, r2, ?_, ?_, ?_⟩
  · intro a b f ha hab hb32 hf hg
    obtain ⟨v, hv, -, acc⟩ := A a b ha hab hb32 (Or.inl (polynomial_of_growth hf))
    exact ⟨v, hv, lt_of_not_ge fun hle => absurd ((meets_named hf).1 (acc hle)) (not_le.2 (beyond hg))⟩
  · intro a b rep f ha hb3 ha32 hb32 hf hg
    obtain ⟨v, hv, -, acc⟩ := B a b rep ha hb3 ha32 hb32 (Or.inl (polynomial_of_growth hf))
    exact ⟨v, hv, lt_of_not_ge fun hle => absurd ((meets_named hf).1 (acc hle)) (not_le.2 (beyond hg))⟩
  · intro n g hn hn32 hg hq
    obtain ⟨v, hv, -, acc⟩ := C n hn hn32
    exact ⟨v, hv, lt_of_not_ge fun hle => not_meets_resizing htol hn (beyond hq) (resizing_cases hg) (acc hle)⟩

end verdicts

/-- **C120** (the bound is reached): one allocation of the algorithm and one of something else, and the pass reports their sum; so no smaller
bound than the swing of the rest holds. -/
theorem C120_tight (p : Profile) (need d : ℕ) (hsmall : need + d < 2 ^ 62) :
    ∃ l : List MixedEv, OrdinaryPass p 1024 [] (whole l) ∧ PeakNeed need (side true l) ∧ SwingAtMost d (side false l) ∧
      ∃ s m, (AllocSys.new.run p 1024 []).pass p 1024 (whole l) = (s, .ok m) ∧ bytesUsed m = need + d := by
  have hord : OrdinaryPass p 1024 [] (whole [(true, .call (.alloc need true)), (false, .call (.alloc d true))]) := by
    refine ⟨?_, ?_, ?_, ?_, by simp [whole, savePoints], by simp [whole, savePoints]⟩
    · simp [whole, Respects, respects]; omega
    · simp [whole, callsOf, succeeds]
    · simp [whole, liveBlocks, liveTrace, liveAfter]; omega
    · intro k hk
      have : total k (whole [(true, .call (.alloc need true)), (false, .call (.alloc d true))]) < 2 ^ 64 := by
        cases k <;> simp [whole, total, callsOf, contribution] <;> omega
      exact ⟨this, Or.inr this⟩
  have one : ∀ n : ℕ, ∀ pr, pr <+: [AllocEv.call (.alloc n true)] → netOf pr = 0 ∨ netOf pr = n := by
    intro n pr h
    cases pr with
    | nil => exact Or.inl rfl
    | cons e pr =>
      obtain ⟨rfl, hp⟩ := List.cons_prefix_cons.1 h
      obtain rfl := List.prefix_nil.1 hp
      right; simp [netOf, callsOf, netBytes]
  refine ⟨_, hord, ⟨⟨_, List.prefix_refl _, by simp [side, netOf, callsOf, netBytes]⟩, fun pr h => ?_⟩, fun pr h => ?_, ?_⟩
  · rcases one need pr (by simpa [side] using h) with e | e <;> rw [e] <;> simp
  · rcases one d pr (by simpa [side] using h) with e | e <;> rw [e] <;> simp
  · obtain ⟨m, e, b, -, -, x⟩ := C84_pass_reports_live_bytes (by norm_num) (by norm_num) [] _ hord
    refine ⟨_, m, e, ?_⟩
    have hx : m.maxUsed = need + d := by
      have h1 := x.2 (need + d) (by simp [whole, liveBlocks, liveTrace, liveAfter]; omega)
      have h2 := x.1
      simp [whole, liveBlocks, liveTrace, liveAfter] at h2
      omega
    unfold bytesUsed
    rw [b, hx]
    simp [liveBlocks]

/-! ## A concrete case -/

/-- while an algorithm takes `n` bytes in two blocks, another thread frees the 8 bytes it had, takes 40 and gives back what it has -/
def disturbed (n : ℕ) : List MixedEv :=
  [(false, .call (.dealloc 8)), (true, .call (.alloc (n / 2) true)), (false, .call (.alloc 40 true)), (true, .call (.alloc (n / 2) true)),
   (true, .call (.dealloc (n / 2))), (false, .call (.dealloc 40)), (true, .call (.dealloc (n / 2))), (false, .call (.alloc 8 true))]

theorem disturbed_ordinary1 : OrdinaryPass .checked 1024 [.call (.alloc 8 true)] (whole (disturbed 1000)) where
  respected := by decide
  granted := by decide
  small := by decide
  totals := by
    intro k hk
    refine ⟨?_, Or.inr ?_⟩ <;> (revert k; decide)
  few := by decide
  nested := by decide

theorem disturbed_ordinary2 :
    OrdinaryPass .checked 1024 ([.call (.alloc 8 true)] ++ .savePoint :: whole (disturbed 1000) ++ []) (whole (disturbed 2000)) where
  respected := by decide
  granted := by decide
  small := by decide
  totals := by
    intro k hk
    refine ⟨?_, Or.inr ?_⟩ <;> (revert k; decide)
  few := by decide
  nested := by decide

theorem disturbed_sides : PeakNeed 1000 (side true (disturbed 1000)) ∧ PeakNeed 2000 (side true (disturbed 2000)) ∧
    SwingAtMost 40 (side false (disturbed 1000)) ∧ SwingAtMost 40 (side false (disturbed 2000)) := by
  unfold PeakNeed SwingAtMost
  simp only [← List.mem_inits]
  decide

-- 40 bytes of something else are not mistaken for growth at a tolerance of 10%; nor do they make 1000 and 2000 bytes pass as constant
example : ∃ s1 m1 s2 m2 v, (AllocSys.new.run .checked 1024 [.call (.alloc 8 true)]).pass .checked 1024 (whole (disturbed 1000)) = (s1, .ok m1) ∧
    (s1.run .checked 1024 []).pass .checked 1024 (whole (disturbed 2000)) = (s2, .ok m2) ∧
    analyseSpace (shippedEnv idealLog2 idealPowi (fun x _ => x) (1 / 10)) .checked ⟨1000, 2000⟩ ⟨m1, m2⟩ = .ok v ∧ v.asU32 ≤ Complexity.oN.asU32 := by
  obtain ⟨a1, a2, b1, b2⟩ := disturbed_sides
  obtain ⟨s1, m1, s2, m2, r1, r2, h, -⟩ := C120_accepted (by norm_num) (by norm_num) (fun x _ => x) ideal_library (Or.inl rfl) _ [] _ _
    disturbed_ordinary1 disturbed_ordinary2 1000 2000 40 40 a1 a2 b1 b2 (by norm_num) (by norm_num) (1 / 25) (by norm_num) (by norm_num)
    (by norm_num) (by norm_num) .oN
  obtain ⟨v, hv, hle⟩ := h 1000 2000 (fun n => n) (by norm_num) (by norm_num) (by norm_num) rfl (by norm_num [grows])
  exact ⟨s1, m1, s2, m2, v, r1, r2, hv, hle⟩

example : ∃ s1 m1 s2 m2 v, (AllocSys.new.run .checked 1024 [.call (.alloc 8 true)]).pass .checked 1024 (whole (disturbed 1000)) = (s1, .ok m1) ∧
    (s1.run .checked 1024 []).pass .checked 1024 (whole (disturbed 2000)) = (s2, .ok m2) ∧
    analyseSpace (shippedEnv idealLog2 idealPowi (fun x _ => x) (1 / 10)) .checked ⟨1000, 2000⟩ ⟨m1, m2⟩ = .ok v ∧ Complexity.o1.asU32 < v.asU32 := by
  obtain ⟨a1, a2, b1, b2⟩ := disturbed_sides
  obtain ⟨s1, m1, s2, m2, r1, r2, h, -⟩ := C120_rejected (by norm_num) (by norm_num) (fun x _ => x) ideal_library (Or.inl rfl) _ [] _ _
    disturbed_ordinary1 disturbed_ordinary2 1000 2000 40 40 a1 a2 b1 b2 (by norm_num) (by norm_num) (1 / 25) (by norm_num) (by norm_num)
    (by norm_num) (by norm_num) .o1
  obtain ⟨v, hv, hle⟩ := h 1000 2000 (fun _ => 1) (by norm_num) (by norm_num) (by norm_num) rfl (by norm_num [grows, abitLess])
  exact ⟨s1, m1, s2, m2, v, r1, r2, hv, hle⟩

end BigO
