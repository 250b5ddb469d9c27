import Verif.Proofs.RobustExp

/-!
# C82, C83: what the time and space analyses accept, from the measurements to the limit

`MeetsLimit` and `MeetsResizingLimit` (in `Verif.Spec.Limits`) say in plain terms what each limit asks of the two passes.
-/
namespace BigO
open F

/-! ## C82: exact arithmetic -/

/-- **C82** (time, regular): the verdict is within the limit iff the durations (in seconds) meet it. -/
theorem C82_time (tol : ℝ) (ht : 0 < tol) (n1 n2 : ℕ) (h1 : 3 ≤ n1) (h : n1 ≤ n2) (d1 d2 : Duration) (hd : 0 < d1) (limit : Complexity) :
    (analyseTime (exactEnv tol) ⟨n1, n2⟩ ⟨d1, d2⟩).asU32 ≤ limit.asU32 ↔
      MeetsLimit tol n1 n2 (d1 / 10 ^ 9) (d2 / 10 ^ 9) limit := by
  unfold analyseTime
  rw [ex_asSecs, ex_asSecs, ex_ofNat, ex_ofNat]
  have hd' : (0:ℝ) < d1 := by exact_mod_cast hd
  exact meets_iff ht (by positivity) (by positivity) (by exact_mod_cast h1) (by exact_mod_cast h) limit

/-- **C82** (time, read and update operations): the set sizes may come in any order. -/
theorem C82_time_constant_set (tol : ℝ) (ht : 0 < tol) (a b rep : ℕ) (ha : 3 ≤ a) (hb : 3 ≤ b) (d1 d2 : Duration) (hd : 0 < d1)
    (limit : Complexity) :
    (analyseTimeConstantSet (exactEnv tol) ⟨a, b, rep⟩ ⟨d1, d2⟩).asU32 ≤ limit.asU32 ↔
      MeetsLimit tol (min a b : ℕ) (max a b : ℕ) (d1 / 10 ^ 9) (d2 / 10 ^ 9) limit := by
  unfold analyseTimeConstantSet
  rw [ex_asSecs, ex_asSecs, ex_ofNat, ex_ofNat]
  have hd' : (0:ℝ) < d1 := by exact_mod_cast hd
  exact meets_iff ht (by positivity) (by positivity) (by exact_mod_cast le_min ha hb) (by exact_mod_cast min_le_max) limit

/-- **C82** (time, create and delete operations). -/
theorem C82_time_set_resizing (tol : ℝ) (ht : 0 < tol) (ht1 : tol < 1) (n : ℕ) (hn : 2 ≤ n) (d1 d2 : Duration) (hd : 0 < d1)
    (limit : Complexity) :
    (analyseTimeSetResizing (exactEnv tol) ⟨n⟩ ⟨d1, d2⟩).asU32 ≤ limit.asU32 ↔
      MeetsResizingLimit tol n (d1 / 10 ^ 9) (d2 / 10 ^ 9) limit := by
  unfold analyseTimeSetResizing
  rw [ex_asSecs, ex_asSecs, ex_ofNat]
  have hd' : (0:ℝ) < d1 := by exact_mod_cast hd
  exact meets_resizing_iff ht ht1 (by positivity) (by positivity) (by exact_mod_cast hn) limit

theorem space_sub (p : Profile) {s : SpacePass} (h : s.usedBefore ≤ s.maxUsed) : usizeSub p s.maxUsed s.usedBefore = .ok (bytesUsed s) := by
  unfold usizeSub; rw [if_pos h]; rfl

/-- **C82** (space, all three kinds): the verdict is within the limit iff the bytes used by the passes meet it. -/
theorem C82_space (tol : ℝ) (ht : 0 < tol) (ht1 : tol < 1) (p : Profile) (s1 s2 : SpacePass) (h1 : s1.usedBefore < s1.maxUsed)
    (h2 : s2.usedBefore ≤ s2.maxUsed) (limit : Complexity) :
    (∀ n1 n2 : ℕ, 3 ≤ n1 → n1 ≤ n2 → ∃ v, analyseSpace (exactEnv tol) p ⟨n1, n2⟩ ⟨s1, s2⟩ = .ok v ∧
      (v.asU32 ≤ limit.asU32 ↔ MeetsLimit tol n1 n2 (bytesUsed s1) (bytesUsed s2) limit)) ∧
    (∀ a b rep : ℕ, 3 ≤ a → 3 ≤ b → ∃ v, analyseSpaceConstantSet (exactEnv tol) p ⟨a, b, rep⟩ ⟨s1, s2⟩ = .ok v ∧
      (v.asU32 ≤ limit.asU32 ↔ MeetsLimit tol (min a b : ℕ) (max a b : ℕ) (bytesUsed s1) (bytesUsed s2) limit)) ∧
    (∀ n : ℕ, 2 ≤ n → ∃ v, analyseSpaceSetResizing (exactEnv tol) p ⟨n⟩ ⟨s1, s2⟩ = .ok v ∧
      (v.asU32 ≤ limit.asU32 ↔ MeetsResizingLimit tol n (bytesUsed s1) (bytesUsed s2) limit)) := by
  have hb : (0:ℝ) < bytesUsed s1 := by
    have : 0 < bytesUsed s1 := by unfold bytesUsed; omega
    exact_mod_cast this
  simp only [analyseSpace, analyseSpaceConstantSet, analyseSpaceSetResizing, space_sub p h1.le, space_sub p h2, bind, Except.bind,
    pure, Except.pure, ex_ofNat]
  refine ⟨fun n1 n2 g1 g => ⟨_, rfl, ?_⟩, fun a b rep ga gb => ⟨_, rfl, ?_⟩, fun n g => ⟨_, rfl, ?_⟩⟩
  · exact meets_iff ht hb (by positivity) (by exact_mod_cast g1) (by exact_mod_cast g) limit
  · exact meets_iff ht hb (by positivity) (by exact_mod_cast le_min ga gb) (by exact_mod_cast min_le_max) limit
  · exact meets_resizing_iff ht ht1 hb (by positivity) (by exact_mod_cast g) limit

/-! ## C83: the shipped binary64 arithmetic -/

theorem shipped_regular {log2 : F → F} {powi : F → ℕ → F} {powf : F → F → F} {tol t : ℝ} (htol : tol = 1 / 10 ∨ tol = 1 / 4)
    (A : Acc (shippedEnv log2 powi powf tol) kappa tol t) {v1 v2 u1 u2 : ℝ} (hf : NearUsage kappa52 v1 u1) (hu1 : NearUsage kappa v1 u1)
    (hu2 : NearUsage kappa v2 u2) (hp : 0 < u1) {n1 n2 : ℕ} (h1 : 3 ≤ n1) (h : n1 ≤ n2) (h2 : n2 ≤ 2 ^ 32) (limit : Complexity)
    (hl : Covered powf n1 n2 limit) :
    AcceptsUpTo (MeetsLimit tol n1 n2 u1) u2 (analyseComplexity (shippedEnv log2 powi powf tol) (fin v1) (fin v2)
      ((shippedEnv log2 powi powf tol).ofNat n1) ((shippedEnv log2 powi powf tol).ofNat n2)) limit := by
  have e1 := A.ofNat_exact (n := n1) (by omega)
  have e2 := A.ofNat_exact (n := n2) (by omega)
  rw [e1, e2]
  have h0 : 0 ≤ u2 := by
    rcases hu2 with ⟨h, -⟩ | ⟨-, h⟩
    · exact h.2.1.le
    · exact h.ge
  rcases hu1 with ⟨hu1, m1⟩ | ⟨-, h⟩
  · have ht : 0 < tol := by linarith [A.τ_ge]
    have n1' : (3:ℝ) ≤ n1 := by exact_mod_cast h1
    have n2' : (n1:ℝ) ≤ n2 := by exact_mod_cast h
    have hs : ((analyseComplexity (exactEnv tol) (fin u1) (fin (u2 * (1 + 1 / 2 ^ 40))) (fin n1) (fin n2)).asU32 ≤ limit.asU32 →
        (analyseComplexity (shippedEnv log2 powi powf tol) (fin v1) (fin v2) (fin n1) (fin n2)).asU32 ≤ limit.asU32) ∧
      ((analyseComplexity (shippedEnv log2 powi powf tol) (fin v1) (fin v2) (fin n1) (fin n2)).asU32 ≤ limit.asU32 →
        (analyseComplexity (exactEnv tol) (fin u1) (fin (u2 * (1 - 1 / 2 ^ 40))) (fin n1) (fin n2)).asU32 ≤ limit.asU32) := by
      rcases hl with hl | rfl | ⟨H, h32⟩
      · exact A.sandwich kappa_up kappa_down (by norm_num) hu1 m1 hu2 (by omega) (by omega) (by omega) (by omega)
          (by have : Complexity.oN4.asU32 = 13 := rfl; omega)
      · have top : ∀ c : Complexity, c.asU32 ≤ Complexity.worseThanExponential.asU32 := by intro c; cases c <;> decide
        exact ⟨fun _ => top _, fun _ => top _⟩
      · rcases hf with ⟨hf, -⟩ | ⟨-, h⟩
        · obtain ⟨t', A'⟩ := acc52 powf tol htol
          have p1 : (0:ℝ) < n1 := by linarith
          obtain ⟨y, hy, hyn⟩ := A'.div_near (Near.refl (κ := kappa52) (a := (n2:ℝ)) (by linarith)) (Near.refl (κ := kappa52) p1)
            (by norm_num) (by norm_num) (Acc.mag_nat (show 1 ≤ n2 by omega) h2) (Acc.mag_nat (show 1 ≤ n1 by omega) (h.trans h2)) (by norm_num)
          exact A.sandwich_exp H kappa_up kappa_down (by norm_num) hf hu1 m1 hu2 (by omega) h h2 h32 hy hyn _
        · exact absurd h hp.ne'
    rw [meets_iff ht hp (mul_nonneg h0 (by norm_num)) n1' n2', meets_iff ht hp (mul_nonneg h0 (by norm_num)) n1' n2'] at hs
    exact hs
  · exact absurd h hp.ne'

theorem shipped_resizing {E : FloatEnv} {tol t : ℝ} (A : Acc E kappa tol t) {v1 v2 u1 u2 : ℝ} (hu1 : NearUsage kappa v1 u1)
    (hu2 : NearUsage kappa v2 u2) (hp : 0 < u1) {n : ℕ} (h1 : 2 ≤ n) (h2 : n ≤ 2 ^ 32) (limit : Complexity) :
    AcceptsUpTo (MeetsResizingLimit tol n u1) u2 (analyseSetResizing E (fin v1) (fin v2) (E.ofNat n)) limit := by
  have e1 := A.ofNat_exact (n := n) (by omega)
  rw [e1]
  have h0 : 0 ≤ u2 := by
    rcases hu2 with ⟨h, -⟩ | ⟨-, h⟩
    · exact h.2.1.le
    · exact h.ge
  rcases hu1 with ⟨hu1, m1⟩ | ⟨-, h⟩
  · have hs := A.sr_sandwich kappa_up kappa_down (by norm_num) hu1 m1 hu2 h1 h2
    have ht : 0 < tol := by linarith [A.τ_ge]
    have ht1 : tol < 1 := by linarith [A.τ_le]
    have n1' : (2:ℝ) ≤ n := by exact_mod_cast h1
    unfold AcceptsUpTo
    rw [← meets_resizing_iff ht ht1 hp (mul_nonneg h0 (by norm_num)) n1',
      ← meets_resizing_iff ht ht1 hp (mul_nonneg h0 (by norm_num)) n1']
    exact ⟨hs.2.trans, hs.1.trans⟩
  · exact absurd h hp.ne'

/-- **C83** (time): with the shipped tolerances, binary64 rounding and any library functions accurate to 2^-48, the time verdicts
follow the limits up to one part in 2^40 of the second duration.
Durations below 2^53 seconds, the first at least 1 ns; set sizes up to 2^32. For regular algorithms, the limits between `O(n⁴)` and
exponential and `OkN` need an accurate `powf` and a second set at most 32 times larger than the first (`Covered`); for all other limits
`powf` is arbitrary. -/
theorem C83_time (log2 : F → F) (powi : F → ℕ → F) (powf : F → F → F) (H : AccurateLibrary log2 powi) (tol : ℝ)
    (ht : tol = 1 / 10 ∨ tol = 1 / 4) (d1 d2 : Duration) (hd : 0 < d1) (hd1 : d1 / 10 ^ 9 < 2 ^ 53) (hd2 : d2 / 10 ^ 9 < 2 ^ 53)
    (limit : Complexity) :
    let E := shippedEnv log2 powi powf tol
    (∀ n1 n2 : ℕ, 3 ≤ n1 → n1 ≤ n2 → n2 ≤ 2 ^ 32 → Covered powf n1 n2 limit →
      AcceptsUpTo (MeetsLimit tol n1 n2 (d1 / 10 ^ 9)) (d2 / 10 ^ 9) (analyseTime E ⟨n1, n2⟩ ⟨d1, d2⟩) limit) ∧
    (∀ a b rep : ℕ, 3 ≤ a → 3 ≤ b → a ≤ 2 ^ 32 → b ≤ 2 ^ 32 → Covered powf (min a b) (max a b) limit →
      AcceptsUpTo (MeetsLimit tol (min a b : ℕ) (max a b : ℕ) (d1 / 10 ^ 9)) (d2 / 10 ^ 9)
        (analyseTimeConstantSet E ⟨a, b, rep⟩ ⟨d1, d2⟩) limit) ∧
    (∀ n : ℕ, 2 ≤ n → n ≤ 2 ^ 32 →
      AcceptsUpTo (MeetsResizingLimit tol n (d1 / 10 ^ 9)) (d2 / 10 ^ 9) (analyseTimeSetResizing E ⟨n⟩ ⟨d1, d2⟩) limit) := by
  intro E
  obtain ⟨t, A⟩ := shipped_acc log2 powi powf H tol ht
  obtain ⟨v1, e1, u1⟩ := A.secs_near hd1
  obtain ⟨v2, e2, u2⟩ := A.secs_near hd2
  have f1 : NearUsage kappa52 v1 ((d1 : ℝ) / 10 ^ 9) := by
    obtain ⟨t', A'⟩ := acc52 powf tol ht
    obtain ⟨v, e, u⟩ := A'.secs_near hd1
    have : asSecsF64 E d1 = F.fin v := e
    rw [e1] at this
    cases this
    exact u
  have hd' : (0:ℝ) < d1 := by exact_mod_cast hd
  have hp : (0:ℝ) < d1 / 10 ^ 9 := by positivity
  refine ⟨fun n1 n2 g1 g2 g3 hl => ?_, fun a b rep ga gb ga' gb' hl => ?_, fun n g1 g2 => ?_⟩
  · show AcceptsUpTo _ _ (analyseComplexity E (asSecsF64 E d1) (asSecsF64 E d2) (E.ofNat n1) (E.ofNat n2)) limit
    rw [e1, e2]
    exact shipped_regular ht A f1 u1 u2 hp g1 g2 g3 limit hl
  · show AcceptsUpTo _ _ (analyseComplexity E (asSecsF64 E d1) (asSecsF64 E d2) (E.ofNat (min a b)) (E.ofNat (max a b))) limit
    rw [e1, e2]
    exact shipped_regular ht A f1 u1 u2 hp (le_min ga gb) min_le_max (max_le ga' gb') limit hl
  · show AcceptsUpTo _ _ (analyseSetResizing E (asSecsF64 E d1) (asSecsF64 E d2) (E.ofNat n)) limit
    rw [e1, e2]
    exact shipped_resizing A u1 u2 hp g1 g2 limit

/-- **C83** (space): the same for the bytes used, whatever the build profile. -/
theorem C83_space (log2 : F → F) (powi : F → ℕ → F) (powf : F → F → F) (H : AccurateLibrary log2 powi) (tol : ℝ)
    (ht : tol = 1 / 10 ∨ tol = 1 / 4) (p : Profile) (s1 s2 : SpacePass) (h1 : s1.usedBefore < s1.maxUsed)
    (h2 : s2.usedBefore ≤ s2.maxUsed) (b1 : s1.maxUsed ≤ usizeMax) (b2 : s2.maxUsed ≤ usizeMax) (limit : Complexity) :
    let E := shippedEnv log2 powi powf tol
    (∀ n1 n2 : ℕ, 3 ≤ n1 → n1 ≤ n2 → n2 ≤ 2 ^ 32 → Covered powf n1 n2 limit →
      ∃ v, analyseSpace E p ⟨n1, n2⟩ ⟨s1, s2⟩ = .ok v ∧
        AcceptsUpTo (MeetsLimit tol n1 n2 (bytesUsed s1)) (bytesUsed s2) v limit) ∧
    (∀ a b rep : ℕ, 3 ≤ a → 3 ≤ b → a ≤ 2 ^ 32 → b ≤ 2 ^ 32 → Covered powf (min a b) (max a b) limit →
      ∃ v, analyseSpaceConstantSet E p ⟨a, b, rep⟩ ⟨s1, s2⟩ = .ok v ∧
        AcceptsUpTo (MeetsLimit tol (min a b : ℕ) (max a b : ℕ) (bytesUsed s1)) (bytesUsed s2) v limit) ∧
    (∀ n : ℕ, 2 ≤ n → n ≤ 2 ^ 32 →
      ∃ v, analyseSpaceSetResizing E p ⟨n⟩ ⟨s1, s2⟩ = .ok v ∧
        AcceptsUpTo (MeetsResizingLimit tol n (bytesUsed s1)) (bytesUsed s2) v limit) := by
  intro E
  obtain ⟨t, A⟩ := shipped_acc log2 powi powf H tol ht
  have hmax : usizeMax ≤ 2 ^ 64 := by unfold usizeMax; norm_num
  have hle1 : bytesUsed s1 ≤ 2 ^ 64 := (Nat.sub_le _ _).trans (b1.trans hmax)
  have hle2 : bytesUsed s2 ≤ 2 ^ 64 := (Nat.sub_le _ _).trans (b2.trans hmax)
  obtain ⟨v1, e1, u1⟩ := A.bytes_near hle1
  obtain ⟨v2, e2, u2⟩ := A.bytes_near hle2
  have f1 : NearUsage kappa52 v1 (bytesUsed s1) := by
    obtain ⟨t', A'⟩ := acc52 powf tol ht
    obtain ⟨v, e, u⟩ := A'.bytes_near hle1
    have : E.ofNat (bytesUsed s1) = F.fin v := e
    rw [e1] at this
    cases this
    exact u
  have hp : (0:ℝ) < bytesUsed s1 := by
    have : 0 < bytesUsed s1 := by unfold bytesUsed; omega
    exact_mod_cast this
  simp only [analyseSpace, analyseSpaceConstantSet, analyseSpaceSetResizing, space_sub p h1.le, space_sub p h2, bind, Except.bind,
    pure, Except.pure]
  refine ⟨fun n1 n2 g1 g2 g3 hl => ⟨_, rfl, ?_⟩, fun a b rep ga gb ga' gb' hl => ⟨_, rfl, ?_⟩, fun n g1 g2 => ⟨_, rfl, ?_⟩⟩
  · rw [e1, e2]
    exact shipped_regular ht A f1 u1 u2 hp g1 g2 g3 limit hl
  · rw [e1, e2]
    exact shipped_regular ht A f1 u1 u2 hp (le_min ga gb) min_le_max (max_le ga' gb') limit hl
  · rw [e1, e2]
    exact shipped_resizing A u1 u2 hp g1 g2 limit

/-! ## concrete cases -/

/-- a library that meets the accuracy assumption: the exact functions -/
theorem ideal_library : AccurateLibrary idealLog2 idealPowi where
  log2_near n h1 _ := by
    have hn : (0:ℝ) < n := by exact_mod_cast (show 0 < n by omega)
    refine ⟨_, by simp only [idealLog2, hn.ne', not_lt.2 hn.le, if_false]; rfl, ?_⟩
    rw [sub_self, abs_zero]
    exact div_nonneg (logb_pos2 (by exact_mod_cast h1)).le (by positivity)
  powi_near x k h1 _ h2 _ := by
    refine ⟨x ^ k, by simp only [idealPowi, show k ≠ 0 by omega, if_false], ?_⟩
    have : 0 < x := lt_of_lt_of_le (by positivity) h1
    rw [sub_self, abs_zero]
    positivity

/-- C82: 1 s on 10 elements, then 2 s on 20 is within `O(n)`; 3 s is not -/
example : (analyseTime (exactEnv (1/10)) ⟨10, 20⟩ ⟨10 ^ 9, 2 * 10 ^ 9⟩).asU32 ≤ Complexity.oN.asU32 :=
  (C82_time (1/10) (by norm_num) 10 20 (by norm_num) (by norm_num) _ _ (by norm_num) .oN).2 (by
    simp only [MeetsLimit, grows]; norm_num)
example : ¬ (analyseTime (exactEnv (1/10)) ⟨10, 20⟩ ⟨10 ^ 9, 3 * 10 ^ 9⟩).asU32 ≤ Complexity.oN.asU32 := by
  rw [C82_time (1/10) (by norm_num) 10 20 (by norm_num) (by norm_num) _ _ (by norm_num) .oN]
  simp only [MeetsLimit, grows]; norm_num
/-- C83: the same in the shipped arithmetic -/
example (powf : F → F → F) :
    (analyseTime (shippedEnv idealLog2 idealPowi powf (1/10)) ⟨10, 20⟩ ⟨10 ^ 9, 2 * 10 ^ 9⟩).asU32 ≤ Complexity.oN.asU32 ∧
    ¬ (analyseTime (shippedEnv idealLog2 idealPowi powf (1/10)) ⟨10, 20⟩ ⟨10 ^ 9, 3 * 10 ^ 9⟩).asU32 ≤ Complexity.oN.asU32 := by
  have h := fun d2 (hd2 : d2 / 10 ^ 9 < 2 ^ 53) => (C83_time idealLog2 idealPowi powf ideal_library (1/10) (Or.inl rfl) (10 ^ 9) d2
    (by norm_num) (by norm_num) hd2 .oN).1 10 20 (by norm_num) (by norm_num) (by norm_num) (Or.inl (by decide))
  refine ⟨(h (2 * 10 ^ 9) (by norm_num)).1 ?_, fun hc => ?_⟩
  · simp only [MeetsLimit, grows]; norm_num
  · have := (h (3 * 10 ^ 9) (by norm_num)).2 hc
    simp only [MeetsLimit, grows] at this
    norm_num at this
/-- C83: 1000 bytes, then 2900 bytes when each pass adds 10 elements: within `O(n)` -/
example (powf : F → F → F) : ∃ v, analyseSpaceSetResizing (shippedEnv idealLog2 idealPowi powf (1/4)) .checked ⟨10⟩
    ⟨⟨500, 0, 1500, 0⟩, ⟨500, 0, 3400, 0⟩⟩ = .ok v ∧ v.asU32 ≤ Complexity.oN.asU32 := by
  obtain ⟨v, hv, ha⟩ := (C83_space idealLog2 idealPowi powf ideal_library (1/4) (Or.inr rfl) .checked ⟨500, 0, 1500, 0⟩
    ⟨500, 0, 3400, 0⟩ (by decide) (by decide) (by decide) (by decide) .oN).2.2 10 (by norm_num) (by norm_num)
  refine ⟨v, hv, ha.1 ?_⟩
  left
  simp only [bytesUsed]
  norm_num

/-- C83, exponential limits: 3 s on 10 elements, then 9 s on 20 is the square, so within `OkN` -/
example : (analyseTime (shippedEnv idealLog2 idealPowi idealPowf (1/10)) ⟨10, 20⟩ ⟨3 * 10 ^ 9, 9 * 10 ^ 9⟩).asU32 ≤ Complexity.okN.asU32 := by
  have h := (C83_time idealLog2 idealPowi idealPowf ideal_library (1/10) (Or.inl rfl) (3 * 10 ^ 9) (9 * 10 ^ 9)
    (by norm_num) (by norm_num) (by norm_num) .okN).1 10 20 (by norm_num) (by norm_num) (by norm_num)
    (Or.inr (Or.inr ⟨ideal_powf, by norm_num⟩))
  refine h.1 (Or.inr ?_)
  norm_num
/-- 5 s on 10 elements, then 100 s on 20: 20 times more is worse than `O(n⁴)`, and 100 is far above 5² -/
example : ¬ (analyseTime (shippedEnv idealLog2 idealPowi idealPowf (1/10)) ⟨10, 20⟩ ⟨5 * 10 ^ 9, 100 * 10 ^ 9⟩).asU32 ≤ Complexity.okN.asU32 := by
  have h := (C83_time idealLog2 idealPowi idealPowf ideal_library (1/10) (Or.inl rfl) (5 * 10 ^ 9) (100 * 10 ^ 9)
    (by norm_num) (by norm_num) (by norm_num) .okN).1 10 20 (by norm_num) (by norm_num) (by norm_num)
    (Or.inr (Or.inr ⟨ideal_powf, by norm_num⟩))
  intro hc
  rcases h.2 hc with h | h
  · simp only [grows] at h
    norm_num at h
  · norm_num at h

end BigO
