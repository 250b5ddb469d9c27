import Verif.Props.Shipped
import Verif.Props.VerdictOrder
import Verif.Spec.Detection

/-!
# C94: large enough sets tell algorithms apart

`T n` is the running time (in nanoseconds) of a pass over `n` elements, `B n` what the memory readings of such a pass say.
-/
namespace BigO
open Asymptotics Filter Topology

/-! ## Limits and ratios -/

/-- a limit that names a growth function asks for growth within the tolerance of it -/
theorem meets_named {tol n1 n2 u1 u2 : ℝ} {c : Complexity} {f : ℝ → ℝ} (hc : growth c = some f) :
    MeetsLimit tol n1 n2 u1 u2 c ↔ u2 / u1 ≤ (1 + tol) * grows f n1 n2 := by
  cases c <;> simp only [growth, Option.some.injEq, reduceCtorEq] at hc <;> subst hc <;> simp [MeetsLimit, grows]

theorem growth_pos {c : Complexity} {f : ℝ → ℝ} (hc : growth c = some f) {n : ℝ} (hn : 2 ≤ n) : 0 < f n := by
  have := logb_pos2 hn
  have hn0 : 0 < n := by linarith
  cases c <;> simp only [growth, Option.some.injEq, reduceCtorEq] at hc <;> subst hc <;> positivity

theorem growthK_of_growth {k : ℝ} {c : Complexity} {f : ℝ → ℝ} (h : growth c = some f) : growthK k c = some f := by
  cases c <;> simp only [growth, Option.some.injEq, reduceCtorEq] at h <;> subst h <;> rfl

/-- the quotient of the usages against the quotient of the growths, cross-multiplied -/
theorem within_iff {k n1 n2 u1 u2 : ℝ} {c : Complexity} {f : ℝ → ℝ} (hc : growth c = some f) (h1 : 2 ≤ n1) (h2 : 2 ≤ n2) (hu : 0 < u1) :
    u2 / u1 ≤ k * grows f n1 n2 ↔ u2 / f n2 ≤ k * (u1 / f n1) := by
  have p1 := growth_pos hc h1
  have p2 := growth_pos hc h2
  unfold grows
  rw [div_le_iff₀ hu, div_le_iff₀ p2]
  have : k * (f n2 / f n1) * u1 = k * (u1 / f n1) * f n2 := by field_simp
  rw [this]

theorem below_iff {k n1 n2 u1 u2 : ℝ} {c : Complexity} {f : ℝ → ℝ} (hc : growth c = some f) (h1 : 2 ≤ n1) (h2 : 2 ≤ n2) (hu : 0 < u1) :
    u2 / u1 < k * grows f n1 n2 ↔ u2 / f n2 < k * (u1 / f n1) := by
  have p1 := growth_pos hc h1
  have p2 := growth_pos hc h2
  unfold grows
  rw [div_lt_iff₀ hu, div_lt_iff₀ p2]
  have : k * (f n2 / f n1) * u1 = k * (u1 / f n1) * f n2 := by field_simp
  rw [this]

section
variable {tol : ℝ} (ht : 0 < tol) (U : ℕ → ℝ) {c : Complexity} {f : ℝ → ℝ} (hc : growth c = some f)
include ht hc

/-- usage of a greater order than the limit: not met, for all large second sets -/
theorem slower_not_met {n1 : ℕ} (h1 : 3 ≤ n1) (hp : 0 < U n1) (hf : (fun n : ℕ => f n) =o[atTop] U) (hU : ∀ n, 0 ≤ U n) :
    ∀ᶠ n2 : ℕ in atTop, ¬ MeetsLimit tol n1 n2 (U n1) (U n2) c := by
  have h1' : (2:ℝ) ≤ n1 := by exact_mod_cast (by omega : 2 ≤ n1)
  have p1 := growth_pos hc h1'
  have hK : 0 < (1 + tol) * (U n1 / f n1) := by positivity
  have := hf.def (c := 1 / (2 * ((1 + tol) * (U n1 / f n1)))) (by positivity)
  filter_upwards [this, eventually_ge_atTop n1] with n2 hn hge
  have h2' : (2:ℝ) ≤ n2 := by exact_mod_cast (by omega : 2 ≤ n2)
  have p2 := growth_pos hc h2'
  rw [meets_named hc, within_iff hc h1' h2' hp, not_le]
  rw [Real.norm_of_nonneg p2.le, Real.norm_of_nonneg (hU _)] at hn
  rw [lt_div_iff₀ p2]
  have e : 1 / (2 * ((1 + tol) * (U n1 / f n1))) * U n2 = U n2 / (2 * ((1 + tol) * (U n1 / f n1))) := by ring
  rw [e, le_div_iff₀ (by positivity)] at hn
  nlinarith

/-- usage of a smaller order than the limit: met, for all large second sets -/
theorem faster_met {n1 : ℕ} (h1 : 3 ≤ n1) (hp : 0 < U n1) (hf : U =o[atTop] (fun n : ℕ => f n)) (hU : ∀ n, 0 ≤ U n) :
    ∀ᶠ n2 : ℕ in atTop, MeetsLimit tol n1 n2 (U n1) (U n2) c := by
  have h1' : (2:ℝ) ≤ n1 := by exact_mod_cast (by omega : 2 ≤ n1)
  have p1 := growth_pos hc h1'
  have := hf.def (c := (1 + tol) * (U n1 / f n1)) (by positivity)
  filter_upwards [this, eventually_ge_atTop n1] with n2 hn hge
  have h2' : (2:ℝ) ≤ n2 := by exact_mod_cast (by omega : 2 ≤ n2)
  have p2 := growth_pos hc h2'
  rw [meets_named hc, within_iff hc h1' h2' hp]
  rw [Real.norm_of_nonneg p2.le, Real.norm_of_nonneg (hU _)] at hn
  rwa [div_le_iff₀ p2]

/-- usage proportional to `f` in the limit: the quotient `U n / f n` changes by less than the tolerance from some size on -/
theorem same_growth {L : ℝ} (hL : 0 < L) (hU : Tendsto (fun n : ℕ => U n / f n) atTop (𝓝 L)) (ht1 : tol < 1) :
    ∃ N : ℕ, 3 ≤ N ∧ ∀ n1 n2 : ℕ, N ≤ n1 → N ≤ n2 → 0 < U n1 ∧ U n2 / U n1 ≤ (1 + tol) * grows f n1 n2 ∧
      ¬ U n2 / U n1 < (1 - tol) * grows f n1 n2 := by
  have hd : 0 < L * (tol / 4) := by positivity
  have := (Metric.tendsto_atTop.1 hU) _ hd
  obtain ⟨N, hN⟩ := this
  refine ⟨max N 3, le_max_right _ _, fun n1 n2 g1 g2 => ?_⟩
  have a1 := hN n1 (le_of_max_le_left g1)
  have a2 := hN n2 (le_of_max_le_left g2)
  have k1 : (2:ℝ) ≤ n1 := by exact_mod_cast (le_trans (by norm_num) (le_of_max_le_right g1) : 2 ≤ n1)
  have k2 : (2:ℝ) ≤ n2 := by exact_mod_cast (le_trans (by norm_num) (le_of_max_le_right g2) : 2 ≤ n2)
  rw [Real.dist_eq, abs_lt] at a1 a2
  have p1 := growth_pos hc k1
  have hp : 0 < U n1 := by
    have : 0 < U n1 / f n1 := by nlinarith [a1.1]
    rcases (div_pos_iff.1 this) with h | h
    · exact h.1
    · linarith [h.2]
  refine ⟨hp, ?_, ?_⟩
  · rw [within_iff hc k1 k2 hp]; nlinarith [a1.1, a2.2]
  · rw [below_iff hc k1 k2 hp, not_lt]; nlinarith [a1.2, a2.1]

end

/-- the limit just below a named one asks for less growth than the named one, or for a class below it -/
theorem meets_below {tol n1 n2 u1 u2 : ℝ} {c b : Complexity} {f : ℝ → ℝ} (hc : growth c = some f) (hb : b.asU32 + 1 = c.asU32)
    (h : MeetsLimit tol n1 n2 u1 u2 b) :
    u2 / u1 < (1 - tol) * grows f n1 n2 ∨ ∃ c' f', growth c' = some f' ∧ c'.asU32 < c.asU32 ∧ MeetsLimit tol n1 n2 u1 u2 c' := by
  cases c <;> simp only [growth, Option.some.injEq, reduceCtorEq] at hc <;> subst hc <;>
    cases b <;> try (exact absurd hb (by decide))
  · left; simpa [MeetsLimit, grows] using h
  · rcases h with h | h
    · exact Or.inr ⟨.o1, _, rfl, by decide, h⟩
    · exact Or.inl h
  · rcases h with h | h
    · exact Or.inr ⟨.oLogN, _, rfl, by decide, h⟩
    · exact Or.inl h
  · rcases h with h | h
    · exact Or.inr ⟨.oN, _, rfl, by decide, h⟩
    · exact Or.inl h
  · rcases h with h | h
    · exact Or.inr ⟨.oNLogN, _, rfl, by decide, h⟩
    · exact Or.inl h
  · rcases h with h | h
    · exact Or.inr ⟨.oN2, _, rfl, by decide, h⟩
    · exact Or.inl h
  · rcases h with h | h
    · exact Or.inr ⟨.oN3, _, rfl, by decide, h⟩
    · exact Or.inl h

/-! ## C94 -/

section
variable (tol : ℝ) (ht : 0 < tol) (ht1 : tol < 1) (c : Complexity) (f : ℝ → ℝ) (hc : growth c = some f)
include ht hc

/-- **C94** (time): if the running time grows faster than the limit `O(f)` allows, the verdict is worse than the limit for every large
enough second set. -/
theorem C94_slower_rejected (T : ℕ → Duration) (n1 : ℕ) (h1 : 3 ≤ n1) (hp : 0 < T n1)
    (hT : (fun n : ℕ => f n) =o[atTop] (fun n => (T n : ℝ))) :
    ∀ᶠ n2 : ℕ in atTop, c.asU32 < (analyseTime (exactEnv tol) ⟨n1, n2⟩ ⟨T n1, T n2⟩).asU32 := by
  have hT' : (fun n : ℕ => f n) =o[atTop] (fun n => (T n : ℝ) / 10 ^ 9) := by
    simp only [div_eq_inv_mul]
    exact (isLittleO_const_mul_right_iff (by norm_num)).2 hT
  have hp' : (0:ℝ) < (T n1 : ℝ) / 10 ^ 9 := by
    have : (0:ℝ) < T n1 := by exact_mod_cast hp
    positivity
  filter_upwards [slower_not_met ht _ hc h1 hp' hT' (fun n => by positivity), eventually_ge_atTop n1] with n2 h hge
  rw [← C82_time tol ht n1 n2 h1 hge (T n1) (T n2) hp] at h
  omega

/-- **C94** (time): if it grows more slowly than the limit, the verdict is within the limit for every large enough second set. -/
theorem C94_faster_accepted (T : ℕ → Duration) (n1 : ℕ) (h1 : 3 ≤ n1) (hp : 0 < T n1)
    (hT : (fun n => (T n : ℝ)) =o[atTop] (fun n : ℕ => f n)) :
    ∀ᶠ n2 : ℕ in atTop, (analyseTime (exactEnv tol) ⟨n1, n2⟩ ⟨T n1, T n2⟩).asU32 ≤ c.asU32 := by
  have hT' : (fun n => (T n : ℝ) / 10 ^ 9) =o[atTop] (fun n : ℕ => f n) := by
    simp only [div_eq_inv_mul]
    exact hT.const_mul_left _
  have hp' : (0:ℝ) < (T n1 : ℝ) / 10 ^ 9 := by
    have : (0:ℝ) < T n1 := by exact_mod_cast hp
    positivity
  filter_upwards [faster_met ht _ hc h1 hp' hT' (fun n => by positivity), eventually_ge_atTop n1] with n2 h hge
  rwa [← C82_time tol ht n1 n2 h1 hge (T n1) (T n2) hp] at h

include ht1

omit ht ht1 in
/-- a usage that grows like `f` is of greater order than every class below -/
theorem lower_littleO {U : ℕ → ℝ} (hU : GrowsLike U f) {c' : Complexity} {f' : ℝ → ℝ} (hc' : growth c' = some f') (h : c'.asU32 < c.asU32) :
    (fun n : ℕ => f' n) =o[atTop] U := by
  obtain ⟨L, hL, hlim⟩ := hU
  have h0 : f' =o[atTop] f := C15_order_is_asymptotic 2 (by norm_num) c' c f' f (growthK_of_growth hc') (growthK_of_growth hc) h
  have h1 : (fun n : ℕ => f' n) =o[atTop] (fun n : ℕ => f n) := h0.comp_tendsto tendsto_natCast_atTop_atTop
  refine h1.trans_isBigO ?_
  rw [isBigO_iff]
  refine ⟨2 / L, ?_⟩
  have := (tendsto_order.1 hlim).1 (L / 2) (by linarith)
  filter_upwards [this, eventually_ge_atTop 2] with n hn h2
  have p := growth_pos hc (n := n) (by exact_mod_cast h2)
  rw [lt_div_iff₀ p] at hn
  have hUn : 0 < U n := by nlinarith [mul_pos hL p]
  rw [Real.norm_of_nonneg p.le, Real.norm_of_nonneg hUn.le, div_mul_eq_mul_div, le_div_iff₀ hL]
  linarith

omit ht1 in
theorem all_lower_not_met {U : ℕ → ℝ} (hU : GrowsLike U f) (hnn : ∀ n, 0 ≤ U n) {n1 : ℕ} (h1 : 3 ≤ n1) (hp : 0 < U n1) :
    ∀ᶠ n2 : ℕ in atTop, ∀ c' f', growth c' = some f' → c'.asU32 < c.asU32 → ¬ MeetsLimit tol n1 n2 (U n1) (U n2) c' := by
  have key : ∀ c' : Complexity, ∀ᶠ n2 : ℕ in atTop, ∀ f', growth c' = some f' → c'.asU32 < c.asU32 →
      ¬ MeetsLimit tol n1 n2 (U n1) (U n2) c' := by
    intro c'
    cases hg : growth c' with
    | none => simp
    | some f' =>
      by_cases hlt : c'.asU32 < c.asU32
      · filter_upwards [slower_not_met ht U hg h1 hp (lower_littleO c f hc hU hg hlt) hnn] with n2 h
        intro _ _ _; exact h
      · simp [hlt]
  filter_upwards [key .o1, key .oLogN, key .oN, key .oNLogN, key .oN2, key .oN3, key .oN4] with n2 a b d e g h k c' f' hf hl
  cases c' <;> simp only [growth, Option.some.injEq, reduceCtorEq] at hf
  · exact a f' (by simpa [growth] using hf) hl
  · exact b f' (by simpa [growth] using hf) hl
  · exact d f' (by simpa [growth] using hf) hl
  · exact e f' (by simpa [growth] using hf) hl
  · exact g f' (by simpa [growth] using hf) hl
  · exact h f' (by simpa [growth] using hf) hl
  · exact k f' (by simpa [growth] using hf) hl

/-- a usage that grows like `f` meets the limit `O(f)` and not the one just below it -/
theorem classified {U : ℕ → ℝ} (hU : GrowsLike U f) (hnn : ∀ n, 0 ≤ U n) :
    ∃ N : ℕ, 3 ≤ N ∧ ∀ n1 ≥ N, 0 < U n1 ∧ (∀ n2 ≥ n1, MeetsLimit tol n1 n2 (U n1) (U n2) c) ∧ ∀ᶠ n2 : ℕ in atTop, n1 ≤ n2 ∧
      ∀ b : Complexity, b.asU32 + 1 = c.asU32 → ¬ MeetsLimit tol n1 n2 (U n1) (U n2) b := by
  obtain ⟨L, hL, hlim⟩ := id hU
  obtain ⟨N, hN, h⟩ := same_growth ht U hc hL hlim ht1
  refine ⟨N, hN, fun n1 hn => ⟨(h n1 n1 hn hn).1, fun n2 h2 => (meets_named hc).2 (h n1 n2 hn (hn.trans h2)).2.1, ?_⟩⟩
  filter_upwards [all_lower_not_met tol ht c f hc hU hnn (hN.trans hn) (h n1 n1 hn hn).1, eventually_ge_atTop n1] with n2 hlow h2
  refine ⟨h2, fun b hb hm => ?_⟩
  rcases meets_below hc hb hm with hm | ⟨c', f', g1, g2, g3⟩
  · exact (h n1 n2 hn (hn.trans h2)).2.2 hm
  · exact hlow c' f' g1 g2 g3

omit ht ht1 in
theorem exists_below : ∃ b : Complexity, b.asU32 + 1 = c.asU32 := by
  cases c <;> simp only [growth, reduceCtorEq] at hc
  exacts [⟨.betterThanO1, rfl⟩, ⟨.betweenO1AndOLogN, rfl⟩, ⟨.betweenOLogNAndON, rfl⟩, ⟨.betweenONAndONLogN, rfl⟩,
    ⟨.betweenONLogNAndON2, rfl⟩, ⟨.betweenON2AndON3, rfl⟩, ⟨.betweenON3AndON4, rfl⟩]

/-- **C94** (the right verdict, time): a running time that grows like `f` is never reported worse than `O(f)` once both sets are large
enough, and is reported as exactly `O(f)` if the second set is also large enough in comparison with the first. -/
theorem C94_classified (T : ℕ → Duration) (hT : GrowsLike (fun n => (T n : ℝ)) f) :
    ∃ N : ℕ, ∀ n1 ≥ N, (∀ n2 ≥ n1, (analyseTime (exactEnv tol) ⟨n1, n2⟩ ⟨T n1, T n2⟩).asU32 ≤ c.asU32) ∧
      ∀ᶠ n2 : ℕ in atTop, analyseTime (exactEnv tol) ⟨n1, n2⟩ ⟨T n1, T n2⟩ = c := by
  have hU : GrowsLike (fun n => (T n : ℝ) / 10 ^ 9) f := by
    obtain ⟨L, hL, hlim⟩ := hT
    refine ⟨L / 10 ^ 9, by positivity, ?_⟩
    simp only [div_right_comm _ ((10:ℝ) ^ 9)]
    exact hlim.div_const _
  obtain ⟨N, h3, h⟩ := classified tol ht ht1 c f hc hU (fun n => by positivity)
  obtain ⟨b, hb⟩ := exists_below c f hc
  refine ⟨N, fun n1 hn => ?_⟩
  obtain ⟨hp, hle, hev⟩ := h n1 hn
  have hp' : 0 < T n1 := by
    rcases Nat.eq_zero_or_pos (T n1) with h0 | h0
    · simp [h0] at hp
    · exact h0
  have hle' : ∀ n2 ≥ n1, (analyseTime (exactEnv tol) ⟨n1, n2⟩ ⟨T n1, T n2⟩).asU32 ≤ c.asU32 := fun n2 h2 =>
    (C82_time tol ht n1 n2 (h3.trans hn) h2 (T n1) (T n2) hp' c).2 (hle n2 h2)
  refine ⟨hle', ?_⟩
  filter_upwards [hev] with n2 ⟨h2, hnot⟩
  have := hnot b hb
  rw [← C82_time tol ht n1 n2 (h3.trans hn) h2 (T n1) (T n2) hp'] at this
  have := hle' n2 h2
  exact asU32_injective (by omega)

/-- **C94** (the right verdict, space): the same for the peak of memory of each pass above what was in use before it. -/
theorem C94_classified_space (p : Profile) (B : ℕ → SpacePass) (hB : ∀ n, (B n).usedBefore ≤ (B n).maxUsed)
    (hG : GrowsLike (fun n => (bytesUsed (B n) : ℝ)) f) :
    ∃ N : ℕ, ∀ n1 ≥ N,
      (∀ n2 ≥ n1, ∃ v, analyseSpace (exactEnv tol) p ⟨n1, n2⟩ ⟨B n1, B n2⟩ = .ok v ∧ v.asU32 ≤ c.asU32) ∧
      ∀ᶠ n2 : ℕ in atTop, analyseSpace (exactEnv tol) p ⟨n1, n2⟩ ⟨B n1, B n2⟩ = .ok c := by
  obtain ⟨N, h3, h⟩ := classified tol ht ht1 c f hc hG (fun n => by positivity)
  obtain ⟨b, hb⟩ := exists_below c f hc
  refine ⟨N, fun n1 hn => ?_⟩
  obtain ⟨hp, hle, hev⟩ := h n1 hn
  have hp' : (B n1).usedBefore < (B n1).maxUsed := by
    have : 0 < bytesUsed (B n1) := by exact_mod_cast hp
    unfold bytesUsed at this; omega
  have hle' : ∀ n2 ≥ n1, ∃ v, analyseSpace (exactEnv tol) p ⟨n1, n2⟩ ⟨B n1, B n2⟩ = .ok v ∧ v.asU32 ≤ c.asU32 := by
    intro n2 h2
    obtain ⟨v, e, hv⟩ := (C82_space tol ht ht1 p (B n1) (B n2) hp' (hB n2) c).1 n1 n2 (h3.trans hn) h2
    exact ⟨v, e, hv.2 (hle n2 h2)⟩
  refine ⟨hle', ?_⟩
  filter_upwards [hev] with n2 ⟨h2, hnot⟩
  obtain ⟨v, e, hv⟩ := hle' n2 h2
  obtain ⟨v', e', hv'⟩ := (C82_space tol ht ht1 p (B n1) (B n2) hp' (hB n2) b).1 n1 n2 (h3.trans hn) h2
  have := hnot b hb
  rw [e] at e'
  injection e' with e'
  subst e'
  rw [← hv'] at this
  rw [e, asU32_injective (show v.asU32 = c.asU32 by omega)]

end

/-- **C94** (which sizes tell two classes apart): an algorithm whose usage is exactly `a·f(n)` is found worse than the limit `O(g)` if and
only if between the two sizes `f` grows more than `1 + tol` times as much as `g`. -/
theorem C94_separated_iff (tol a n1 n2 : ℝ) (ht : 0 < tol) (ha : 0 < a) (h1 : 3 ≤ n1) (h : n1 ≤ n2) (c c' : Complexity) (f g : ℝ → ℝ)
    (hf : growth c = some f) (hg : growth c' = some g) :
    c'.asU32 < (analyseComplexity (exactEnv tol) (.fin (a * f n1)) (.fin (a * f n2)) (.fin n1) (.fin n2)).asU32 ↔
      (1 + tol) * grows g n1 n2 < grows f n1 n2 := by
  have p1 := growth_pos hf (n := n1) (by linarith)
  have p2 := growth_pos hf (n := n2) (by linarith)
  have := C02_acceptance tol (a * f n1) (a * f n2) n1 n2 ht (by positivity) (by positivity) h1 h c' g hg
  rw [mul_div_mul_left _ _ ha.ne'] at this
  unfold grows
  rw [← not_le, this, not_le]

/-- **C94** (a logarithmic factor): an algorithm that takes exactly `a·n·log n` is found worse than the limit `O(n)` if and only if the
second size exceeds the first one to the power `1 + tol`. -/
theorem C94_log_factor (tol a n1 n2 : ℝ) (ht : 0 < tol) (ha : 0 < a) (h1 : 3 ≤ n1) (h : n1 ≤ n2) :
    Complexity.oN.asU32 < (analyseComplexity (exactEnv tol) (.fin (a * (n1 * Real.logb 2 n1))) (.fin (a * (n2 * Real.logb 2 n2)))
      (.fin n1) (.fin n2)).asU32 ↔ n1 ^ (1 + tol) < n2 := by
  rw [C94_separated_iff tol a n1 n2 ht ha h1 h .oNLogN .oN _ _ rfl rfl]
  have l1 := logb_pos2 (n := n1) (by linarith)
  have hn1 : 0 < n1 := by linarith
  have hn2 : 0 < n2 := by linarith
  have e : grows (fun n => n * Real.logb 2 n) n1 n2 = grows (fun n => n) n1 n2 * (Real.logb 2 n2 / Real.logb 2 n1) := by
    unfold grows; field_simp
  have hq : 0 < grows (fun n => n) n1 n2 := by unfold grows; positivity
  rw [e, mul_comm, mul_lt_mul_iff_right₀ hq, lt_div_iff₀ l1, ← Real.logb_rpow_eq_mul_logb_of_pos hn1,
    Real.logb_lt_logb_iff (by norm_num) (by positivity) hn2]

/-- **C94** (doubling is not enough): if the second set is twice the first, an `a·n·log n` algorithm is found worse than the limit `O(n)`
if and only if the first set has fewer than `2^(1/tol)` elements: 1024 with the tolerance of 10%, 16 with that of 25%. -/
theorem C94_doubling (tol a n : ℝ) (ht : 0 < tol) (ha : 0 < a) (h1 : 3 ≤ n) :
    Complexity.oN.asU32 < (analyseComplexity (exactEnv tol) (.fin (a * (n * Real.logb 2 n))) (.fin (a * ((2 * n) * Real.logb 2 (2 * n))))
      (.fin n) (.fin (2 * n))).asU32 ↔ n < 2 ^ (1 / tol) := by
  rw [C94_log_factor tol a n (2 * n) ht ha h1 (by linarith)]
  have hn : 0 < n := by linarith
  rw [Real.rpow_add hn, Real.rpow_one, mul_comm, mul_lt_mul_iff_left₀ hn]
  constructor
  · intro h
    have := Real.rpow_lt_rpow (by positivity) h (show 0 < 1 / tol by positivity)
    rwa [← Real.rpow_mul hn.le, mul_one_div_cancel ht.ne', Real.rpow_one] at this
  · intro h
    have := Real.rpow_lt_rpow (by positivity) h ht
    rwa [← Real.rpow_mul (by norm_num), one_div_mul_cancel ht.ne', Real.rpow_one] at this

/-! ## Concrete cases -/

theorem quadratic_limit (a b : ℝ) : Tendsto (fun n : ℕ => ((n:ℝ) ^ 2 + a * n + b) / (n:ℝ) ^ 2) atTop (𝓝 1) := by
  have h0 : Tendsto (fun n : ℕ => 1 / (n:ℝ)) atTop (𝓝 0) := tendsto_one_div_atTop_nhds_zero_nat
  have h : Tendsto (fun n : ℕ => 1 + a * (1 / (n:ℝ)) + b * (1 / (n:ℝ)) ^ 2) atTop (𝓝 (1 + a * 0 + b * 0 ^ 2)) :=
    (tendsto_const_nhds.add (h0.const_mul a)).add ((h0.pow 2).const_mul b)
  rw [show (1:ℝ) + a * 0 + b * 0 ^ 2 = 1 by norm_num] at h
  refine h.congr' ?_
  filter_upwards [eventually_gt_atTop 0] with n hn
  have : (n:ℝ) ≠ 0 := by exact_mod_cast hn.ne'
  field_simp

/-- running time `n² + 7n + 3`: proportional to `n²` in the limit, reported as `O(n²)` -/
example : ∃ N : ℕ, ∀ n1 ≥ N, ∀ᶠ n2 : ℕ in atTop,
    analyseTime (exactEnv (1 / 10)) ⟨n1, n2⟩ ⟨n1 ^ 2 + 7 * n1 + 3, n2 ^ 2 + 7 * n2 + 3⟩ = .oN2 := by
  obtain ⟨N, h⟩ := C94_classified (1 / 10) (by norm_num) (by norm_num) .oN2 _ rfl (fun n => n ^ 2 + 7 * n + 3) (by
    exact ⟨1, one_pos, by simpa using quadratic_limit 7 3⟩)
  exact ⟨N, fun n1 hn => (h n1 hn).2⟩

/-- **C94** is false of small sets: `n² - 10 n` is proportional to `n²` in the limit, but between 11 and 22 elements it is reported as worse
than `O(n⁴)`. -/
theorem C94_small_sets_counterexample : ∃ T : ℕ → Duration, GrowsLike (fun n => (T n : ℝ)) (fun n => n ^ 2) ∧ 0 < T 11 ∧
    Complexity.oN4.asU32 < (analyseTime (exactEnv (1 / 10)) ⟨11, 22⟩ ⟨T 11, T 22⟩).asU32 := by
  refine ⟨fun n => n ^ 2 - 10 * n, ⟨1, one_pos, ?_⟩, by norm_num, ?_⟩
  · refine (quadratic_limit (-10) 0).congr' ?_
    filter_upwards [eventually_ge_atTop 10] with n hn
    have : 10 * n ≤ n ^ 2 := by nlinarith
    simp only [Nat.cast_sub this]
    congr 1
    push_cast
    ring
  · rw [← not_le, C82_time (1 / 10) (by norm_num) 11 22 (by norm_num) (by norm_num) _ _ (by norm_num), meets_named rfl]
    norm_num [grows]

/-- running time `2^n`: not within the limit `O(n⁴)`, with 10 elements in the first set and enough in the second -/
example : ∀ᶠ n2 : ℕ in atTop, Complexity.oN4.asU32 < (analyseTime (exactEnv (1 / 10)) ⟨10, n2⟩ ⟨2 ^ 10, 2 ^ n2⟩).asU32 := by
  refine C94_slower_rejected (1 / 10) (by norm_num) .oN4 _ rfl (fun n => 2 ^ n) 10 (by norm_num) (by norm_num) ?_
  have h := (C15_order_is_asymptotic 2 (by norm_num) .oN4 .okN _ _ rfl rfl (by decide)).comp_tendsto tendsto_natCast_atTop_atTop
  refine (h.congr_right ?_)
  intro n
  simp

/-- binary search under the limit `O(n)`: accepted, with 8 elements in the first set and enough in the second -/
example : ∀ᶠ n2 : ℕ in atTop, (analyseTime (exactEnv (1 / 10)) ⟨8, n2⟩ ⟨Nat.log 2 8, Nat.log 2 n2⟩).asU32 ≤ Complexity.oN.asU32 := by
  refine C94_faster_accepted (1 / 10) (by norm_num) .oN _ rfl (fun n => Nat.log 2 n) 8 (by norm_num) (by decide) ?_
  have h := (C15_order_is_asymptotic 2 (by norm_num) .oLogN .oN _ _ rfl rfl (by decide)).comp_tendsto tendsto_natCast_atTop_atTop
  refine IsBigO.trans_isLittleO ?_ h
  rw [isBigO_iff]
  refine ⟨1, ?_⟩
  filter_upwards [eventually_ge_atTop 2] with n hn
  have := Real.natLog_le_logb n 2
  have hp := logb_pos2 (n := n) (by exact_mod_cast hn)
  simp only [Function.comp, Real.norm_of_nonneg hp.le, one_mul]
  rw [Real.norm_of_nonneg (by positivity)]
  exact_mod_cast this

/-- sorting 1000 and 2000 elements in `n log n` is found worse than `O(n)` with the tolerance of 10%, but not with that of 25% -/
example : Complexity.oN.asU32 < (analyseComplexity (exactEnv (1 / 10)) (.fin (5 * (1000 * Real.logb 2 1000)))
      (.fin (5 * ((2 * 1000) * Real.logb 2 (2 * 1000)))) (.fin 1000) (.fin (2 * 1000))).asU32 ∧
    ¬ Complexity.oN.asU32 < (analyseComplexity (exactEnv (1 / 4)) (.fin (5 * (1000 * Real.logb 2 1000)))
      (.fin (5 * ((2 * 1000) * Real.logb 2 (2 * 1000)))) (.fin 1000) (.fin (2 * 1000))).asU32 := by
  rw [C94_doubling (1 / 10) 5 1000 (by norm_num) (by norm_num) (by norm_num), C94_doubling (1 / 4) 5 1000 (by norm_num) (by norm_num) (by norm_num)]
  constructor
  · rw [show (1:ℝ) / (1 / 10) = (10:ℕ) by norm_num, Real.rpow_natCast]; norm_num
  · rw [show (1:ℝ) / (1 / 4) = (4:ℕ) by norm_num, Real.rpow_natCast]; norm_num

/-- passes that hold `8·n` bytes: reported as `O(n)` -/
example (p : Profile) : ∃ N : ℕ, ∀ n1 ≥ N, ∀ᶠ n2 : ℕ in atTop,
    analyseSpace (exactEnv (1 / 10)) p ⟨n1, n2⟩ ⟨⟨100, 100, 100 + 8 * n1, 100⟩, ⟨100, 100, 100 + 8 * n2, 100⟩⟩ = .ok .oN := by
  obtain ⟨N, h⟩ := C94_classified_space (1 / 10) (by norm_num) (by norm_num) .oN _ rfl p (fun n => ⟨100, 100, 100 + 8 * n, 100⟩)
    (fun n => Nat.le_add_right _ _) (by
      refine ⟨8, by norm_num, ?_⟩
      refine tendsto_const_nhds.congr' ?_
      filter_upwards [eventually_gt_atTop 0] with n hn
      have : (n:ℝ) ≠ 0 := by exact_mod_cast hn.ne'
      simp only [bytesUsed, Nat.add_sub_cancel_left]
      push_cast
      field_simp)
  exact ⟨N, fun n1 hn => (h n1 hn).2⟩

end BigO
