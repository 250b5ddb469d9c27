import Verif.Props.Verdict
import Verif.Spec.Classes

/-!
# The order of all verdicts (C15)
-/
namespace BigO
open Asymptotics Filter

theorem inClass_named {k : ℝ} {c : Complexity} {f : ℝ → ℝ} (h : growthK k c = some f) : InClass k f c := by
  cases c <;> simp only [growthK, growth, Option.some.injEq, reduceCtorEq] at h <;> subst h <;> rfl

/-- C15. ... and so for all verdicts, "worse than one class but better than the next" included: a function of a class with a smaller
number is asymptotically negligible against one of a class with a greater number -/
theorem C15_order_of_all (k : ℝ) (hk : 1 < k) (c c' : Complexity) (f f' : ℝ → ℝ) (hc : InClass k f c) (hc' : InClass k f' c')
    (h : c.asU32 < c'.asU32) : f =o[atTop] f' := by
  have named : ∀ a b fa fb, growthK k a = some fa → growthK k b = some fb → a.asU32 < b.asU32 → fa =o[atTop] fb :=
    fun a b fa fb => C15_order_is_asymptotic k hk a b fa fb
  -- what lies above the class with the smaller number, and below the other
  have up : (∃ fa, growthK k c = some fa ∧ f = fa) ∨
      (∃ a fa, growthK k a = some fa ∧ f =o[atTop] fa ∧ a.asU32 = c.asU32 + 1) ∨ c = .worseThanExponential := by
    cases c <;> simp only [InClass] at hc
    all_goals first
      | exact Or.inl ⟨_, rfl, hc⟩
      | exact Or.inr (Or.inr rfl)
      | exact Or.inr (Or.inl ⟨.o1, _, rfl, hc, rfl⟩)
      | exact Or.inr (Or.inl ⟨.oLogN, _, rfl, hc.2, rfl⟩)
      | exact Or.inr (Or.inl ⟨.oN, _, rfl, hc.2, rfl⟩)
      | exact Or.inr (Or.inl ⟨.oNLogN, _, rfl, hc.2, rfl⟩)
      | exact Or.inr (Or.inl ⟨.oN2, _, rfl, hc.2, rfl⟩)
      | exact Or.inr (Or.inl ⟨.oN3, _, rfl, hc.2, rfl⟩)
      | exact Or.inr (Or.inl ⟨.oN4, _, rfl, hc.2, rfl⟩)
      | exact Or.inr (Or.inl ⟨.okN, _, rfl, hc.2, rfl⟩)
  have down : (∃ fb, growthK k c' = some fb ∧ f' = fb) ∨
      (∃ b fb, growthK k b = some fb ∧ fb =o[atTop] f' ∧ b.asU32 + 1 = c'.asU32) ∨ c' = .betterThanO1 := by
    cases c' <;> simp only [InClass] at hc'
    all_goals first
      | exact Or.inl ⟨_, rfl, hc'⟩
      | exact Or.inr (Or.inr rfl)
      | exact Or.inr (Or.inl ⟨.o1, _, rfl, hc'.1, rfl⟩)
      | exact Or.inr (Or.inl ⟨.oLogN, _, rfl, hc'.1, rfl⟩)
      | exact Or.inr (Or.inl ⟨.oN, _, rfl, hc'.1, rfl⟩)
      | exact Or.inr (Or.inl ⟨.oNLogN, _, rfl, hc'.1, rfl⟩)
      | exact Or.inr (Or.inl ⟨.oN2, _, rfl, hc'.1, rfl⟩)
      | exact Or.inr (Or.inl ⟨.oN3, _, rfl, hc'.1, rfl⟩)
      | exact Or.inr (Or.inl ⟨.oN4, _, rfl, hc'.1, rfl⟩)
      | exact Or.inr (Or.inl ⟨.okN, _, rfl, hc', rfl⟩)
  have hle : c'.asU32 ≤ 16 := by cases c' <;> decide
  rcases up with ⟨fa, ha, rfl⟩ | ⟨a, fa, ha, hfa, hna⟩ | rfl
  · rcases down with ⟨fb, hb, rfl⟩ | ⟨b, fb, hb, hfb, hnb⟩ | rfl
    · exact named _ _ _ _ ha hb h
    · rcases Nat.lt_or_ge c.asU32 b.asU32 with hlt | hge
      · exact (named _ _ _ _ ha hb hlt).trans hfb
      · have : c = b := asU32_injective (by omega)
        subst this
        rw [ha] at hb; injection hb with hb; subst hb
        exact hfb
    · exact absurd h (by simp [Complexity.asU32])
  · rcases down with ⟨fb, hb, rfl⟩ | ⟨b, fb, hb, hfb, hnb⟩ | rfl
    · rcases Nat.lt_or_ge a.asU32 c'.asU32 with hlt | hge
      · exact hfa.trans (named _ _ _ _ ha hb hlt)
      · have : a = c' := asU32_injective (by omega)
        subst this
        rw [ha] at hb; injection hb with hb; subst hb
        exact hfa
    · rcases Nat.lt_or_ge a.asU32 b.asU32 with hlt | hge
      · exact (hfa.trans (named _ _ _ _ ha hb hlt)).trans hfb
      · by_cases hab : a.asU32 = b.asU32
        · have : a = b := asU32_injective hab
          subst this
          rw [ha] at hb; injection hb with hb; subst hb
          exact hfa.trans hfb
        · exfalso
          have hcc : c.asU32 + 1 = c'.asU32 := by omega
          have hpar : ∀ x fx, growthK k x = some fx → x.asU32 % 2 = 1 := by
            intro x fx hx; cases x <;> simp [growthK, growth] at hx <;> rfl
          have := hpar _ _ ha
          have := hpar _ _ hb
          omega
    · exact absurd h (by simp [Complexity.asU32])
  · have hw : Complexity.worseThanExponential.asU32 = 16 := rfl
    omega
/-- `n · √n` is worse than `O(n.log(n))` and better than `O(n²)`, so it is negligible against `n³` -/
theorem inClass_sqrt : InClass 2 (fun n => n * n ^ (1 / 2 : ℝ)) .betweenONLogNAndON2 := by
  have h1 : (fun n : ℝ => Real.logb 2 n) =o[atTop] fun n : ℝ => n ^ (1 / 2 : ℝ) := by
    have := (isLittleO_log_rpow_atTop (r := 1 / 2) (by norm_num)).const_mul_left (1 / Real.log 2)
    exact this.congr_left fun x => by unfold Real.logb; ring
  have h2 : (fun n : ℝ => n ^ (1 / 2 : ℝ)) =o[atTop] fun n : ℝ => n := by
    have h0 : (fun _ : ℝ => (1 : ℝ)) =o[atTop] fun n : ℝ => n ^ (1 / 2 : ℝ) := by
      rw [isLittleO_const_left]; right
      exact tendsto_norm_atTop_atTop.comp (tendsto_rpow_atTop (by norm_num))
    have := (isBigO_refl (fun n : ℝ => n ^ (1 / 2 : ℝ)) atTop).mul_isLittleO h0
    refine (this.congr' (Eventually.of_forall fun x => by simp) ?_)
    filter_upwards [eventually_gt_atTop 0] with x hx
    rw [← Real.rpow_add hx]; norm_num
  refine ⟨(isBigO_refl (fun n : ℝ => n) atTop).mul_isLittleO h1, ?_⟩
  have := (isBigO_refl (fun n : ℝ => n) atTop).mul_isLittleO h2
  exact this.congr_right fun x => by ring

example : (fun n : ℝ => n * n ^ (1 / 2 : ℝ)) =o[atTop] fun n : ℝ => n ^ 3 :=
  C15_order_of_all 2 (by norm_num) .betweenONLogNAndON2 .oN3 _ _ inClass_sqrt rfl (by decide)

end BigO
