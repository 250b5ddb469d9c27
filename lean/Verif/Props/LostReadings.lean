import Verif.Props.Binary64
import Verif.Props.Pass

/-!
# C47 in the shipped arithmetic
-/
namespace BigO
open F

theorem round64_nat_pow (k : ℤ) (h1 : -1022 ≤ k) (h2 : k + 53 ≤ 1024) : binary64.round ((2:ℝ) ^ k) = fin (2 ^ k) := by
  have := (Format.round_exact Format.ok64 (k := 1) (q := k) (by decide) (by decide) (by simp [binary64]; omega) (by simp [binary64]; omega)).1
  rwa [Nat.cast_one, one_mul] at this

/-- `usize::MAX as f64` is 2^64 -/
theorem usizeMax_as_f64 : binary64.round (((2:ℕ) ^ 64 - 1 : ℕ) : ℝ) = fin (2 ^ 64) := by
  rw [round64_eq 63 (2 ^ 53) (by norm_num) (by norm_num) (by norm_num) (by norm_num) (by rw [abs_lt]; constructor <;> norm_num)
    (by norm_num) (by norm_num)]
  norm_num

theorem lost_against_half (log2 : F → F) (powi : F → ℕ → F) (powf : F → F → F) {tol : ℝ} (ht : tol = 1 / 10 ∨ tol = 1 / 4) (n1 n2 : F) :
    let E := binary64Env log2 powi powf (binary64.round tol)
    analyseComplexity E (fin (2 ^ 64)) (fin (2 ^ 63)) n1 n2 = .betterThanO1 ∧
      analyseSetResizing E (fin (2 ^ 64)) (fin (2 ^ 63)) n1 = .betterThanO1 := by
  intro E
  have hpow : ∀ k : ℤ, -1022 ≤ k → k + 53 ≤ 1024 → E.rnd ((2:ℝ) ^ k) = fin (2 ^ k) := round64_nat_pow
  have hhalf : E.rnd (2 ^ 63 / 2 ^ 64) = fin (1 / 2) := by
    have := hpow (-1) (by norm_num) (by norm_num)
    have e : ((2:ℝ) ^ (-1:ℤ)) = 1 / 2 := by norm_num
    rw [e] at this
    rw [show ((2:ℝ) ^ 63 / 2 ^ 64) = 1 / 2 by norm_num]
    exact this
  have htwo : E.rnd (2 ^ 64 / 2 ^ 63) = fin 2 := by
    have := hpow 1 (by norm_num) (by norm_num)
    rw [zpow_one] at this
    rw [show ((2:ℝ) ^ 64 / 2 ^ 63) = 2 by norm_num]
    exact this
  have hone : E.rnd (2 - 1) = fin 1 := by
    have := hpow 0 (by norm_num) (by norm_num)
    rw [zpow_zero] at this
    rw [show (2 - 1 : ℝ) = 1 by norm_num]
    exact this
  have hthree : E.rnd (3 / 4) = fin (3 / 4) := by
    have := (Format.round_exact Format.ok64 (k := 3) (q := -2) (by decide) (by decide) (by decide) (by decide)).1
    have h : ((3:ℕ):ℝ) * 2 ^ (-2:ℤ) = 3 / 4 := by norm_num
    rwa [h] at this
  obtain ⟨t, htt, ht0, ht1⟩ : ∃ t : ℝ, E.tol = fin t ∧ 0 < t ∧ t ≤ 1 / 4 := by
    rcases ht with rfl | rfl
    · exact ⟨tol10, tol10_is_literal, by norm_num [tol10], by norm_num [tol10]⟩
    · exact ⟨1 / 4, tol25_is_literal, by norm_num, by norm_num⟩
  have L : FloatLaws E := by
    rcases ht with rfl | rfl
    · exact C17_laws_10 log2 powi powf
    · exact C17_laws_25 log2 powi powf
  have hsub : E.sub (fin 2) (fin 1) = fin 1 := by
    show E.rnd0 (2 - 1) = _
    unfold FloatEnv.rnd0
    rw [if_neg (by norm_num), hone]
  have hom : (fin (1 / 2) : F) < oneMinusTol E := by
    unfold oneMinusTol
    rw [htt]
    have e : E.sub (fin 1) (fin t) = E.rnd (1 - t) := by
      show E.rnd0 (1 - t) = _
      unfold FloatEnv.rnd0
      rw [if_neg (by linarith)]
    rw [e, F.lt_def]
    refine ⟨trivial, L.rnd_num _, lt_of_lt_of_le ?_ (L.rnd_mono (3 / 4) (1 - t) (by linarith))⟩
    rw [hthree, F.toE_fin, F.toE_fin, EReal.coe_lt_coe_iff]
    norm_num
  constructor
  · unfold analyseComplexity
    rw [div_fin_fin_pos (by norm_num) (by norm_num), hhalf, if_pos hom]
  · unfold analyseSetResizing
    rw [div_fin_fin_pos (by norm_num) (by norm_num), htwo, hsub, htt, if_pos ((F.fin_lt_fin _ _).2 (by linarith))]

/-- **C47** (first pass lost, shipped arithmetic): with the binary64 arithmetic, either tolerance and whatever the library functions return,
losing the statistics of the first pass gives the best possible verdict, in every space analysis, at all set sizes, for every second pass
that used at most 2^63 bytes, whatever the algorithm did. -/
theorem C47_first_lost_is_best_shipped (log2 : F → F) (powi : F → ℕ → F) (powf : F → F → F) (tol : ℝ) (ht : tol = 1 / 10 ∨ tol = 1 / 4)
    (p : Profile) (s2 : SpacePass) (hw : s2.usedBefore ≤ s2.maxUsed) (hu : s2.maxUsed - s2.usedBefore ≤ 2 ^ 63)
    (i : PassesInfo) (ic : ConstantSetPassesInfo) (is : SetResizingPassesInfo) :
    let E := binary64Env log2 powi powf (binary64.round tol)
    analyseSpace E p i ⟨lostReadings, s2⟩ = .ok .betterThanO1 ∧
      analyseSpaceConstantSet E p ic ⟨lostReadings, s2⟩ = .ok .betterThanO1 ∧
      analyseSpaceSetResizing E p is ⟨lostReadings, s2⟩ = .ok .betterThanO1 := by
  intro E
  have L : FloatLaws E := by
    rcases ht with rfl | rfl
    · exact C17_laws_10 log2 powi powf
    · exact C17_laws_25 log2 powi powf
  have best : ∀ {v : Complexity}, v.asU32 ≤ Complexity.betterThanO1.asU32 → v = .betterThanO1 := by
    intro v hv
    cases v <;> first | rfl | (exfalso; revert hv; decide)
  obtain ⟨A, B, C⟩ := C18_space_monotone E L p lostReadings s2 ⟨0, 0, 2 ^ 63, 0⟩ (by simp [lostReadings]) hw (by simp)
    (by simpa using hu) i ic is
  have hs : usizeSub p (2 ^ 64 - 1) 0 = .ok (2 ^ 64 - 1) := by
    unfold usizeSub; rw [if_pos (by omega)]; rfl
  have hs2 : usizeSub p (2 ^ 63) 0 = .ok (2 ^ 63) := by
    unfold usizeSub; rw [if_pos (by omega)]; rfl
  have ho : E.ofNat (2 ^ 64 - 1) = fin (2 ^ 64) := by
    unfold FloatEnv.ofNat FloatEnv.rnd0
    rw [if_neg (by norm_num)]
    exact usizeMax_as_f64
  have ho2 : E.ofNat (2 ^ 63) = fin (2 ^ 63) := by
    unfold FloatEnv.ofNat FloatEnv.rnd0
    rw [if_neg (by norm_num)]
    have := round64_nat_pow 63 (by norm_num) (by norm_num)
    have e : ((2:ℝ) ^ (63:ℤ)) = 2 ^ 63 := by norm_num
    rw [e] at this
    have e2 : (((2 ^ 63 : ℕ)) : ℝ) = 2 ^ 63 := by norm_num
    rw [e2]
    exact this
  have K := fun n1 n2 => lost_against_half log2 powi powf ht n1 n2
  refine ⟨?_, ?_, ?_⟩
  · obtain ⟨v, v', h, h', hle⟩ := A
    simp only [lostReadings, analyseSpace, hs, hs2, ho, ho2, bind, Except.bind, pure, Except.pure] at h'
    cases h'
    rw [h, best (hle.trans (by rw [(K _ _).1]))]
  · obtain ⟨v, v', h, h', hle⟩ := B
    simp only [lostReadings, analyseSpaceConstantSet, hs, hs2, ho, ho2, bind, Except.bind, pure, Except.pure] at h'
    cases h'
    rw [h, best (hle.trans (by rw [(K _ _).1]))]
  · obtain ⟨v, v', h, h', hle⟩ := C
    simp only [lostReadings, analyseSpaceSetResizing, hs, hs2, ho, ho2, bind, Except.bind, pure, Except.pure] at h'
    cases h'
    rw [h, best (hle.trans (by rw [(K _ (fin 0)).2]))]

/-- **C47** (both passes lost, shipped arithmetic): the verdict is `O(1)`, in every space analysis, at all set sizes. -/
theorem C47_both_lost_is_O1_shipped (log2 : F → F) (powi : F → ℕ → F) (powf : F → F → F) (tol : ℝ) (ht : tol = 1 / 10 ∨ tol = 1 / 4)
    (p : Profile) (i : PassesInfo) (ic : ConstantSetPassesInfo) (is : SetResizingPassesInfo) :
    let E := binary64Env log2 powi powf (binary64.round tol)
    analyseSpace E p i ⟨lostReadings, lostReadings⟩ = .ok .o1 ∧ analyseSpaceConstantSet E p ic ⟨lostReadings, lostReadings⟩ = .ok .o1 ∧
      analyseSpaceSetResizing E p is ⟨lostReadings, lostReadings⟩ = .ok .o1 := by
  intro E
  have L : FloatLaws E := by
    rcases ht with rfl | rfl
    · exact C17_laws_10 log2 powi powf
    · exact C17_laws_25 log2 powi powf
  have sp : SavePoint := ⟨fun _ => 0, 0⟩
  exact C47_both_lost_is_O1 E L p _ usizeMax_as_f64 sp sp ⟨""⟩ ⟨""⟩ i ic is

-- the first pass lost, and the second one using a gigabyte more than a constant algorithm would: still the best verdict
example : (lostReadings.usedBefore, lostReadings.maxUsed) = (0, 2 ^ 64 - 1) ∧
    analyseSpace (binary64Env (fun x => x) (fun x _ => x) (fun x _ => x) (binary64.round (1 / 10))) .checked ⟨1000, 2000⟩
      ⟨lostReadings, ⟨5, 5, 5 + 2 ^ 30, 5⟩⟩ = .ok .betterThanO1 :=
  ⟨rfl, (C47_first_lost_is_best_shipped _ _ _ _ (Or.inl rfl) .checked ⟨5, 5, 5 + 2 ^ 30, 5⟩ (by norm_num) (by norm_num) ⟨1000, 2000⟩ ⟨1, 1, 1⟩ ⟨1⟩).1⟩

end BigO
