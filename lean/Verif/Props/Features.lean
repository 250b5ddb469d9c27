import Verif.Model.Features
import Mathlib.Tactic.Common

/-!
# Properties of the feature selection (C80)
-/
namespace BigO

/-- the module compiles: each name is defined once -/
def FeaturesCompile (fs : FeatureSet) : Prop :=
  (∃ x, compiled fs toleranceItems = [x]) ∧ (∃ x, compiled fs outputItems = [x]) ∧ (∃ x, compiled fs allocItems = [x])

/-- no name is left undefined, for any selection -/
theorem C80_always_defined (fs : FeatureSet) :
    compiled fs toleranceItems ≠ [] ∧ compiled fs outputItems ≠ [] ∧ compiled fs allocItems ≠ [] := by
  unfold compiled toleranceItems outputItems allocItems
  cases h1 : fs .tolerance10 <;> cases h2 : fs .tolerance25 <;> cases h3 : fs .reportStdout <;> cases h4 : fs .reportStderr <;>
    cases h5 : fs .noAllocatorMetrics <;> simp [h1, h2, h3, h4, h5]

/-- **C80** (partial): for every selection of features, each name is defined exactly once iff the selection has not both tolerances and
not both reports (missing: those selections, for which a name is defined twice and nothing compiles). -/
theorem C80_exactly_one_partial (fs : FeatureSet) :
    FeaturesCompile fs ↔ ¬ (fs .tolerance10 ∧ fs .tolerance25) ∧ ¬ (fs .reportStdout ∧ fs .reportStderr) := by
  unfold FeaturesCompile compiled toleranceItems outputItems allocItems
  cases h1 : fs .tolerance10 <;> cases h2 : fs .tolerance25 <;> cases h3 : fs .reportStdout <;> cases h4 : fs .reportStderr <;>
    cases h5 : fs .noAllocatorMetrics <;> simp [h1, h2, h3, h4, h5]

/-- **C80** (values): if it compiles, the tolerance is 25% if that was asked for and 10% otherwise; reports go to stderr or stdout if
asked for and nowhere otherwise; the allocator is replaced unless that was disabled. -/
theorem C80_values (fs : FeatureSet) (h : FeaturesCompile fs) :
    compiled fs toleranceItems = [if fs .tolerance25 then 25 / 100 else 10 / 100] ∧
    compiled fs outputItems = [if fs .reportStderr then .stderr else if fs .reportStdout then .stdout else .null] ∧
    compiled fs allocItems = [!fs .noAllocatorMetrics] := by
  rw [C80_exactly_one_partial] at h
  revert h
  unfold compiled toleranceItems outputItems allocItems
  cases h1 : fs .tolerance10 <;> cases h2 : fs .tolerance25 <;> cases h3 : fs .reportStdout <;> cases h4 : fs .reportStderr <;>
    cases h5 : fs .noAllocatorMetrics <;> simp [h1, h2, h3, h4, h5]

/-- **C80** fails: with the default features left on, asking for the tolerance of 25% or for reports on stderr never compiles, whatever
else is asked for. -/
theorem C80_default_conflict (asked : FeatureSet) (h : asked .tolerance25 ∨ asked .reportStderr) : ¬ FeaturesCompile (enabled true asked) := by
  rw [C80_exactly_one_partial]
  rintro ⟨h1, h2⟩
  rcases h with h | h
  · exact h1 ⟨by simp [enabled, defaultFeatures], by simp [enabled, h]⟩
  · exact h2 ⟨by simp [enabled, defaultFeatures], by simp [enabled, h]⟩

/-- Asking for `no_report` changes nothing, for any selection: with the default features on, reports are still sent to stdout. -/
theorem C80_no_report_ignored (fs : FeatureSet) (v : Bool) :
    compiled (fun f => if f = .noReport then v else fs f) outputItems = compiled fs outputItems ∧
    .stdout ∈ compiled (enabled true fs) outputItems := by
  constructor
  · rfl
  · simp [compiled, outputItems, enabled, defaultFeatures]

-- selections that compile: the default one, none at all, and 25% on stderr without the default ones
example : FeaturesCompile (enabled true fun _ => false) ∧ FeaturesCompile (enabled false fun _ => false) ∧
    FeaturesCompile (enabled false fun f => f = .tolerance25 || f = .reportStderr) := by
  simp [C80_exactly_one_partial, enabled, defaultFeatures]

example : compiled (enabled true fun _ => false) toleranceItems = [10 / 100] ∧ compiled (enabled true fun f => f = .noReport) outputItems = [.stdout] := by
  exact ⟨rfl, rfl⟩

end BigO
