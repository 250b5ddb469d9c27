import Verif.Proofs.Local
import Verif.Props.WholeTest

/-!
# C109: nothing but what the closures did in a run matters to it
-/
namespace BigO

/-- **C109** (regular algorithms): if the closures of another test, at every call that this one made, do the same, then it has the same
outcome and prints and calls the same. -/
theorem C109_regular (env : RegEnv) (cfg : RegCfg) (t : List RegEv) (run' : List RegEv → RegCall → Rs (PassResult × Nat))
    (h : ∀ pre c r, t <+: pre → pre ++ [.call c r] <+: (testAlgorithm env cfg t).2 → run' pre c = env.run pre c) :
    testAlgorithm { env with run := run' } cfg t = testAlgorithm env cfg t := by
  refine (testAlgorithm_local env run' cfg t).2 fun pre ev hp he c r hc => ?_
  subst hc
  exact h pre c r hp he

/-- **C109** (asynchronous algorithms): the same, for tests with the same settings; the closures and assertions are compared at the calls
that were made, with the data that was given to them. -/
theorem C109_async {D B : Type} (env : AEnv) (b b' : Builder D B) (hb : SameSettings b b') (t : List (AEv D))
    (hcall : ∀ pre s i r f f', t <+: pre → pre ++ [.call s i r] <+: (testAsync env b t).2 → b.fn s = some f → b'.fn s = some f' → f' pre i = f pre i)
    (hcheck : ∀ pre second d r c c', t <+: pre → pre ++ [.check second d r] <+: (testAsync env b t).2 → b.checkOf second = some c →
      b'.checkOf second = some c' → c' pre d = c pre d) :
    testAsync env b' t = testAsync env b t := by
  refine (testAsync_local env hb t).2 fun pre ev hp he => ⟨?_, ?_⟩
  · rintro s i r f f' rfl hf hf'
    exact hcall pre s i r f f' hp he hf hf'
  · rintro second d r c c' rfl hc hc'
    exact hcheck pre second d r c c' hp he hc hc'

section crud
variable (env : CrudEnv) (cfg : CrudCfg) (t : List Ev) (measure' : List Ev → Phase → Op → Nat → Nat → Nat → Rs (PassResult × Nat))
  (warmupTime' : List Ev → Duration) (resetFn' : List Ev → Nat → Rs Unit)

/-- **C109** (tests of CRUD algorithms). The time of the warm-up is only read when its text is printed. -/
theorem C109_crud (max : Nat)
    (hpass : ∀ pre ph op a b th, t <+: pre → pre ++ [.pass ph op a b th] <+: (testCrud env cfg max t).2 →
      measure' pre ph op a b th = env.measure pre ph op a b th)
    (hreset : ∀ pre n, t <+: pre → pre ++ [.reset n] <+: (testCrud env cfg max t).2 → resetFn' pre n = env.resetFn pre n)
    (hclock : ∀ pre s, t <+: pre → pre ++ [.out s] <+: (testCrud env cfg max t).2 → warmupTime' pre = env.warmupTime pre) :
    testCrud (env.withClosures measure' warmupTime' resetFn') cfg max t = testCrud env cfg max t := by
  refine (testLoop_local env measure' warmupTime' resetFn' cfg max max 0 [] t).2 fun pre ev hp he => ?_
  cases ev with
  | out s => exact hclock pre s hp he
  | pass ph op a b th => exact hpass pre ph op a b th hp he
  | reset n => exact hreset pre n hp he

/-- **C109** (one analysis of CRUD algorithms): also what is measured and reported is the same. -/
theorem C109_crud_analysis
    (hpass : ∀ pre ph op a b th, t <+: pre → pre ++ [.pass ph op a b th] <+: (internalAnalyse env cfg t).2 →
      measure' pre ph op a b th = env.measure pre ph op a b th)
    (hreset : ∀ pre n, t <+: pre → pre ++ [.reset n] <+: (internalAnalyse env cfg t).2 → resetFn' pre n = env.resetFn pre n)
    (hclock : ∀ pre s, t <+: pre → pre ++ [.out s] <+: (internalAnalyse env cfg t).2 → warmupTime' pre = env.warmupTime pre) :
    internalAnalyse (env.withClosures measure' warmupTime' resetFn') cfg t = internalAnalyse env cfg t := by
  refine (internalAnalyse_local env measure' warmupTime' resetFn' cfg t).2 fun pre ev hp he => ?_
  cases ev with
  | out s => exact hclock pre s hp he
  | pass ph op a b th => exact hpass pre ph op a b th hp he
  | reset n => exact hreset pre n hp he

end crud

/-! ## a concrete case -/

/-- does what the closures of `quadraticEnv` do, but panics from the fourth call on -/
def tiredRun (h : List RegEv) (c : RegCall) : Rs (PassResult × Nat) :=
  if (regCallsOf h).length < 3 then .ok (quadratic (c = .pass2), 0) else .error (.msg "tired")

-- the test that succeeds after one round does not notice
example (T : TextEnv) (retries : ℕ) :
    (testAlgorithm { quadraticEnv T with run := tiredRun } ⟨"quadratic", retries, 1000, 2000, .oN2, .oN2⟩ []).1 = .ok () := by
  obtain ⟨h1, a, ext, h2, h3⟩ := C85_regular_accepts ideal_library (Or.inl rfl) (quadraticEnv T) rfl ⟨"quadratic", retries, 1000, 2000, .oN2, .oN2⟩
    quadratic_sizes (by rintro c h; cases h; simp [Covered, Complexity.asU32]) (by rintro c h; cases h; simp [Covered, Complexity.asU32]) [] (by
      intro h c
      refine ⟨_, _, rfl, ?_, ?_⟩
      · cases c <;> exact ⟨by decide, by decide, by decide, by decide⟩
      · cases c <;> (unfold PlausibleTime; decide)) (by norm_num) (by
      intro h1 h2 x1 x2 e1 e2
      cases e1; cases e2
      exact ⟨quadratic_comparable, quadratic_conforms⟩)
  rw [C109_regular _ _ _ _ ?_, h1]
  intro pre c r _ hp
  rw [h2, List.nil_append] at hp
  have hl : (regCallsOf (pre ++ [RegEv.call c r])).length ≤ (regCallsOf ext).length := (hp.sublist.filter _).length_le
  rw [h3] at hl
  have : (regCallsOf (pre ++ [RegEv.call c r])).length = (regCallsOf pre).length + 1 := by simp [regCallsOf]; rfl
  rw [this] at hl
  have h3 : (Attempt.calls a).length = 3 := rfl
  unfold tiredRun
  rw [if_pos (by omega)]
  rfl

end BigO
