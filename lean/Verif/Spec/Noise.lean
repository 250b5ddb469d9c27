import Verif.Spec.TestSpec

/-!
# Measurements with noise
-/
namespace BigO

/-- the measurement `u` of something that ideally is `x` has a relative error of at most `δ` -/
def WithinError (δ x u : ℝ) : Prop := |u - x| ≤ δ * x

/-- a regular algorithm whose time and bytes are proportional to `f` and `g`, measured with a relative error of at most `δ` -/
structure NoisyAlgorithm (env : RegEnv) (cfg : RegCfg) (δ : ℝ) (f g : ℝ → ℝ) : Prop where
  noise : ∃ a b : ℝ, 0 < a ∧ 0 < b ∧
    (∀ h x, env.run h .pass1 = .ok x → WithinError δ (a * f cfg.n1) (seconds x.1.time) ∧ WithinError δ (b * g cfg.n1) (bytesUsed x.1.space)) ∧
    (∀ h x, env.run h .pass2 = .ok x → WithinError δ (a * f cfg.n2) (seconds x.1.time) ∧ WithinError δ (b * g cfg.n2) (bytesUsed x.1.space))

/-- the passes that satisfy `first` ideally take `t1` seconds and `s1` bytes, those that satisfy `second` `t2` and `s2`; they are measured
with a relative error of at most `δ` -/
structure NoisyPasses (δ t1 t2 s1 s2 : ℝ) (first second : PassResult → Prop) : Prop where
  time1 : 0 < t1
  time2 : 0 < t2
  space1 : 0 < s1
  space2 : 0 < s2
  error1 : ∀ m, first m → WithinError δ t1 (seconds m.time) ∧ WithinError δ s1 (bytesUsed m.space)
  error2 : ∀ m, second m → WithinError δ t2 (seconds m.time) ∧ WithinError δ s2 (bytesUsed m.space)

/-- what the passes of an asynchronous test may measure -/
def AsyncPass {D : Type} (fn : Option (AFn D)) (m : PassResult) : Prop := ∃ f h i d, fn = some f ∧ f h i = .ok (m, d)

/-- what the passes of an operation of a CRUD test may measure -/
def CrudPass (env : CrudEnv) (cfg : CrudCfg) (op : Op) (ph : Phase) (k : ℕ) (m : PassResult) : Prop :=
  ∃ t x, env.measure t ph op (opRange cfg op k).1 (opRange cfg op k).2 (cfg.op op).threads = .ok (m, x)

/-- how much the cost of an operation may grow, ideally, between its two passes under a limit: reads and updates are made on sets of `n` and
`2n` elements; a pass that adds `n` elements to `n` (or removes `n` from `2n`) is measured against `n` and `3n` -/
noncomputable def opGrowth (cfg : CrudCfg) (op : Op) (c : Complexity) : Option ℝ :=
  match op with
  | .read | .update => (growth c).map fun f => grows f (cfg.op .create).iters (2 * (cfg.op .create).iters : ℕ)
  | .create | .delete =>
    match c with
    | .o1 => some 1
    | .oLogN => some (grows (fun n => Real.logb 2 n) (cfg.op op).iters ((cfg.op op).iters * 3))
    | .oN => some 3
    | _ => none

end BigO
