import Verif.Spec.TestSpec
import Verif.Spec.LocalSpec

/-!
# Runs in which nothing panicked, and what they decide
-/
namespace BigO

/-- the clock and the allocator gave plausible figures -/
def PlausiblePass (m : PassResult) : Prop := PlausibleReading m.space ∧ PlausibleTime m.time

/-- the pass took some time and some memory -/
def TookSome (m : PassResult) : Prop := 0 < m.time ∧ m.space.usedBefore < m.space.maxUsed

/-- what a regular test recorded: every closure that was called returned, with plausible figures, and every first pass took some time
and some memory -/
structure RegRanWell (ext : List RegEv) : Prop where
  returned : ∀ c r, .call c r ∈ ext → ∃ m, r = some m ∧ PlausiblePass m
  took : ∀ m, .call .pass1 (some m) ∈ ext → TookSome m

/-- the same for an asynchronous test; also, every assertion that was made held -/
structure AsyncRanWell {D : Type} (ext : List (AEv D)) : Prop where
  returned : ∀ s i r, .call s i r ∈ ext → ∃ m d, r = some (m, d) ∧ PlausiblePass m
  held : ∀ second d r, .check second d r ∈ ext → r = true
  took : ∀ i m d, .call .pass1 i (some (m, d)) ∈ ext → TookSome m

/-- the same for what CRUD closures did between `t` and `trace`; also, every reset returned -/
structure CrudRanWell (env : CrudEnv) (t trace : List Ev) : Prop where
  returned : ∀ pre ph op a b th, t <+: pre → pre ++ [.pass ph op a b th] <+: trace →
    ∃ m x, env.measure pre ph op a b th = .ok (m, x) ∧ PlausiblePass m ∧ (ph = .pass1 → TookSome m)
  reset : ∀ pre n, t <+: pre → pre ++ [.reset n] <+: trace → env.resetFn pre n = .ok ()

/-- the passes conform to the limit on time -/
def TimeConforms (tol f : ℝ) (n1 n2 : ℕ) (tmax : Option Complexity) (m1 m2 : PassResult) : Prop :=
  ∀ l, tmax = some l → MeetsLimit tol n1 n2 (seconds m1.time) (seconds m2.time * f) l

/-- the passes conform to the limit on space -/
def SpaceConforms (tol f : ℝ) (n1 n2 : ℕ) (smax : Option Complexity) (m1 m2 : PassResult) : Prop :=
  ∀ l, smax = some l → MeetsLimit tol n1 n2 (bytesUsed m1.space) (bytesUsed m2.space * f) l

/-- the passes conform to the limit on space, up to one part in 2^40, but not, with a margin of that much, to the limit on time -/
def OnlyTimeBad (tol : ℝ) (n1 n2 : ℕ) (tmax smax : Option Complexity) (m1 m2 : PassResult) : Prop :=
  SpaceConforms tol abitLess n1 n2 smax m1 m2 ∧ ¬ TimeConforms tol abitMore n1 n2 tmax m1 m2

/-- the passes of an operation conform to its limit on time -/
def OpTimeConforms (tol f : ℝ) (cfg : CrudCfg) (op : Op) (m1 m2 : PassResult) : Prop :=
  match op with
  | .create | .delete => MeetsResizingLimit tol (cfg.op op).iters (seconds m1.time) (seconds m2.time * f) (cfg.op op).tmax
  | .read | .update =>
    TimeConforms tol f (cfg.op .create).iters (2 * (cfg.op .create).iters) (some (cfg.op op).tmax) m1 m2

/-- the passes of an operation conform to its limit on space -/
def OpSpaceConforms (tol f : ℝ) (cfg : CrudCfg) (op : Op) (m1 m2 : PassResult) : Prop :=
  match op with
  | .create | .delete => MeetsResizingLimit tol (cfg.op op).iters (bytesUsed m1.space) (bytesUsed m2.space * f) (cfg.op op).smax
  | .read | .update =>
    SpaceConforms tol f (cfg.op .create).iters (2 * (cfg.op .create).iters) (some (cfg.op op).smax) m1 m2

/-- element counts, threads and limits of a CRUD test with which every attempt makes sense: there is room for the counts of retries,
requested operations have at least 30 elements (retries may divide by ten) and some threads, and reading and updating need at least 30
elements to be created, and limits that can be decided -/
structure ProperCrud (powf : F → F → F) (cfg : CrudCfg) : Prop where
  room : ∀ o, 3 * (cfg.op o).iters < 2 ^ 31 ∧ 3 * (cfg.op o).iters * cfg.warmup < 2 ^ 32
  requested : ∀ o, 0 < (cfg.op o).iters → 30 ≤ (cfg.op o).iters ∧ 1 ≤ (cfg.op o).threads ∧ (cfg.op o).threads < 2 ^ 31
  constant : ∀ o, o = .read ∨ o = .update → 0 < (cfg.op o).iters → 30 ≤ (cfg.op .create).iters ∧
    ∀ n, Covered powf n (2 * n) (cfg.op o).tmax ∧ Covered powf n (2 * n) (cfg.op o).smax

/-- in attempt `j`, with the counts of `cfg'`, the operation was measured, and its passes satisfy `R` -/
def AttemptHad (env : CrudEnv) (cfg : CrudCfg) (t : List Ev) (j : Nat) (cfg' : CrudCfg) (op : Op) (R : PassResult → PassResult → Prop) : Prop :=
  0 < (cfg.op op).iters ∧ ∃ m1 m2,
    BothMeasured env cfg' (beforeAttempt env cfg t j) (attempt env cfg j (beforeAttempt env cfg t j)).2 op m1 m2 ∧ R m1 m2

end BigO
