import Verif.Spec.Limits
import Verif.Spec.Accuracy
import Verif.Spec.RegularSpec
import Verif.Spec.AsyncSpec
import Verif.Spec.CrudSpec

/-!
# When the measurements of two passes conform to the limits of a test
-/
namespace BigO

/-- two passes that can be compared: the first one took some time and some bytes, and the readings are plausible -/
structure Comparable (m1 m2 : PassResult) : Prop where
  time1 : 0 < m1.time
  plausible1 : PlausibleTime m1.time
  plausible2 : PlausibleTime m2.time
  space1 : m1.space.usedBefore < m1.space.maxUsed
  space2 : m2.space.usedBefore ≤ m2.space.maxUsed
  fits1 : m1.space.maxUsed ≤ usizeMax
  fits2 : m2.space.maxUsed ≤ usizeMax

/-- seconds -/
noncomputable def seconds (d : Duration) : ℝ := d / 10 ^ 9

/-- the passes, on `n1` and `n2` elements, conform to the limits (if they are set), when the usage of the second one is multiplied by
`f` -/
structure Conforms (tol f : ℝ) (n1 n2 : ℕ) (tmax smax : Option Complexity) (m1 m2 : PassResult) : Prop where
  time : ∀ l, tmax = some l → MeetsLimit tol n1 n2 (seconds m1.time) (seconds m2.time * f) l
  space : ∀ l, smax = some l → MeetsLimit tol n1 n2 (bytesUsed m1.space) (bytesUsed m2.space * f) l

/-- the same for passes that add or remove `n` elements each -/
structure ConformsResizing (tol f : ℝ) (n : ℕ) (tmax smax : Complexity) (m1 m2 : PassResult) : Prop where
  time : MeetsResizingLimit tol n (seconds m1.time) (seconds m2.time * f) tmax
  space : MeetsResizingLimit tol n (bytesUsed m1.space) (bytesUsed m2.space * f) smax

/-- the limit, if it is set, can be decided: any limit up to `O(n⁴)`; exponential ones if `powf` is accurate and the second set at most 32
times larger -/
def LimitCovered (powf : F → F → F) (n1 n2 : ℕ) (l : Option Complexity) : Prop := ∀ c, l = some c → Covered powf n1 n2 c

/-- element counts that make sense: the passes differ by their sizes, at least 3 and at most 2^32 elements -/
def SaneSizes (n1 n2 : ℕ) : Prop := 3 ≤ n1 ∧ n1 ≤ n2 ∧ n2 ≤ 2 ^ 32

/-- one part in 2^40 more -/
noncomputable def abitMore : ℝ := 1 + 1 / 2 ^ 40

/-- one part in 2^40 less -/
noncomputable def abitLess : ℝ := 1 - 1 / 2 ^ 40

/-- the passes of an operation conform to its limits: create and delete resize the set, read and update work on sets of the size
created in one and in two passes -/
def OpConforms (tol f : ℝ) (cfg : CrudCfg) (op : Op) (m1 m2 : PassResult) : Prop :=
  match op with
  | .create | .delete => ConformsResizing tol f (cfg.op op).iters (cfg.op op).tmax (cfg.op op).smax m1 m2
  | .read | .update => Conforms tol f (cfg.op .create).iters (2 * (cfg.op .create).iters) (some (cfg.op op).tmax) (some (cfg.op op).smax) m1 m2

/-- an operation has counts and limits that make sense: at least 2 elements per pass to create or delete; at least 3 elements
created per pass, and limits that can be decided, to read or update -/
def SaneOp (powf : F → F → F) (cfg : CrudCfg) (op : Op) : Prop :=
  match op with
  | .create | .delete => 2 ≤ (cfg.op op).iters
  | .read | .update => 3 ≤ (cfg.op .create).iters ∧ 
      Covered powf (cfg.op .create).iters (2 * (cfg.op .create).iters) (cfg.op op).tmax ∧
      Covered powf (cfg.op .create).iters (2 * (cfg.op .create).iters) (cfg.op op).smax

/-- `cfg'` is what a retry may make of `cfg`: the element counts change, but to no less than a tenth and no more than one and a half
times the requested ones -/
structure RetryOf (cfg cfg' : CrudCfg) : Prop where
  warmup : cfg'.warmup = cfg.warmup
  threads : ∀ o, (cfg'.op o).threads = (cfg.op o).threads
  tmax : ∀ o, (cfg'.op o).tmax = (cfg.op o).tmax
  smax : ∀ o, (cfg'.op o).smax = (cfg.op o).smax
  atLeast : ∀ o, (cfg.op o).iters / 10 ≤ (cfg'.op o).iters
  atMost : ∀ o, 2 * (cfg'.op o).iters ≤ 3 * (cfg.op o).iters

/-- also the `u32` computations of retries do not overflow -/
def RoomForRetries (cfg : CrudCfg) : Prop :=
  ∀ o, 3 * (cfg.op o).iters < 2 ^ 32 ∧ 3 * (cfg.op o).iters * cfg.warmup < 2 ^ 32

/-- the closure of the operation can measure `m1` and `m2` in its two passes, over the documented ranges and with its threads -/
def CanMeasure (env : CrudEnv) (cfg : CrudCfg) (op : Op) (m1 m2 : PassResult) : Prop :=
  (∃ t x, env.measure t .pass1 op (opRange cfg op 0).1 (opRange cfg op 0).2 (cfg.op op).threads = .ok (m1, x)) ∧
  (∃ t x, env.measure t .pass2 op (opRange cfg op 1).1 (opRange cfg op 1).2 (cfg.op op).threads = .ok (m2, x))

end BigO
