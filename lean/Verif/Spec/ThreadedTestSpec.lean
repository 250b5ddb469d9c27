import Verif.Model.MeteredThreads
import Verif.Spec.AllocWeakSpec
import Verif.Spec.TestSpec
import Verif.Spec.DisplaySpec

/-!
# When what threads do with the heap and the clock conforms to the limits of a test

How much memory a pass of several threads needs depends on what is asked: the memory in use goes up and down while calls are under way.
Amounts it could need are those really in use at some time of the pass, and no less than what is in use whenever no call is under way.
-/
namespace BigO

/-- a pass as in the executions of `C116_pass_statistics`, in a process that may have done anything before; a plausible reading of
the clock, and less than 2^62 bytes in use -/
structure OrdinaryTPass (pr : Profile) (N : Nat) (x : TPass) : Prop where
  reach : ∃ pre, (AWeak.init pr N fun _ => 0).sched pre = some x.start ∧ OneAfterAnother anyone (AWeak.init pr N fun _ => 0) (pre ++ x.acts)
  pass : WeakPass x.thread x.start x.acts x.finish x.calls
  fewSaves : x.finish.begun < 2 ^ 32
  clock : PlausibleTime x.time
  fewBytes : ∀ b, UsedBetween x.start.core x.finish.core b → b < 2 ^ 62

/-- `w` is a moment of the pass at which no call is under way -/
def TPass.QuietAt (x : TPass) (w : AWeak) : Prop :=
  ∃ before after, x.acts = before ++ after ∧ x.start.sched before = some w ∧ w.sched after = some x.finish ∧ w.core.Quiescent

/-- an amount of memory really in use at some time of the pass, and no less than what is in use whenever no call is under way -/
def TPass.Peak (x : TPass) (peak : Nat) : Prop :=
  UsedBetween x.start.core x.finish.core peak ∧ ∀ w, x.QuietAt w → w.core.used ≤ peak

/-- the same for the least -/
def TPass.Trough (x : TPass) (least : Nat) : Prop :=
  UsedBetween x.start.core x.finish.core least ∧ ∀ w, x.QuietAt w → least ≤ w.core.used

/-- the pass could need `b` bytes above what was in use when it started -/
def TPass.CouldNeed (x : TPass) (b : Nat) : Prop := ∃ peak, x.Peak peak ∧ b = peak - x.start.core.used

/-- it takes some time and some bytes -/
def TPass.Noticeable (x : TPass) : Prop := 0 < x.time ∧ ∀ b, x.CouldNeed b → 0 < b

/-- two passes on `n1` and `n2` elements conform to the limits (if they are set), if they need `b1` and `b2` bytes: times and bytes grow by
no more than the limits allow; `f` scales those of the second pass -/
structure TConform (tol f : ℝ) (n1 n2 : ℕ) (tmax smax : Option Complexity) (x1 x2 : TPass) (b1 b2 : ℕ) : Prop where
  time : ∀ l, tmax = some l → MeetsLimit tol n1 n2 (seconds x1.time) (seconds x2.time * f) l
  space : ∀ l, smax = some l → MeetsLimit tol n1 n2 b1 (b2 * f) l

/-- the same for passes that add or remove `n` elements each -/
structure TConformResizing (tol f : ℝ) (n : ℕ) (tmax smax : Complexity) (x1 x2 : TPass) (b1 b2 : ℕ) : Prop where
  time : MeetsResizingLimit tol n (seconds x1.time) (seconds x2.time * f) tmax
  space : MeetsResizingLimit tol n b1 (b2 * f) smax

/-- the same for the passes of a CRUD operation -/
def OpTConform (tol f : ℝ) (cfg : CrudCfg) (op : Op) (x1 x2 : TPass) (b1 b2 : ℕ) : Prop :=
  match op with
  | .create | .delete => TConformResizing tol f (cfg.op op).iters (cfg.op op).tmax (cfg.op op).smax x1 x2 b1 b2
  | .read | .update =>
    TConform tol f (cfg.op .create).iters (2 * (cfg.op .create).iters) (some (cfg.op op).tmax) (some (cfg.op op).smax) x1 x2 b1 b2

/-- the operation does `x1` in its first and `x2` in its second pass if they are run when `S` holds of the history, over the documented ranges
and with its threads -/
def CanDoT (S : List Ev → Prop) (doing : List Ev → Phase → Op → Nat → Nat → Nat → Rs (TPass × Nat)) (cfg : CrudCfg) (op : Op) (x1 x2 : TPass) : Prop :=
  (∃ t r, S t ∧ doing t .pass1 op (opRange cfg op 0).1 (opRange cfg op 0).2 (cfg.op op).threads = .ok (x1, r)) ∧
  (∃ t r, S t ∧ doing t .pass2 op (opRange cfg op 1).1 (opRange cfg op 1).2 (cfg.op op).threads = .ok (x2, r))

end BigO
