import Verif.Model.Metered
import Verif.Spec.TestSpec
import Verif.Spec.Heap

/-!
# When what the closures do with the heap and the clock conforms to the limits of a test

Nothing is measured here: bytes are those of live blocks.
-/
namespace BigO

/-- the bytes a piece of code needs: by how much the live bytes ever exceed, while it runs, those that were live when it started -/
def heapNeed (before body : List AllocEv) : ℕ :=
  (liveTrace (liveBlocks [] before) body).foldr max 0 - (liveBlocks [] before).sum

/-- what a pass does, after `before` -/
structure Doing where
  before : List AllocEv
  deed : Deed

/-- an ordinary use of the heap, and a plausible reading of the clock -/
structure OrdinaryDoing (p : Profile) (N : Nat) (x : Doing) : Prop where
  heap : OrdinaryPass p N x.before x.deed.heap
  clock : PlausibleTime x.deed.time
  fewBytes : ∀ b ∈ liveTrace (liveBlocks [] x.before) x.deed.heap, b < 2 ^ 62

/-- it takes some time and some bytes -/
def Doing.Noticeable (x : Doing) : Prop := 0 < x.deed.time ∧ 0 < heapNeed x.before x.deed.heap

/-- two passes on `n1` and `n2` elements conform to the limits (if they are set): the times taken and the bytes needed grow by no more than
the limits allow; `f` scales those of the second pass -/
structure DoConform (tol f : ℝ) (n1 n2 : ℕ) (tmax smax : Option Complexity) (x1 x2 : Doing) : Prop where
  time : ∀ l, tmax = some l → MeetsLimit tol n1 n2 (seconds x1.deed.time) (seconds x2.deed.time * f) l
  space : ∀ l, smax = some l → MeetsLimit tol n1 n2 (heapNeed x1.before x1.deed.heap) (heapNeed x2.before x2.deed.heap * f) l

/-- the same for passes that add or remove `n` elements each -/
structure DoConformResizing (tol f : ℝ) (n : ℕ) (tmax smax : Complexity) (x1 x2 : Doing) : Prop where
  time : MeetsResizingLimit tol n (seconds x1.deed.time) (seconds x2.deed.time * f) tmax
  space : MeetsResizingLimit tol n (heapNeed x1.before x1.deed.heap) (heapNeed x2.before x2.deed.heap * f) smax

/-- the same for the passes of a CRUD operation -/
def OpDoConform (tol f : ℝ) (cfg : CrudCfg) (op : Op) (x1 x2 : Doing) : Prop :=
  match op with
  | .create | .delete => DoConformResizing tol f (cfg.op op).iters (cfg.op op).tmax (cfg.op op).smax x1 x2
  | .read | .update =>
    DoConform tol f (cfg.op .create).iters (2 * (cfg.op .create).iters) (some (cfg.op op).tmax) (some (cfg.op op).smax) x1 x2

/-- the operation does `x1` in its first and `x2` in its second pass if they are run when `S` holds of the history, over the documented ranges
and with its threads -/
def CanDo (S : List Ev → Prop) (before : List Ev → List AllocEv) (doing : List Ev → Phase → Op → Nat → Nat → Nat → Rs (Deed × Nat)) (cfg : CrudCfg)
    (op : Op) (x1 x2 : Doing) : Prop :=
  (∃ t r, S t ∧ x1.before = before t ∧
    doing t .pass1 op (opRange cfg op 0).1 (opRange cfg op 0).2 (cfg.op op).threads = .ok (x1.deed, r)) ∧
  (∃ t r, S t ∧ x2.before = before t ∧
    doing t .pass2 op (opRange cfg op 1).1 (opRange cfg op 1).2 (cfg.op op).threads = .ok (x2.deed, r))

end BigO
