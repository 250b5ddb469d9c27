import Verif.Spec.RegularSpec
import Verif.Spec.AsyncSpec
import Verif.Spec.CrudSpec
import Verif.Spec.Heap

/-!
# Tests of algorithms of which no memory use is seen

Either the metrics allocator is not installed (feature `no_allocator_metrics`), or the algorithm never calls the heap.
-/
namespace BigO

/-- the pass is not seen to use any memory -/
def Unseen (m : PassResult) : Prop := m.space.maxUsed = m.space.usedBefore

/-- the IEEE rule `0^y = 0`, for the quotient of two element counts -/
def ZeroPower (E : FloatEnv) (n1 n2 : ℕ) : Prop := E.powf (.fin 0) (E.div (E.ofNat n2) (E.ofNat n1)) = .fin 0

/-- the limit on space accepts anything -/
def AnySpace (l : Complexity) : Prop := ∀ c : Complexity, c.asU32 ≤ l.asU32

/-- the limit on space of a CRUD operation accepts whatever is reported of passes without memory use: creating and deleting are then
reported as between `O(log n)` and `O(n)`, reading and updating as worse than exponential -/
def LooseSpace (op : Op) (l : Complexity) : Prop :=
  match op with
  | .create | .delete => Complexity.asU32 .betweenOLogNAndON ≤ l.asU32
  | .read | .update => AnySpace l

end BigO
