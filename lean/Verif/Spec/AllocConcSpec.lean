import Verif.Model.AllocConc
import Verif.Spec.Heap

/-!
# What is expected of the statistics when several threads use the allocator
-/
namespace BigO

/-- bytes a call adds to the used memory (negative: gives back) -/
def netBytes : HeapCall → Int
  | .alloc n _ => n
  | .dealloc n => -n
  | .allocZeroed n _ => n
  | .realloc a b _ => (b : Int) - a

/-- the calls of a schedule, of all threads, in the order they are entered -/
def callsIn : List AAct → List HeapCall
  | [] => []
  | .call _ c :: as => c :: callsIn as
  | _ :: as => callsIn as

/-- every thread is outside the allocator -/
def AConc.Quiescent (s : AConc) : Prop := ∀ t, (s.th t).pc = .idle

/-- no save point is taken -/
def NoSave (as : List AAct) : Prop := ∀ t, AAct.save t ∉ as

end BigO
