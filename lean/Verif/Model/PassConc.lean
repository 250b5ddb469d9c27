import Verif.Model.AllocConc
import Verif.Model.PassResult

/-! # Model of the space measurements of a pass, with several threads: `/repo/src/runners/common.rs` 149-166 -/
namespace BigO

/-- `BigOSpacePassMeasurements` from the metrics of the save point and the end of `delta_statistics` (both in declaration order: the used
memory is number 9, then come the minimum and the maximum); no measurements if the request panicked -/
def spaceOfLists (got : List Nat) : DRes → Option SpacePass
  | .overflow => some { usedBefore := 0, usedAfter := usizeMax, minUsed := 0, maxUsed := usizeMax }
  | .panicked => none
  | .stats l => some { usedBefore := got.getD 9 0, usedAfter := l.getD 9 0, minUsed := l.getD 10 0, maxUsed := l.getD 11 0 }

/-- the measurements reported by the last request made of save point `k`, common.rs 149-166 -/
def AConc.passSpace (s : AConc) (k : Nat) : Option SpacePass :=
  match s.results.getLast?, s.saved[k]? with
  | some (_, r), some sp => spaceOfLists sp.got r
  | _, _ => none

end BigO
