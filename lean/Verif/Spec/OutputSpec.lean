import Verif.Model.Output

/-!
# What is expected of the output of reports
-/
namespace BigO

/-- what can be read on the device -/
def Screen.text (t : Screen) : String := String.join (t.log.map Prod.snd)

/-- what one stream contributed to it -/
def deliveredBy (c : Chan) (log : List (Chan × String)) : String := String.join ((log.filter fun x => decide (x.1 = c)).map Prod.snd)

/-- nothing is waiting to be delivered -/
def Screen.Quiet (t : Screen) : Prop := t.pend .out = "" ∧ t.pend .err = ""

/-- printing and flushing succeed: nothing is lost, added or reordered within a stream, and flushing leaves nothing waiting; how much of
a printed text waits for the next flush is left open -/
structure Device.Works (dev : Device) : Prop where
  write : ∀ t c s, (dev.write t c s).2.2 = true ∧ (dev.write t c s).1 ++ (dev.write t c s).2.1 = t.pend c ++ s
  flush : ∀ t c, (dev.flush t c).2.2 = true ∧ (dev.flush t c).1 = t.pend c ∧ (dev.flush t c).2.1 = ""

/-- the stream of a sink -/
def Sink.chan : Sink → Option Chan
  | .stdout => some .out
  | .stderr => some .err
  | .null => none

/-- the texts that other threads printed to a stream -/
def printedTo (c : Chan) (l : List PrintAct) : String :=
  String.join (l.map fun a => match a with | .print c' s => if c' = c then s else "" | .flush _ => "")

end BigO
