import Verif.Model.Rust
import Verif.Model.Features

/-!
# Model of the output of reports

`/repo/src/features.rs` 46-67. Standard output and standard error are buffered streams; both deliver to one device (a terminal, a file both
are redirected to). How much of a text is delivered when it is printed, and whether printing and flushing succeed, is up to the operating
system and the standard library: a `Device`, arbitrary. Other threads may print and flush between any two steps.

Simplifications: `print!` of one text is one step (it holds the lock of the stream); the capture of output by the test harness is left out.
-/
namespace BigO

/-- the two streams -/
inductive Chan
  | out | err
  deriving DecidableEq, Repr

/-- the streams and what they delivered -/
structure Screen where
  /-- what was delivered, in order, with the stream that delivered it -/
  log : List (Chan × String)
  /-- what was printed and not delivered yet -/
  pend : Chan → String

/-- the operating system and the buffering of the standard library -/
structure Device where
  /-- printing a text: what is delivered, what is kept, and whether it succeeds -/
  write : Screen → Chan → String → String × String × Bool
  /-- flushing: what is delivered, what is kept, and whether it succeeds -/
  flush : Screen → Chan → String × String × Bool

section
variable (dev : Device)

/-- delivers a text and keeps another one -/
def Screen.deliver (t : Screen) (c : Chan) (a b : String) : Screen :=
  ⟨t.log ++ [(c, a)], fun c' => if c' = c then b else t.pend c'⟩

/-- `print!("{}", s)` and `eprint!("{}", s)`: panic if the text cannot be written -/
def Screen.print (c : Chan) (s : String) (t : Screen) : Rs Unit × Screen :=
  let x := dev.write t c s
  (if x.2.2 then .ok () else .error (.msg "failed printing"), t.deliver c x.1 x.2.1)

/-- `stdout().flush()` and `stderr().flush()`; the result is dropped by the caller (features.rs 60-61) -/
def Screen.flush (c : Chan) (t : Screen) : Screen :=
  let x := dev.flush t c
  t.deliver c x.1 x.2.1

/-- what another thread does to the streams -/
inductive PrintAct
  | print (c : Chan) (s : String)
  | flush (c : Chan)
  deriving DecidableEq, Repr

/-- another thread's step (if its printing fails, it panics, not this one) -/
def PrintAct.run : PrintAct → Screen → Screen
  | .print c s, t => (t.print dev c s).2
  | .flush c, t => t.flush dev c

/-- the steps of other threads -/
def otherThreads (l : List PrintAct) (t : Screen) : Screen := l.foldl (fun t a => a.run dev t) t

/-- `sync_outputs`, features.rs 58-62; `b` is what other threads do between its two steps -/
def syncOutputs (b : List PrintAct) (t : Screen) : Screen := (otherThreads dev b (t.flush dev .out)).flush dev .err

/-- what other threads do during a call of `OUTPUT`, between its steps -/
structure Meanwhile where
  sync1 : List PrintAct := []
  beforePrint : List PrintAct := []
  afterPrint : List PrintAct := []
  sync2 : List PrintAct := []

/-- `stdout_write` and `stderr_write`, features.rs 46-50 and 52-56 -/
def chanWrite (c : Chan) (w : Meanwhile) (s : String) (t : Screen) : Rs Unit × Screen :=
  let t1 := otherThreads dev w.beforePrint (syncOutputs dev w.sync1 t)
  match t1.print dev c s with
  | (.error e, t2) => (.error e, t2)
  | (.ok _, t2) => (.ok (), syncOutputs dev w.sync2 (otherThreads dev w.afterPrint t2))

/-- `OUTPUT`, features.rs 15-25: `stdout_write`, `stderr_write` or `null_write` (65-67) -/
def outputTo (k : Sink) (w : Meanwhile) (s : String) (t : Screen) : Rs Unit × Screen :=
  match k with
  | .stdout => chanWrite dev .out w s t
  | .stderr => chanWrite dev .err w s t
  | .null => (.ok (), t)

/-- several calls of `OUTPUT`, one after the other, while no other thread prints -/
def outputAll (k : Sink) : List String → Screen → Rs Unit × Screen
  | [], t => (.ok (), t)
  | s :: l, t =>
    match outputTo dev k {} s t with
    | (.error e, t') => (.error e, t')
    | (.ok _, t') => outputAll k l t'

end
end BigO
