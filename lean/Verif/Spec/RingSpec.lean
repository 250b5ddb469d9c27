import Verif.Model.Ring

/-!
# What a ring buffer user relies on: an append-only log and one cursor per consumer

Nothing here refers to the implementation's counters or slots (from the model only `RingOp`, the list of calls,
and `RingOut`, what a caller sees, are used).
-/
namespace BigO

/-- everything ever enqueued, oldest first, and each consumer's position in it -/
structure LogSys (α : Type) where
  log : List α
  cursors : List Nat

/-- visible results of the specification -/
inductive LogOut (α : Type)
  | done
  | consumer (id : Nat)
  | dequeued (v : Option α)
  /-- the pending elements, oldest first -/
  | peeked (l : List α)
  | overflow
  | invalid

/-- one call on a buffer of `N` slots -/
def LogSys.step {α : Type} (N : Nat) (s : LogSys α) : RingOp α → LogSys α × LogOut α
  | .enqueue e => ({ s with log := s.log ++ [e] }, .done)
  | .consumer => ({ s with cursors := s.cursors ++ [s.log.length] }, .consumer s.cursors.length)
  | .dequeue c =>
    match s.cursors[c]? with
    | none => (s, .invalid)
    | some cur =>
      match s.log.drop cur with
      | [] => (s, .dequeued none)
      | x :: rest =>
        ({ s with cursors := s.cursors.set c (cur + 1) },
          if rest.length + 1 > N then .overflow else .dequeued (some x))
  | .peekAll c =>
    match s.cursors[c]? with
    | none => (s, .invalid)
    | some cur =>
      (s, if (s.log.drop cur).length > N then .overflow else .peeked (s.log.drop cur))

/-- a history -/
def LogSys.run {α : Type} (N : Nat) (s : LogSys α) : List (RingOp α) → LogSys α × List (LogOut α)
  | [] => (s, [])
  | op :: ops =>
    let (s', o) := s.step N op
    let (s'', os) := LogSys.run N s' ops
    (s'', o :: os)

/-- how a caller reads an implementation result; `none` for a panic, a call that never returns, or a
read of uninitialised memory -/
def RingOut.view {α : Type} : RingOut α → Option (LogOut α)
  | .done => some .done
  | .consumer id => some (.consumer id)
  | .dequeued none => some (.dequeued none)
  | .dequeued (some (some v)) => some (.dequeued (some v))
  | .dequeued (some none) => none
  | .peeked s1 s2 => ((s1 ++ s2).mapM id).map .peeked
  | .overflow _ => some .overflow
  | .panic _ => none
  | .diverges => none
  | .invalid => some .invalid

/-- the elements enqueued by a history, oldest first -/
def enqueued {α : Type} : List (RingOp α) → List α
  | [] => []
  | .enqueue e :: ops => e :: enqueued ops
  | _ :: ops => enqueued ops

/-- the values a consumer got from `dequeue`, in order; `outs` are the results of the calls `ops` -/
def received {α : Type} (c : Nat) : List (RingOp α) → List (RingOut α) → List α
  | .dequeue d :: ops, .dequeued (some (some v)) :: outs =>
    if d = c then v :: received c ops outs else received c ops outs
  | _ :: ops, _ :: outs => received c ops outs
  | _, _ => []

/-- how many `dequeue` calls on the consumer did not answer `Ok(None)` -/
def consumedCount {α : Type} (c : Nat) : List (RingOp α) → List (RingOut α) → Nat
  | .dequeue _ :: ops, .dequeued none :: outs => consumedCount c ops outs
  | .dequeue d :: ops, _ :: outs => (if d = c then 1 else 0) + consumedCount c ops outs
  | _ :: ops, _ :: outs => consumedCount c ops outs
  | _, _ => 0

/-- some `dequeue` on the consumer answered with the overflow error -/
def sawOverflow {α : Type} (c : Nat) : List (RingOp α) → List (RingOut α) → Prop
  | .dequeue d :: ops, .overflow _ :: outs => d = c ∨ sawOverflow c ops outs
  | _ :: ops, _ :: outs => sawOverflow c ops outs
  | _, _ => False

/-- the results of the calls made on one consumer -/
def seenBy {α : Type} (c : Nat) : List (RingOp α) → List (RingOut α) → List (RingOut α)
  | .dequeue d :: ops, o :: outs => if d = c then o :: seenBy c ops outs else seenBy c ops outs
  | .peekAll d :: ops, o :: outs => if d = c then o :: seenBy c ops outs else seenBy c ops outs
  | _ :: ops, _ :: outs => seenBy c ops outs
  | _, _ => []

/-- the call is made on a consumer other than `c` -/
def RingOp.byOther {α : Type} (c : Nat) : RingOp α → Bool
  | .dequeue d => d != c
  | .peekAll d => d != c
  | _ => false

/-- the call is `peek_all` -/
def RingOp.isPeek {α : Type} : RingOp α → Bool
  | .peekAll _ => true
  | _ => false

/-- the results of the calls that are not `peek_all` -/
def nonPeekOuts {α : Type} : List (RingOp α) → List (RingOut α) → List (RingOut α)
  | .peekAll _ :: ops, _ :: outs => nonPeekOuts ops outs
  | _ :: ops, o :: outs => o :: nonPeekOuts ops outs
  | _, _ => []

/-- nothing enqueued, no consumers -/
def LogSys.init (α : Type) : LogSys α := { log := [], cursors := [] }

end BigO
