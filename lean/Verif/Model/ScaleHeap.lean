import Verif.Model.Presentable

/-!
# Model of the memory behind measurements of custom units

`custom_unit_measurement` and `custom_unit_per_second_measurement`, `/repo/src/utils/measurements/presentable_measurements.rs` 116-179, with the
memory they use: each has a `static mut` hash map, unit ↦ vector, and gives out a reference to the contents of a vector that is to stay
valid for ever (`&'static`, 13). `Verif.Model.Presentable` has the same functions without the memory.

A hash map is a table of keys and vectors; making room for a new key may move them to a new table and free the old one (the map's
documented behaviour: when is up to it). A vector's contents are in a buffer of their own. Other code allocates and frees in between, and
addresses are reused.

Simplifications: the order of the entries in the table is that of their insertion; the buffer of a vector includes the texts its entries own
(`Cow::Owned`, 164-171); a call is one step, and
reads, or reads and writes, the static and the map behind it as a whole; the rules on two `&mut` at the same time (125 and 158) and running out
of memory are left out.
-/
namespace BigO
open F

/-- which of the two functions -/
inductive ScaleFn
  | custom | perSecond
  deriving DecidableEq, Repr

/-- the table of a unit that it builds, presentable_measurements.rs 129-138 and 162-173 -/
noncomputable def ScaleFn.table (E : FloatEnv) : ScaleFn → String → List ScaleEntry
  | .custom, unit => customTable unit
  | .perSecond, unit => customPerSecondTable E unit

/-- what an allocation holds: the table of a hash map (for each key the address of the buffer of its vector), such a buffer, or something of
other code -/
inductive Cell
  | units (entries : List (String × Nat))
  | scales (l : List ScaleEntry)
  | foreign

/-- the heap (`none`: free), the two statics (118 and 151: `none` before the first call; a new map has no table), and ghosts: the
measurements given out (function, unit, value, address of the buffer), how often each static was written, how often thread `t` read it,
how much of that each thread has seen, and whether there was a data race -/
structure ScaleMem where
  heap : Nat → Option Cell
  map : ScaleFn → Option (Option Nat)
  given : List (ScaleFn × String × F × Nat)
  writes : ScaleFn → Nat
  reads : ScaleFn → Nat → Nat
  seenWrites : Nat → ScaleFn → Nat
  seenReads : Nat → ScaleFn → Nat → Nat
  raced : Prop

/-- when the program starts; other code has allocated already -/
def ScaleMem.initial (h : Nat → Option Cell) : ScaleMem :=
  { heap := h, map := fun _ => none, given := [], writes := fun _ => 0, reads := fun _ _ => 0, seenWrites := fun _ _ => 0,
    seenReads := fun _ _ _ => 0, raced := False }

/-- what the hash map and the allocator decide in a call: whether to move to a new table, and the addresses of the allocations -/
structure ScaleChoice where
  grow : Bool
  tableAt : Nat
  bufferAt : Nat
  deriving DecidableEq, Repr

/-- the outcome of a step: a new state; not possible, as an address is in use; undefined behaviour -/
inductive Touch (α : Type)
  | ok (a : α)
  | cannot
  | undefined

/-- a cell gets a new content -/
def ScaleMem.put (m : ScaleMem) (a : Nat) (x : Option Cell) : ScaleMem := { m with heap := fun b => if b = a then x else m.heap b }

/-- the map has room for a key, or moves to a new table and frees the old one; gives the address of the table and its entries -/
def ScaleMem.makeRoom (m : ScaleMem) (f : ScaleFn) (t : Option Nat) (entries : List (String × Nat)) (c : ScaleChoice) :
    Touch (ScaleMem × Nat) :=
  match t, c.grow with
  | some a, false => .ok (m, a)
  | none, false => .cannot
  | some a, true =>
    if (m.heap c.tableAt).isSome then .cannot
    else .ok ({ (m.put c.tableAt (some (.units entries))).put a none with map := fun g => if g = f then some (some c.tableAt) else m.map g }, c.tableAt)
  | none, true =>
    if (m.heap c.tableAt).isSome then .cannot
    else .ok ({ m.put c.tableAt (some (.units entries)) with map := fun g => if g = f then some (some c.tableAt) else m.map g }, c.tableAt)

/-- the entries of a map: undefined behaviour if its table is not there -/
def ScaleMem.entries (m : ScaleMem) : Option Nat → Touch (List (String × Nat))
  | none => .ok []
  | some a =>
    match m.heap a with
    | some (.units l) => .ok l
    | _ => .undefined

/-- thread `t` reads the static of `f`, and all it leads to: a race if it has not seen the last write -/
def ScaleMem.readMap (m : ScaleMem) (t : Nat) (f : ScaleFn) : ScaleMem :=
  { m with
    raced := m.raced ∨ m.seenWrites t f < m.writes f
    reads := fun g u => if g = f ∧ u = t then m.reads f t + 1 else m.reads g u
    seenReads := fun u g v => if u = t ∧ g = f ∧ v = t then m.reads f t + 1 else m.seenReads u g v }

/-- thread `t` writes it: a race if it has not seen the last write and all reads -/
def ScaleMem.writeMap (m : ScaleMem) (t : Nat) (f : ScaleFn) : ScaleMem :=
  { m with
    raced := m.raced ∨ m.seenWrites t f < m.writes f ∨ ∃ u, m.seenReads t f u < m.reads f u
    writes := fun g => if g = f then m.writes f + 1 else m.writes g
    seenWrites := fun u g => if u = t ∧ g = f then m.writes f + 1 else m.seenWrites u g }

/-- a measurement is given out -/
def ScaleMem.give (m : ScaleMem) (f : ScaleFn) (unit : String) (v : F) (a : Nat) : ScaleMem := { m with given := m.given ++ [(f, unit, v, a)] }

/-- `custom_unit_measurement`, presentable_measurements.rs 116-145, and `custom_unit_per_second_measurement`, 149-179, called by thread `t`: the
map is made if it is not there (127 and 160); the entry of the unit is found (128 and 161), or made with a vector of its own (129-138 and
162-173); the reference is to the buffer of its vector (140-144 and 175-178) -/
noncomputable def ScaleMem.call (E : FloatEnv) (m : ScaleMem) (t : Nat) (f : ScaleFn) (v : F) (unit : String) (c : ScaleChoice) : Touch ScaleMem :=
  let m1 := m.readMap t f
  match m1.entries ((m1.map f).getD none) with
  | .cannot => .cannot
  | .undefined => .undefined
  | .ok l =>
    match l.lookup unit with
    | some a => .ok (m1.give f unit v a)
    | none =>
      match (m1.writeMap t f).makeRoom f ((m1.map f).getD none) l c with
      | .cannot => .cannot
      | .undefined => .undefined
      | .ok (m2, a) =>
        if (m2.heap c.bufferAt).isSome then .cannot
        else .ok (((m2.put c.bufferAt (some (.scales (f.table E unit)))).put a (some (.units (l ++ [(unit, c.bufferAt)])))).give f unit v c.bufferAt)

/-- what happens -/
inductive ScaleAct
  /-- thread `t` calls `f` -/
  | call (t : Nat) (f : ScaleFn) (v : F) (unit : String) (c : ScaleChoice)
  /-- other code allocates -/
  | alloc (a : Nat)
  /-- other code frees something of its own -/
  | free (a : Nat)
  /-- thread `t` starts after, joins or otherwise synchronises with thread `u` -/
  | sync (t u : Nat)

/-- one step -/
noncomputable def ScaleMem.act (E : FloatEnv) (m : ScaleMem) : ScaleAct → Touch ScaleMem
  | .call t f v unit c => m.call E t f v unit c
  | .alloc a => if (m.heap a).isSome then .cannot else .ok (m.put a (some .foreign))
  | .free a =>
    match m.heap a with
    | some .foreign => .ok (m.put a none)
    | _ => .cannot
  | .sync t u => .ok { m with
      seenWrites := fun x f => if x = t then Nat.max (m.seenWrites t f) (m.seenWrites u f) else m.seenWrites x f
      seenReads := fun x f y => if x = t then Nat.max (m.seenReads t f y) (m.seenReads u f y) else m.seenReads x f y }

/-- several steps -/
noncomputable def ScaleMem.run (E : FloatEnv) (m : ScaleMem) : List ScaleAct → Touch ScaleMem
  | [] => .ok m
  | a :: l =>
    match m.act E a with
    | .ok m' => m'.run E l
    | .cannot => .cannot
    | .undefined => .undefined

/-- a measurement given out, as `Display` finds it (24-41): undefined behaviour if the buffer it refers to is not there any more -/
def ScaleMem.find (m : ScaleMem) (v : F) (a : Nat) : Touch Presented :=
  match m.heap a with
  | some (.scales l) => .ok ⟨v, l⟩
  | _ => .undefined

end BigO
