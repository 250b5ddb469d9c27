import Verif.Model.AsyncBuilder
import Verif.Spec.DisplaySpec

/-!
# What is expected of the builder of asynchronous tests
-/
namespace BigO
variable {D B : Type}

/-- a step of an attempt -/
inductive AKind
  | run (s : AStep)
  | assert (second : Bool)
  deriving DecidableEq, Repr

/-- is it a call of one of the user's closures? -/
def AEv.isAct : AEv D → Bool
  | .call .. => true
  | .check .. => true
  | _ => false

/-- the calls of the user's closures -/
def actsOf (t : List (AEv D)) : List (AEv D) := t.filter AEv.isAct

/-- which closure is called -/
def AEv.kind : AEv D → Option AKind
  | .call s _ _ => some (.run s)
  | .check x _ _ => some (.assert x)
  | _ => none

/-- the steps before the passes: reset, warm-up, reset -/
def prelude (b : Builder D B) : List AKind :=
  (if b.resetFn.isSome then [.run .reset] else []) ++
  (if b.warmupFn.isSome then [.run .warmup] else []) ++
  (if b.warmupFn.isSome ∧ b.resetFn.isSome then [.run .reset] else [])

/-- the passes: first pass, its assertion, reset, second pass, its assertion -/
def passesPlan (b : Builder D B) : List AKind :=
  [.run .pass1] ++
  (if b.check1.isSome then [.assert false] else []) ++
  (if b.resetFn.isSome then [.run .reset] else []) ++
  [.run .pass2] ++
  (if b.check2.isSome then [.assert true] else [])

/-- the steps of an attempt: absent ones are skipped -/
def plan (b : Builder D B) : List AKind := prelude b ++ passesPlan b

/-- `Chained d ks es d'`: the successful steps `ks` were made, as recorded in `es`; the first one received `d`, each of the
others received the data that the one before it produced (an assertion passes the data on), and the data in the end is `d'` -/
inductive Chained : Option D → List AKind → List (AEv D) → Option D → Prop
  | nil (d : Option D) : Chained d [] [] d
  | run {d d' : Option D} {s : AStep} {r : PassResult × D} {ks : List AKind} {es : List (AEv D)}
      (rest : Chained (some r.2) ks es d') : Chained d (.run s :: ks) (.call s d (some r) :: es) d'
  | assert {d' : Option D} {x : D} {second : Bool} {ks : List AKind} {es : List (AEv D)}
      (rest : Chained (some x) ks es d') : Chained (some x) (.assert second :: ks) (.check second x true :: es) d'

/-- a complete attempt: what the reset received from the previous attempt, the calls, what was measured of the passes, and the
data that the second pass produced -/
structure ARound (D : Type) where
  prev : Option D
  acts : List (AEv D)
  m1 : PassResult
  m2 : PassResult
  data : D

/-- the measurements and the data are those of the passes -/
structure ARound.Measured (a : ARound D) : Prop where
  pass1 : ∃ i d, .call .pass1 i (some (a.m1, d)) ∈ a.acts
  pass2 : ∃ i, .call .pass2 i (some (a.m2, a.data)) ∈ a.acts

/-- a complete attempt that made the steps of the plan in order, with the data flow as in the code: it starts with the data of
the previous attempt if there is a reset function and with none otherwise, and a reset after the warm-up starts again with
none -/
def ARound.Follows (b : Builder D B) (a : ARound D) : Prop :=
  a.Measured ∧
  if b.resetFn.isSome ∧ b.warmupFn.isSome then
    ∃ es1 es2 d, a.acts = es1 ++ es2 ∧ Chained a.prev [.run .reset, .run .warmup] es1 d ∧
      Chained none (.run .reset :: passesPlan b) es2 (some a.data)
  else Chained (if b.resetFn.isSome then a.prev else none) (plan b) a.acts (some a.data)

/-- `Linked p as q`: the first attempt is given `p`, every other one the data of the one before it, and the data in the end is `q` -/
inductive Linked : Option D → List (ARound D) → Option D → Prop
  | nil (p : Option D) : Linked p [] p
  | cons {a : ARound D} {as : List (ARound D)} {q : Option D} (rest : Linked (some a.data) as q) : Linked a.prev (a :: as) q

section
variable (env : AEnv) (b : Builder D B)

/-- the time complexity of the attempt -/
noncomputable def ARound.time (a : ARound D) : Complexity :=
  analyseTime env.f64 ⟨b.n1, b.n2⟩ ⟨a.m1.time, a.m2.time⟩

/-- the space complexity of the attempt (computing it may panic) -/
noncomputable def ARound.space (a : ARound D) : Rs Complexity :=
  analyseSpace env.f64 env.profile ⟨b.n1, b.n2⟩ ⟨a.m1.space, a.m2.space⟩

/-- within the limit on time, if there is one -/
def ATimeOk (a : ARound D) : Prop := ∀ l, b.tmax = some l → (a.time env b).asU32 ≤ l.asU32

/-- within the limit on space, if there is one -/
def ASpaceOk (a : ARound D) : Prop := ∃ c, a.space env b = .ok c ∧ ∀ l, b.smax = some l → c.asU32 ≤ l.asU32

/-- beyond the limit on space -/
def ASpaceBad (a : ARound D) : Prop := ∃ c l, a.space env b = .ok c ∧ b.smax = some l ∧ l.asU32 < c.asU32

/-- within the limits -/
def AWithin (a : ARound D) : Prop := ASpaceOk env b a ∧ ATimeOk env b a

/-- beyond the limit on time only -/
def ATimeOnly (a : ARound D) : Prop := ASpaceOk env b a ∧ ¬ ATimeOk env b a

end

/-- closures that do not panic, assertions that hold, plausible readings, and both passes are set -/
structure ABenign (b : Builder D B) : Prop where
  fns : ∀ f, (b.resetFn = some f ∨ b.warmupFn = some f ∨ b.fn1 = some f ∨ b.fn2 = some f) →
    ∀ h i, ∃ m d, f h i = .ok (m, d) ∧ PlausibleReading m.space ∧ PlausibleTime m.time
  checks : ∀ c, (b.check1 = some c ∨ b.check2 = some c) → ∀ h d, c h d = .ok ()
  fn1 : b.fn1.isSome
  fn2 : b.fn2.isSome
  n1 : 0 < b.n1 ∧ b.n1 < 2 ^ 32
  n2 : 0 < b.n2 ∧ b.n2 < 2 ^ 32

/-- the closure of a step -/
def Builder.fn (b : Builder D B) : AStep → Option (AFn D)
  | .reset => b.resetFn
  | .warmup => b.warmupFn
  | .pass1 => b.fn1
  | .pass2 => b.fn2

/-- the event, recorded after the history `h`, is what the closure that was given to the builder did -/
def Genuine (b : Builder D B) (h : List (AEv D)) : AEv D → Prop
  | .call s i (some x) => ∃ f, b.fn s = some f ∧ f h i = .ok x
  | .call s i none => ∃ f e, b.fn s = some f ∧ f h i = .error e
  | .check second d true => ∃ c, (if second then b.check2 else b.check1) = some c ∧ c h d = .ok ()
  | .check second d false => ∃ c e, (if second then b.check2 else b.check1) = some c ∧ c h d = .error e
  | _ => True

/-! ## builder methods -/

/-- which option a method sets -/
inductive SKind
  | maxReattempts | resetFn | warmup | firstPass | firstCheck | secondPass | secondCheck | time | space | auxSpace | measurement
  deriving DecidableEq, Repr

/-- which option a method sets -/
def Setter.kind : Setter D B → SKind
  | .maxReattempts _ => .maxReattempts
  | .resetFn _ => .resetFn
  | .warmup _ => .warmup
  | .firstPass _ _ => .firstPass
  | .firstCheck _ => .firstCheck
  | .secondPass _ _ => .secondPass
  | .secondCheck _ => .secondCheck
  | .time _ => .time
  | .space _ => .space
  | .auxSpace _ => .auxSpace
  | .measurement _ => .measurement

/-- the calls that set an option -/
def settings (k : SKind) (l : List (Setter D B)) : List (Setter D B) := l.filter (fun s => decide (s.kind = k))

/-! what a call sets, per option -/

def Setter.maxReattempts? : Setter D B → Option Nat
  | .maxReattempts n => some n
  | _ => none
def Setter.resetFn? : Setter D B → Option (AFn D)
  | .resetFn f => some f
  | _ => none
def Setter.warmup? : Setter D B → Option (AFn D)
  | .warmup f => some f
  | _ => none
def Setter.firstPass? : Setter D B → Option (Nat × AFn D)
  | .firstPass n f => some (n, f)
  | _ => none
def Setter.firstCheck? : Setter D B → Option (ACheck D)
  | .firstCheck c => some c
  | _ => none
def Setter.secondPass? : Setter D B → Option (Nat × AFn D)
  | .secondPass n f => some (n, f)
  | _ => none
def Setter.secondCheck? : Setter D B → Option (ACheck D)
  | .secondCheck c => some c
  | _ => none
def Setter.time? : Setter D B → Option Complexity
  | .time c => some c
  | _ => none
def Setter.space? : Setter D B → Option Complexity
  | .space c => some c
  | _ => none
def Setter.auxSpace? : Setter D B → Option Complexity
  | .auxSpace c => some c
  | _ => none
def Setter.measurement? : Setter D B → Option (Measurer D B)
  | .measurement m => some m
  | _ => none

end BigO
