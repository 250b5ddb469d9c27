import Verif.Spec.AsyncSpec
import Verif.Spec.CrudSpec

/-!
# Tests that differ in their closures only
-/
namespace BigO

section
variable {D B : Type} (b b' : Builder D B)

/-- a builder with the same settings, but other closures -/
structure SameSettings : Prop where
  name : b'.name = b.name
  maxReattempts : b'.maxReattempts = b.maxReattempts
  n1 : b'.n1 = b.n1
  n2 : b'.n2 = b.n2
  tmax : b'.tmax = b.tmax
  smax : b'.smax = b.smax
  reset : b'.resetFn.isSome = b.resetFn.isSome
  warmup : b'.warmupFn.isSome = b.warmupFn.isSome
  fn1 : b'.fn1.isSome = b.fn1.isSome
  fn2 : b'.fn2.isSome = b.fn2.isSome
  check1 : b'.check1.isSome = b.check1.isSome
  check2 : b'.check2.isSome = b.check2.isSome

/-- the assertion of a pass -/
def Builder.checkOf (second : Bool) : Option (ACheck D) := if second then b.check2 else b.check1

end

/-- the same environment but for the closures and the clock -/
def CrudEnv.withClosures (env : CrudEnv) (measure' : List Ev → Phase → Op → Nat → Nat → Nat → Rs (PassResult × Nat))
    (warmupTime' : List Ev → Duration) (resetFn' : List Ev → Nat → Rs Unit) : CrudEnv := { env with measure := measure', warmupTime := warmupTime', resetFn := resetFn' }

end BigO
