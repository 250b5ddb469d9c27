import Verif.Model.Standard
import Verif.Spec.DisplaySpec

/-!
# What is expected of `test_algorithm`
-/
namespace BigO

/-- is it a call of one of the user's closures? -/
def RegEv.isCall : RegEv → Bool
  | .call _ _ => true
  | _ => false

/-- the calls of the user's closures, with what was measured -/
def regCallsOf (t : List RegEv) : List RegEv := t.filter RegEv.isCall

/-- which closure is called -/
def RegEv.kind : RegEv → Option RegCall
  | .call c _ => some c
  | _ => none

/-- a complete attempt: what was measured of the reset and of the passes -/
structure Attempt where
  m0 : PassResult
  m1 : PassResult
  m2 : PassResult

/-- reset, pass 1, pass 2, once each, in this order -/
def Attempt.calls (a : Attempt) : List RegEv :=
  [.call .reset (some a.m0), .call .pass1 (some a.m1), .call .pass2 (some a.m2)]

section
variable (env : RegEnv) (cfg : RegCfg)

/-- the time complexity of the attempt -/
noncomputable def Attempt.time (a : Attempt) : Complexity :=
  analyseTime env.f64 ⟨cfg.n1, cfg.n2⟩ ⟨a.m1.time, a.m2.time⟩

/-- the space complexity of the attempt (computing it may panic) -/
noncomputable def Attempt.space (a : Attempt) : Rs Complexity :=
  analyseSpace env.f64 env.profile ⟨cfg.n1, cfg.n2⟩ ⟨a.m1.space, a.m2.space⟩

/-- within the limit on time -/
def TimeOk (a : Attempt) : Prop := (a.time env cfg).asU32 ≤ cfg.tmax.asU32

/-- within the limit on space -/
def SpaceOk (a : Attempt) : Prop := ∃ c, a.space env cfg = .ok c ∧ c.asU32 ≤ cfg.smax.asU32

/-- beyond the limit on space -/
def SpaceBad (a : Attempt) : Prop := ∃ c, a.space env cfg = .ok c ∧ cfg.smax.asU32 < c.asU32

/-- within both limits -/
def WithinLimits (a : Attempt) : Prop := SpaceOk env cfg a ∧ TimeOk env cfg a

/-- beyond the limit on time, but not on space -/
def TimeOnly (a : Attempt) : Prop := SpaceOk env cfg a ∧ ¬ TimeOk env cfg a

/-- the texts about the attempt can be produced -/
def Presentable (a : Attempt) : Prop :=
  ∃ c, a.space env cfg = .ok c ∧
    ∃ s, reportRegular env.f64 env.text env.profile
      ⟨a.time env cfg, c, ⟨cfg.name, ⟨cfg.n1, cfg.n2⟩, ⟨a.m1.time, a.m2.time⟩, ⟨a.m1.space, a.m2.space⟩⟩⟩ = .ok s

/-- an attempt ended by a panic: of a closure, or of the code that shows what was measured -/
def Broken (calls : List RegEv) : Prop :=
  calls.map RegEv.kind <+: [some .reset, some .pass1, some .pass2] ∧
  ((∃ c, .call c none ∈ calls) ∨
   (∃ c m, .call c (some m) ∈ calls ∧ ¬ ∃ s, displaySpacePass env.text env.profile m.space = .ok s) ∨
   (∃ a : Attempt, calls = a.calls ∧ ¬ Presentable env cfg a))

/-- closures that do not panic, on a heap and a clock that give plausible readings -/
def Benign : Prop :=
  ∀ h c, ∃ m r, env.run h c = .ok (m, r) ∧ PlausibleReading m.space ∧ PlausibleTime m.time

end
end BigO
