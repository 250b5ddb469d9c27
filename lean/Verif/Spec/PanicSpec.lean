import Verif.Spec.CrudSpec
import Verif.Spec.RegularSpec
import Verif.Spec.AsyncSpec
import Verif.Spec.DryRunSpec

/-!
# Panics of the user's code
-/
namespace BigO

/-- CRUD: the event, recorded after the history `h`, is a run of a closure or a call of `reset_fn` that panicked with `e` -/
def CrudPanics (env : CrudEnv) (h : List Ev) : Ev → Panic → Prop
  | .out _, _ => False
  | .pass ph op a b th, e => env.measure h ph op a b th = .error e
  | .reset n, e => env.resetFn h n = .error e

/-- regular tests: the event is a call of a closure that panicked with `e` -/
def RegPanics (env : RegEnv) (h : List RegEv) : RegEv → Panic → Prop
  | .call c _, e => env.run h c = .error e
  | _, _ => False

section
variable {D B : Type}

/-- asynchronous tests: the event is a call of a closure, or an assertion, of the builder that panicked with `e` -/
def AsyncPanics (b : Builder D B) (h : List (AEv D)) : AEv D → Panic → Prop
  | .call s i _, e => ∃ f, b.fn s = some f ∧ f h i = .error e
  | .check second d _, e => ∃ c, (if second then b.check2 else b.check1) = some c ∧ c h d = .error e
  | _, _ => False

/-- dry runs: the event is a call of a closure, an assertion or a step of a measurer that did not return, but panicked with `e` -/
def DryPanics (b : DryTest D B) (h : List (MEv D B)) : MEv D B → Panic → Prop
  | .before key data none, e => ∃ m ∈ b.measurers, m.key = key ∧ m.beforeFn h data = .error e
  | .after key data v none, e => ∃ m ∈ b.measurers, m.key = key ∧ m.afterFn h data v = .error e
  | .call s i none, e => ∃ f, b.fn s = some f ∧ f h i = .error e
  | .check second d false, e => ∃ c, (if second then b.check2 else b.check1) = some c ∧ c h d = .error e
  | _, _ => False

end

/-- something that ran from the history `t` to the history `t'` and ended with `res`: if user code panicked in between, nothing happened
after that, and it ended with that panic -/
def StopsAtPanic {ε α : Type} (panics : List ε → ε → Panic → Prop) (t : List ε) (res : Rs α) (t' : List ε) : Prop :=
  ∃ ext, t' = t ++ ext ∧ ∀ pre ev post, ext = pre ++ ev :: post → (∃ e, panics (t ++ pre) ev e) →
    post = [] ∧ ∃ e, panics (t ++ pre) ev e ∧ res = .error e

end BigO
