import Verif.Spec.CrudSpec
import Verif.Spec.PassSpec

/-!
# The calls of the user's closures during a CRUD analysis
-/
namespace BigO

/-- what the user's code sees -/
inductive UCall
  /-- the closure of `op` is called with `arg` -/
  | call (ph : Phase) (op : Op) (arg : Nat)
  /-- `reset_fn` is called with `n` -/
  | reset (n : Nat)
  deriving DecidableEq, Repr

/-- `calls` is what the user's code may see of a trace: each run over a range is a pass, with its threads interleaved in some way and
whatever the closure returns -/
def SeenAs (p : Profile) : List Ev → List UCall → Prop
  | [], calls => calls = []
  | .out _ :: tr, calls => SeenAs p tr calls
  | .reset n :: tr, calls => ∃ rest, SeenAs p tr rest ∧ calls = .reset n :: rest
  | .pass ph op start stop threads :: tr, calls => ∃ f s rest, Passed p start stop threads f s ∧ SeenAs p tr rest ∧
      calls = (allCalls s).map (UCall.call ph op) ++ rest

/-- the arguments of the calls of `op` in phase `ph`, in order -/
def argsIn (ph : Phase) (op : Op) : List UCall → List Nat
  | [] => []
  | .call ph' op' e :: l => if ph' = ph ∧ op' = op then e :: argsIn ph op l else argsIn ph op l
  | .reset _ :: l => argsIn ph op l

/-- the arguments of the measured calls of `op`, in order -/
def measuredArgs (op : Op) : List UCall → List Nat
  | [] => []
  | .call ph op' e :: l => if ph ≠ .warmup ∧ op' = op then e :: measuredArgs op l else measuredArgs op l
  | .reset _ :: l => measuredArgs op l

/-- the threads of the operation divide its iterations evenly -/
def Even4 (cfg : CrudCfg) : Prop := ∀ o, 0 < (cfg.op o).iters → (cfg.op o).threads ∣ (cfg.op o).iters

end BigO
