import Verif.Spec.Accuracy

/-!
# Powers computed by multiplication

Rust does not say how `f64::powi` is computed, only that it may be imprecise. Its compiler either writes out multiplications or calls
`__powidf2` of compiler-rt; both only multiply. These are the trusted sources of the two definitions below (neither is in /repo; used by
low_level_analysis.rs 28-40 through `powi`).
-/
namespace BigO
open F

/-- an expression for a power: `1`, the number, products -/
inductive Mults
  | one
  | base
  | mul (a b : Mults)

/-- of which power -/
def Mults.degree : Mults → ℕ
  | one => 0
  | base => 1
  | mul a b => a.degree + b.degree

/-- how many multiplications -/
def Mults.count : Mults → ℕ
  | one => 0
  | base => 0
  | mul a b => a.count + b.count + 1

/-- its value, each multiplication being rounded -/
noncomputable def Mults.eval (E : FloatEnv) (x : F) : Mults → F
  | one => fin 1
  | base => x
  | mul a b => E.mul (a.eval E x) (b.eval E x)

/-- the loop of `__powidf2` (compiler-rt/lib/builtins/powidf2.c): `while (1) { if (b & 1) r *= a; b /= 2; if (b == 0) break; a *= a; }` -/
noncomputable def powidf2Loop (E : FloatEnv) (r a : F) (b : ℕ) : F :=
  if b / 2 = 0 then (if b % 2 = 1 then E.mul r a else r)
  else powidf2Loop E (if b % 2 = 1 then E.mul r a else r) (E.mul a a) (b / 2)
termination_by b
decreasing_by omega

/-- `__powidf2` for an exponent that is not negative -/
noncomputable def powidf2 (E : FloatEnv) (x : F) (k : ℕ) : F := powidf2Loop E (fin 1) x k

end BigO
