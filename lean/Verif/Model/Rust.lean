/-!
# Rust arithmetic, panics and build profiles

Shared by all the modelled files.  Semantics of the Rust integer operators on a 64-bit target: with
overflow checks (debug/test profile) an overflow panics, without them it wraps around.
-/
namespace BigO

/-- build profile: with overflow checks (debug) or without (release) -/
inductive Profile
  | checked
  | wrapping
  deriving DecidableEq, Repr

/-- reasons for a Rust panic in the modelled code -/
inductive Panic
  | subtractOverflow
  | addOverflow
  | mulOverflow
  | divideByZero
  | divideOverflow
  | remByZero
  | msg (s : String)
  deriving DecidableEq, Repr

/-- a Rust computation that may panic -/
abbrev Rs (α : Type) := Except Panic α

/-- `usize::MAX + 1` (64-bit target) -/
def usizeMod : Nat := 2 ^ 64
/-- `usize::MAX` -/
def usizeMax : Nat := 2 ^ 64 - 1

/-- Rust `a - b` on `usize` -/
def usizeSub (p : Profile) (a b : Nat) : Rs Nat :=
  if b ≤ a then .ok (a - b)
  else match p with
    | .checked => .error .subtractOverflow
    | .wrapping => .ok ((a + usizeMod - b) % usizeMod)

/-- Rust `a + b` on `usize` -/
def usizeAdd (p : Profile) (a b : Nat) : Rs Nat :=
  if a + b < usizeMod then .ok (a + b)
  else match p with
    | .checked => .error .addOverflow
    | .wrapping => .ok ((a + b) % usizeMod)

/-- Rust `a * b` on `u32` -/
def u32Mul (p : Profile) (a b : Nat) : Rs Nat :=
  if a * b < 2 ^ 32 then .ok (a * b)
  else match p with
    | .checked => .error .mulOverflow
    | .wrapping => .ok ((a * b) % 2 ^ 32)

/-- Rust `a + b` on `u32` -/
def u32Add (p : Profile) (a b : Nat) : Rs Nat :=
  if a + b < 2 ^ 32 then .ok (a + b)
  else match p with
    | .checked => .error .addOverflow
    | .wrapping => .ok ((a + b) % 2 ^ 32)

/-- Rust `a - b` on `u32` -/
def u32Sub (p : Profile) (a b : Nat) : Rs Nat :=
  if b ≤ a then .ok (a - b)
  else match p with
    | .checked => .error .subtractOverflow
    | .wrapping => .ok ((a + 2 ^ 32 - b) % 2 ^ 32)

/-- Rust `n as i32` of a `u32` -/
def i32OfU32 (n : Nat) : Int := if n < 2 ^ 31 then n else n - 2 ^ 32

/-- Rust `z as u32` of an `i32` -/
def u32OfI32 (z : Int) : Nat := (z % 2 ^ 32).toNat

/-- the result of an `i32` operation whose exact value is `z` -/
def i32Res (p : Profile) (e : Panic) (z : Int) : Rs Int :=
  if -2 ^ 31 ≤ z ∧ z < 2 ^ 31 then .ok z
  else match p with
    | .checked => .error e
    | .wrapping => .ok ((z + 2 ^ 31) % 2 ^ 32 - 2 ^ 31)

/-- Rust `a - b` on `i32` -/
def i32Sub (p : Profile) (a b : Int) : Rs Int := i32Res p .subtractOverflow (a - b)
/-- Rust `a + b` on `i32` -/
def i32Add (p : Profile) (a b : Int) : Rs Int := i32Res p .addOverflow (a + b)
/-- Rust `a * b` on `i32` -/
def i32Mul (p : Profile) (a b : Int) : Rs Int := i32Res p .mulOverflow (a * b)
/-- Rust `a / b` on `i32`: truncates; division by zero and `MIN / -1` panic in every profile -/
def i32Div (a b : Int) : Rs Int :=
  if b = 0 then .error .divideByZero
  else if a = -2 ^ 31 ∧ b = -1 then .error .divideOverflow
  else .ok (a.tdiv b)

end BigO
