import Mathlib.Data.Rat.Defs

/-!
# Model of the cargo features

`/repo/src/features.rs` 7-38 and `[features]` of `/repo/Cargo.toml` 14-37.
A compilation has a set of enabled features; an item with a `#[cfg(..)]` is there iff its condition holds of that set.
-/
namespace BigO

/-- the features, Cargo.toml 15-37 -/
inductive Feature
  | reportStdout | reportStderr | noReport | tolerance10 | tolerance25 | noAllocatorMetrics | async
  deriving DecidableEq, Repr

/-- a set of enabled features -/
abbrev FeatureSet := Feature → Bool

/-- the default features, Cargo.toml 15-19 -/
def defaultFeatures : FeatureSet
  | .reportStdout => true
  | .tolerance10 => true
  | .async => true
  | _ => false

/-- what cargo enables: what is asked for, and the default features unless `default-features = false`.
(`async` also enables the dependency `tokio`, Cargo.toml 37, no feature of this crate.) -/
def enabled (useDefault : Bool) (asked : FeatureSet) : FeatureSet := fun f => asked f || (useDefault && defaultFeatures f)

/-- a definition with its `#[cfg]` -/
structure CfgItem (α : Type) where
  cfg : FeatureSet → Bool
  value : α

/-- where reports are sent -/
inductive Sink
  | stdout | stderr | null
  deriving DecidableEq, Repr

/-- the definitions of `PERCENT_TOLERANCE`, features.rs 7-13 (decimal literals as rationals) -/
def toleranceItems : List (CfgItem ℚ) :=
  [⟨fun fs => fs .tolerance10 || !fs .tolerance25, 10 / 100⟩,
   ⟨fun fs => fs .tolerance25, 25 / 100⟩]

/-- the definitions of `OUTPUT`, features.rs 15-25 -/
def outputItems : List (CfgItem Sink) :=
  [⟨fun fs => fs .reportStdout, .stdout⟩,
   ⟨fun fs => fs .reportStderr, .stderr⟩,
   ⟨fun fs => !(fs .reportStdout || fs .reportStderr), .null⟩]

/-- the definitions of `ALLOC`, features.rs 27-38; the value tells whether it is the `#[global_allocator]` -/
def allocItems : List (CfgItem Bool) :=
  [⟨fun fs => !fs .noAllocatorMetrics, true⟩,
   ⟨fun fs => fs .noAllocatorMetrics, false⟩]

/-- the definitions that are compiled -/
def compiled {α : Type} (fs : FeatureSet) (items : List (CfgItem α)) : List α :=
  (items.filter (fun i => i.cfg fs)).map CfgItem.value

end BigO
