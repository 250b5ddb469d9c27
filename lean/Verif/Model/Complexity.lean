/-!
# Model of the complexity verdict enum

Models `/repo/src/low_level_analysis/types/types.rs` lines 8-31 and
`/repo/src/low_level_analysis/types/types_impl.rs` lines 9-48.
-/
namespace BigO

/-- `enum BigOAlgorithmComplexity`, types.rs 12-31 (same constructors, same order). -/
inductive Complexity
  | betterThanO1
  | o1
  | betweenO1AndOLogN
  | oLogN
  | betweenOLogNAndON
  | oN
  | betweenONAndONLogN
  | oNLogN
  | betweenONLogNAndON2
  | oN2
  | betweenON2AndON3
  | oN3
  | betweenON3AndON4
  | oN4
  | betweenON4AndOkN
  | okN
  | worseThanExponential
  deriving DecidableEq, Repr, Inhabited

/-- `complexity as u32`: the discriminant cast used by every acceptance check
(crud.rs 363-364 and 376-377, standard.rs 96-97 and 105-106, regular_async_builder.rs 165-184); Rust numbers field-less enums from 0
in declaration order (types.rs 13-31). -/
def Complexity.asU32 : Complexity → Nat
  | .betterThanO1 => 0
  | .o1 => 1
  | .betweenO1AndOLogN => 2
  | .oLogN => 3
  | .betweenOLogNAndON => 4
  | .oN => 5
  | .betweenONAndONLogN => 6
  | .oNLogN => 7
  | .betweenONLogNAndON2 => 8
  | .oN2 => 9
  | .betweenON2AndON3 => 10
  | .oN3 => 11
  | .betweenON3AndON4 => 12
  | .oN4 => 13
  | .betweenON4AndOkN => 14
  | .okN => 15
  | .worseThanExponential => 16

/-- `as_pretty_str`, types_impl.rs 11-31. -/
def Complexity.asPrettyStr : Complexity → String
  | .betterThanO1 => "Better than O(1)"
  | .o1 => "O(1)"
  | .betweenO1AndOLogN => "Worse than O(1), but better than O(log(n))"
  | .oLogN => "O(log(n))"
  | .betweenOLogNAndON => "Worse than O(log(n)), but better than O(n)"
  | .oN => "O(n)"
  | .betweenONAndONLogN => "Worse than O(n), but better than O(n.log(n))"
  | .oNLogN => "O(n.log(n))"
  | .betweenONLogNAndON2 => "Worse than O(n.log(n)), but better than O(n²)"
  | .oN2 => "O(n²)"
  | .betweenON2AndON3 => "Worse than O(n²), but better than O(n³)"
  | .oN3 => "O(n³)"
  | .betweenON3AndON4 => "Worse than O(n³), but better than O(n⁴)"
  | .oN4 => "O(n⁴)"
  | .betweenON4AndOkN => "Worse than O(n⁴), but better than O(kⁿ)"
  | .okN => "O(kⁿ)"
  | .worseThanExponential => "Worse than O(kⁿ)"

/-- `as_time_pretty_str`, types_impl.rs 33-39. -/
def Complexity.asTimePrettyStr : Complexity → String
  | .betterThanO1 => "Better than O(1) -- aren't the machines idle? too many threads? too little RAM?"
  | .worseThanExponential => "Worse than Exponential!! -- worse than O(kⁿ) -- really, really bad algorithm, too short execution times or is there a hidden bug?"
  | c => c.asPrettyStr

/-- `as_space_pretty_str`, types_impl.rs 41-47. -/
def Complexity.asSpacePrettyStr : Complexity → String
  | .betterThanO1 => "Better than O(1) -- are initialization allocations involved? Consider using a warm up pass"
  | .worseThanExponential => "Worse than Exponential!! -- worse than O(kⁿ) -- really, really bad algorithm or is there a hidden bug?"
  | c => c.asPrettyStr

end BigO
