import Verif.Model.FloatMDL
/-! Model of `universal_code_for_integer_with_maximum` (`src/subgroups/utils/mdl.py`) on a machine with rounding errors, as `Model/FloatMDL`. -/
namespace Verif

/-- the operations of the machine that `universal_code_for_integer_with_maximum` uses besides -/
structure MDLMaxArith extends MDLArith where
  /-- `1 - x` -/
  oneSub : ℝ → ℝ
  /-- `2 ** (-x)` -/
  powNeg : ℝ → ℝ
  /-- `sum(list)` -/
  sum : List ℝ → ℝ

namespace FloatMDL
variable (A : MDLMaxArith)

/-- `universal_code_for_integer(i)` with at most `fuel` iterations of the loop; `none`: it is still running -/
noncomputable def codeAt (fuel i : Nat) : Option ℝ :=
  match universalCode A.toMDLArith fuel i with
  | .ok r => r
  | .error _ => none

/-- `probability_input_integer_value`, `mdl.py:42-44`, from the code lengths -/
noncomputable def probability (cs : List ℝ) (c : ℝ) (max : Nat) : ℝ :=
  A.add (A.powNeg c) (A.divN (A.oneSub (A.sum (cs.map A.powNeg))) max)

/-- `universal_code_for_integer_with_maximum`, `mdl.py:34-45`; the outer `none`: a loop is still running after `fuel` iterations; the inner one: not a number or infinite -/
noncomputable def codeWithMaximum (fuel n max : Nat) : Except PyErr (Option (Option ℝ)) :=
  if max = 0 then .error .zeroDivisionError
  else
    match (List.range max).mapM (fun i => codeAt A fuel (i + 1)), codeAt A fuel n with
    | some cs, some c =>
      let p := probability A cs c max
      .ok (some (if p > 0 then some (-A.log2 p) else none))
    | _, _ => .ok none

end FloatMDL
end Verif
