import Verif.Model.Py
import Mathlib.Analysis.SpecialFunctions.Log.Base
import Mathlib.Analysis.SpecialFunctions.Sqrt
/-! Model of `src/subgroups/utils/mdl.py`. Simplification: floats are real numbers; `lru_cache` is the identity (the
functions are pure); the `TypeError`s on non-integers are outside the model (the arguments are integers). -/
namespace Verif.MDL

/-- `threshold`, `mdl.py:26` -/
noncomputable def threshold : ℝ := 1 / 1000000

/-- `log2(2.865064)`, `mdl.py:27` -/
noncomputable def logK0 : ℝ := Real.logb 2 2.865064

/-- the while loop of `universal_code_for_integer`, `mdl.py:29-31`, with `fuel` iterations at most: `none` means that
the loop is still running after them -/
noncomputable def codeLoop : Nat → ℝ → ℝ → Option ℝ
  | 0, _, _ => none
  | fuel + 1, current, result =>
    if current > threshold then codeLoop fuel (Real.logb 2 current) (result + current) else some result

/-- `universal_code_for_integer`, `mdl.py:12-32`, with a bound on the iterations of its loop -/
noncomputable def universalCodeFuel (fuel : Nat) (n : Int) : Except PyErr (Option ℝ) :=
  if n < 0 then .error .valueError
  else if n = 0 then .ok (some 0)
  else .ok (codeLoop fuel (Real.logb 2 (n : ℝ)) logK0)

/-- `universal_code_for_integer(n)` for `n ≥ 0` as a number (used by the other functions of the model; the fuel is
shown to be enough in `Props/MDL.lean`) -/
noncomputable def code (n : Nat) : ℝ :=
  match universalCodeFuel (2 * n + 2) n with
  | .ok (some r) => r
  | _ => 0

/-- `probability_left`, `mdl.py:42-43` -/
noncomputable def probabilityLeft (max : Nat) : ℝ :=
  1 - (((List.range max).map fun i => (2 : ℝ) ^ (-code (i + 1)))).sum

/-- `probability_input_integer_value`, `mdl.py:44` -/
noncomputable def probability (n max : Nat) : ℝ := (2 : ℝ) ^ (-code n) + probabilityLeft max / max

/-- `universal_code_for_integer_with_maximum`, `mdl.py:34-45`; dividing by a zero maximum raises; the logarithm of a
number that is not positive is not a number (`none`) -/
noncomputable def codeWithMaximum (n max : Nat) : Except PyErr (Option ℝ) :=
  if max = 0 then .error .zeroDivisionError
  else if probability n max > 0 then .ok (some (-Real.logb 2 (probability n max))) else .ok none

/-- `bound`, `mdl.py:71` -/
noncomputable def bound (n : Nat) : Nat := ⌈(2 + Real.sqrt (2 * n * 10 * Real.log 10) : ℝ)⌉₊

/-- the loop `for k in range(1, bound+1)`, `mdl.py:72-74`: the state is (b, sum) -/
noncomputable def sumLoop (n : Nat) : List Nat → ℝ × ℝ → ℝ × ℝ
  | [], st => st
  | k :: ks, (b, sum) =>
    let b' := ((n : ℝ) - k + 1) / n * b
    sumLoop n ks (b', sum + b')

/-- the loop `for j in range(3, number_of_categories+1)`, `mdl.py:76-79`: the state is (old_sum, sum) -/
noncomputable def recLoop (n : Nat) : List Nat → ℝ × ℝ → ℝ × ℝ
  | [], st => st
  | j :: js, (old, sum) => recLoop n js (sum, sum + (n * old) / ((j : ℝ) - 2))

/-- `multinomial_with_recurrence`, `mdl.py:50-80` -/
noncomputable def multinomial (categories samples : Int) : Except PyErr ℝ :=
  if categories ≤ 0 then .error .valueError
  else if samples < 0 then .error .valueError
  else if categories = 1 then .ok 1
  else if samples = 0 then .ok 0
  else
    let n := samples.toNat
    let st := sumLoop n (List.range' 1 (bound n)) (1, 1)
    .ok (recLoop n (List.range' 3 (categories.toNat - 2)) (1, st.2)).2

/-- `log2_multinomial_with_recurrence`, `mdl.py:82-96` -/
noncomputable def log2Multinomial (categories samples : Int) : Except PyErr ℝ :=
  match multinomial categories samples with
  | .error e => .error e
  | .ok mdc => if mdc > 0 then .ok (Real.logb 2 mdc) else .ok 0

end Verif.MDL
