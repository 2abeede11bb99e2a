import Verif.Model.MDL
/-! Model of `src/subgroups/utils/mdl.py` on a machine with rounding errors. `MDLArith` are the operations and literals that the
functions use, about which nothing is assumed here; they are applied in the order of the source. Simplifications: the numbers of the
machine are real numbers (no infinities and no not-a-number appear as long as nothing overflows); `lru_cache` is the identity (the
functions are pure); the arguments are integers; `log2` of a Python integer is `log2N` (numpy refuses integers from `2^64` on). -/
namespace Verif

/-- the operations of the machine that `mdl.py` uses -/
structure MDLArith where
  /-- the literal `0.000001` -/
  theta : ℝ
  /-- the literal `2.865064` -/
  k0 : ℝ
  /-- `log(10)` -/
  ln10 : ℝ
  /-- `x + y` -/
  add : ℝ → ℝ → ℝ
  /-- `x * y` -/
  mul : ℝ → ℝ → ℝ
  /-- `m / n` of two integers -/
  quot : Int → Nat → ℝ
  /-- `n * x` of an integer and a float -/
  scale : Nat → ℝ → ℝ
  /-- `x / n` of a float and an integer -/
  divN : ℝ → Nat → ℝ
  /-- `log2(x)` of a float -/
  log2 : ℝ → ℝ
  /-- `log2(n)` of an integer -/
  log2N : Nat → ℝ
  /-- `sqrt(x)` -/
  sqrt : ℝ → ℝ

namespace FloatMDL
variable (A : MDLArith)

/-- the while loop of `universal_code_for_integer`, `mdl.py:29-31`, with `fuel` iterations at most: `none` means that
the loop is still running after them -/
noncomputable def codeLoop : Nat → ℝ → ℝ → Option ℝ
  | 0, _, _ => none
  | fuel + 1, current, result =>
    if current > A.theta then codeLoop fuel (A.log2 current) (A.add result current) else some result

/-- `universal_code_for_integer`, `mdl.py:12-32`, with a bound on the iterations of its loop -/
noncomputable def universalCode (fuel : Nat) (n : Int) : Except PyErr (Option ℝ) :=
  if n < 0 then .error .valueError
  else if n = 0 then .ok (some 0)
  else .ok (codeLoop A fuel (A.log2N n.toNat) (A.log2 A.k0))

/-- `bound`, `mdl.py:71` -/
noncomputable def bound (n : Nat) : Nat := ⌈A.add 2 (A.sqrt (A.scale (2 * n * 10) A.ln10))⌉₊

/-- the loop `for k in range(1, bound+1)`, `mdl.py:72-74`: the state is (b, sum) -/
noncomputable def sumLoop (n : Nat) : List Nat → ℝ × ℝ → ℝ × ℝ
  | [], st => st
  | k :: ks, (b, sum) =>
    let b' := A.mul (A.quot ((n : Int) - k + 1) n) b
    sumLoop n ks (b', A.add sum b')

/-- the loop `for j in range(3, number_of_categories+1)`, `mdl.py:76-79`: the state is (old_sum, sum) -/
noncomputable def recLoop (n : Nat) : List Nat → ℝ × ℝ → ℝ × ℝ
  | [], st => st
  | j :: js, (old, sum) => recLoop n js (sum, A.add sum (A.divN (A.scale n old) (j - 2)))

/-- `multinomial_with_recurrence`, `mdl.py:50-80` -/
noncomputable def multinomial (categories samples : Int) : Except PyErr ℝ :=
  if categories ≤ 0 then .error .valueError
  else if samples < 0 then .error .valueError
  else if categories = 1 then .ok 1
  else if samples = 0 then .ok 0
  else
    let n := samples.toNat
    let st := sumLoop A n (List.range' 1 (bound A n)) (1, 1)
    .ok (recLoop A n (List.range' 3 (categories.toNat - 2)) (1, st.2)).2

/-- `log2_multinomial_with_recurrence`, `mdl.py:82-96` -/
noncomputable def log2Multinomial (categories samples : Int) : Except PyErr ℝ :=
  match multinomial A categories samples with
  | .error e => .error e
  | .ok mdc => if mdc > 0 then .ok (A.log2 mdc) else .ok 0

end FloatMDL
end Verif
