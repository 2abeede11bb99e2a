import Mathlib.Analysis.SpecialFunctions.Log.Base
import Mathlib.Algebra.Order.Antidiag.Finsupp
import Mathlib.Data.Nat.Choose.Multinomial
import Mathlib.Analysis.SpecialFunctions.Pow.Real
import Mathlib.Data.Nat.Factorial.BigOperators
import Mathlib.Algebra.Order.Floor.Semiring
import Mathlib.Algebra.BigOperators.Group.Finset.Basic
/-! What the MDL functions are supposed to compute. -/
namespace Verif.Spec

/-- `log2` applied `k + 1` times to `n` -/
noncomputable def iterLog (n : Int) (k : Nat) : ℝ := (Real.logb 2)^[k + 1] (n : ℝ)

/-- Rissanen's universal code length of a positive integer, with the terms up to `10⁻⁶` left out: log2 of the constant
plus the iterated logarithms as long as they exceed the threshold -/
def IsUniversalCode (n : Int) (r : ℝ) : Prop :=
  ∃ K, (∀ k, k < K → 1 / 1000000 < iterLog n k) ∧ iterLog n K ≤ 1 / 1000000 ∧
    r = Real.logb 2 2.865064 + ∑ k ∈ Finset.range K, iterLog n k

/-- the stochastic complexity (normalising sum of the NML distribution) of a multinomial variable with `L` categories and
`n` samples: the sum, over all ways `c` of distributing the samples among the categories, of the multinomial coefficient
times the maximum likelihood `∏ (cᵢ/n)^cᵢ` -/
noncomputable def nmlComplexity (L n : Nat) : ℝ :=
  ∑ c ∈ Finset.finsuppAntidiag (Finset.range L) n,
    (Nat.multinomial (Finset.range L) c : ℝ) * ∏ i ∈ Finset.range L, ((c i : ℝ) / n) ^ (c i)

open Classical in
/-- Rissanen's code length as a number: 0 for 0, else the one number that `IsUniversalCode` describes -/
noncomputable def universalCode (n : Nat) : ℝ :=
  if h : n ≠ 0 ∧ ∃ r, IsUniversalCode n r then h.2.choose else 0

/-- the complexity for two categories and `n` samples as it is computed: the sum of the falling products
`n (n-1) ... (n-k+1) / n^k` for `k` up to `2 + sqrt (20 n ln 10)` rounded up. It is at most `nmlComplexity 2 n` and
falls short of it by less than one part in `10^10` (`C46_complexityTwo`). -/
noncomputable def complexityTwo (n : Nat) : ℝ :=
  ∑ k ∈ Finset.range (⌈(2 + Real.sqrt (20 * n * Real.log 10) : ℝ)⌉₊ + 1), (n.descFactorial k : ℝ) / (n : ℝ) ^ k

end Verif.Spec
