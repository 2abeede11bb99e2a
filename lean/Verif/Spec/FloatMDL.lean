import Verif.Model.FloatMDL
import Verif.Spec.MDL
/-! Specification vocabulary for the MDL functions on a machine with rounding errors. -/
namespace Verif.Spec

/-- `x` differs from `r` by a relative error of at most `u` -/
def Within (u x r : ℝ) : Prop := |x - r| ≤ u * |r|

/-- an arithmetic in which every operation and every literal has a relative error of at most `u` (no overflow and no underflow) -/
structure MDLArith.Standard (A : MDLArith) (u : ℝ) : Prop where
  theta : Within u A.theta (1 / 1000000)
  k0 : Within u A.k0 2.865064
  ln10 : Within u A.ln10 (Real.log 10)
  add : ∀ a b, Within u (A.add a b) (a + b)
  mul : ∀ a b, Within u (A.mul a b) (a * b)
  quot : ∀ (m : Int) (n : Nat), n ≠ 0 → Within u (A.quot m n) ((m : ℝ) / n)
  scale : ∀ (n : Nat) a, Within u (A.scale n a) (n * a)
  divN : ∀ a (n : Nat), n ≠ 0 → Within u (A.divN a n) (a / n)
  log2 : ∀ a, 0 < a → Within u (A.log2 a) (Real.logb 2 a)
  log2N : ∀ n : Nat, n ≠ 0 → Within u (A.log2N n) (Real.logb 2 n)
  sqrt : ∀ a, 0 ≤ a → Within u (A.sqrt a) (Real.sqrt a)

/-- the value that the loop of `universal_code_for_integer` returns on the machine, however many turns it takes -/
def ComputesCode (A : MDLArith) (n : Int) (r : ℝ) : Prop := ∃ f, ∀ g, f ≤ g → FloatMDL.universalCode A g n = .ok (some r)

/-- the number of roundings on which `multinomial_with_recurrence` for `L` categories and `n` samples depends, at most -/
noncomputable def multinomialRoundings (L n : Nat) : Nat := 2 * ⌈(2 + Real.sqrt (20 * n * Real.log 10) : ℝ)⌉₊ + 2 * L + 3

/-- the arithmetic without errors -/
noncomputable def exactMDL : MDLArith where
  theta := 1 / 1000000
  k0 := 2.865064
  ln10 := Real.log 10
  add x y := x + y
  mul x y := x * y
  quot m n := (m : ℝ) / n
  scale n x := n * x
  divN x n := x / n
  log2 := Real.logb 2
  log2N n := Real.logb 2 n
  sqrt := Real.sqrt

end Verif.Spec
