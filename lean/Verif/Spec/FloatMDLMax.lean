import Verif.Model.FloatMDLMax
import Verif.Spec.FloatMDL
/-! Specification vocabulary for `universal_code_for_integer_with_maximum` on a machine with rounding errors. -/
namespace Verif.Spec

/-- moreover `1 - x` and `2 ** (-x)` have a relative error of at most `u`, and the sum of `k` numbers that are not negative one of at most `w k` -/
structure MDLMaxArith.Standard (A : MDLMaxArith) (u : ℝ) (w : Nat → ℝ) : Prop where
  base : MDLArith.Standard A.toMDLArith u
  oneSub : ∀ x, Within u (A.oneSub x) (1 - x)
  powNeg : ∀ x, Within u (A.powNeg x) ((2 : ℝ) ^ (-x))
  sum : ∀ l : List ℝ, (∀ x ∈ l, 0 ≤ x) → Within (w l.length) (A.sum l) l.sum

/-- the value that `universal_code_for_integer_with_maximum` returns on the machine, however many turns the loops take -/
def ComputesMax (A : MDLMaxArith) (n max : Nat) (r : ℝ) : Prop := ∃ f, ∀ g, f ≤ g → FloatMDL.codeWithMaximum A g n max = .ok (some (some r))

end Verif.Spec
