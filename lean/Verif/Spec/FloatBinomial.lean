import Mathlib.Analysis.Real.Sqrt
import Verif.Spec.Float64
/-! What a correctly rounded square root is. -/
namespace Verif.Spec

/-- `r` is a float nearest to the (real) square root of `q` -/
def IsSqrtRounding (q r : Rat) : Prop := IsFloat r ∧ ∀ g, IsFloat g → |(r : ℝ) - Real.sqrt q| ≤ |(g : ℝ) - Real.sqrt q|

end Verif.Spec
