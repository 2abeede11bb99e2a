import Verif.Model.Quality
import Mathlib.Probability.CDF
import Mathlib.Probability.Distributions.Gaussian.Real
/-! Model of `src/subgroups/credibility_measures/p_value_independence.py`, over the exact reals. -/
namespace Verif.PValueIndependence

/-- `norm.cdf(x)` of `scipy.stats`: the distribution function of the standard normal -/
noncomputable def normCdf (x : ℝ) : ℝ := ProbabilityTheory.cdf (ProbabilityTheory.gaussianReal 0 1) x

/-- `PValueIndependence.compute`, `p_value_independence.py:31-64`. The counts are Python numbers; with numpy integers the division by
zero gives `nan` with a warning and not a `ZeroDivisionError`. -/
noncomputable def compute (d : Params) : Except PyErr ℝ := do
  let tp ← getParam d kTp; let fp ← getParam d kFp; let TP ← getParam d kTP; let FP ← getParam d kFP
  let N := TP + FP
  if tp = TP ∧ fp = FP then return 1
  else if tp = 0 ∧ fp = 0 then return 1
  else do
    let e ← pyDiv ((tp + fp) * TP) N
    let v ← pyDiv (e * FP) N
    let s ← Quality.pySqrt (v : ℝ)
    let z ← Quality.realDiv ((tp - e : Rat) : ℝ) s
    return 2 * (1 - normCdf |z|)

end Verif.PValueIndependence
