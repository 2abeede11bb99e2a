import Verif.Model.PValue
import Verif.Model.Credibility
/-! Model of `src/subgroups/credibility_measures/odds_ratio_glm.py` and `p_value_glm.py`, over the exact reals. `sm.GLM(y, x, family=Binomial()).fit()`
of `statsmodels` is a parameter (`fit`); `IsGLM` says what it is meant to return: a maximum-likelihood estimate and the p-value of its Wald test. The
iteration that approximates the estimate is not modelled. -/
namespace Verif.GLM

/-- what the code uses of the results object: `params.iloc[0]` and `pvalues.iloc[0]` -/
structure Results where
  param : ℝ
  pvalue : ℝ

/-- inverse of the logit link: the probability for the linear predictor `t` -/
noncomputable def invLogit (t : ℝ) : ℝ := 1 / (1 + Real.exp (-t))

/-- the probability of the target in a row: the only regressor is the appearance of the pattern; no constant is added (`odds_ratio_glm.py:46`,
`p_value_glm.py:45`, `bitset_qfinder.py:75`) -/
noncomputable def rowProb (b : ℝ) (app : Bool) : ℝ := invLogit (if app then b else 0)

/-- logarithm of the likelihood of the coefficient `b` -/
noncomputable def logLik (app target : Bits) (b : ℝ) : ℝ :=
  ((app.zip target).map (fun r => if r.2 then Real.log (rowProb b r.1) else Real.log (1 - rowProb b r.1))).sum

/-- Fisher information of the coefficient -/
noncomputable def info (app target : Bits) (b : ℝ) : ℝ :=
  ((app.zip target).map (fun r => if r.1 then rowProb b r.1 * (1 - rowProb b r.1) else 0)).sum

/-- the estimate is a maximiser of the likelihood; the p-value is that of the statistic `estimate / standard error` under the standard normal -/
structure IsGLM (app target : Bits) (r : Results) : Prop where
  best : ∀ b, logLik app target b ≤ logLik app target r.param
  wald : r.pvalue = 2 * (1 - PValueIndependence.normCdf |r.param / Real.sqrt (1 / info app target r.param)|)

/-- `fit` returns such results whenever the likelihood has a maximiser -/
def FitsML (fit : Bits → Bits → Results) : Prop :=
  ∀ app target, app.length = target.length → (∃ b, ∀ b', logLik app target b' ≤ logLik app target b) → IsGLM app target (fit app target)

/-- a value of the dictionary of parameters -/
inductive Arg
  | glm (r : Results)
  | bits (b : Bits)
  | other

/-- the key of a fitted model -/
def kGlm : Str := c!"glm"

/-- the results the two measures look at, `odds_ratio_glm.py:36-46`, `p_value_glm.py:35-45`. Simplification: a value of another kind is a `TypeError`. -/
noncomputable def results (fit : Bits → Bits → Results) (d : Dict Arg) : Except PyErr Results :=
  if !d.has kGlm && (!d.has kAppearance || !d.has kTarget) then .error .parameterNotFound
  else match d.lookup kGlm with
    | some (.glm r) => .ok r
    | some _ => .error .typeError
    | none => match d.lookup kAppearance, d.lookup kTarget with
      | some (.bits a), some (.bits t) => .ok (fit a t)
      | _, _ => .error .typeError

/-- `OddsRatioGLM.compute`, `odds_ratio_glm.py:29-47` -/
noncomputable def oddsRatio (fit : Bits → Bits → Results) (d : Dict Arg) : Except PyErr ℝ :=
  match results fit d with
  | .ok r => .ok (Real.exp r.param)
  | .error e => .error e

/-- `PValueGLM.compute`, `p_value_glm.py:28-46` -/
noncomputable def pValue (fit : Bits → Bits → Results) (d : Dict Arg) : Except PyErr ℝ :=
  match results fit d with
  | .ok r => .ok r.pvalue
  | .error e => .error e

end Verif.GLM
