import Verif.Model.Quality
/-! Floating-point arithmetic: the numbers of Python (`float`, IEEE 754 binary64) as rationals, and the quality measures as they are
computed, rounding included. Simplification: the range of the exponent is not limited (there are no subnormal numbers and no
overflow; the numbers that the measures meet are 0 or between `2^-200` and `2^200` in absolute value, for counts up to `2^53`; `Model/Binary64` has the limits, and C103 shows that they make no difference). -/
namespace Verif
namespace Float64

/-- `2^e` for an integer `e` -/
def pow2 : Int → Rat
  | .ofNat n => ((2 ^ n : Nat) : Rat)
  | .negSucc n => 1 / ((2 ^ (n + 1) : Nat) : Rat)

/-- the exponent of `q > 0`: the `k` with `2^k ≤ q < 2^(k+1)` -/
def expOf (q : Rat) : Int :=
  let k : Int := (Nat.log2 q.num.natAbs : Int) - (Nat.log2 q.den : Int)
  if pow2 k ≤ q then k else k - 1

/-- the nearest integer, the even one of two that are equally near -/
def nearestInt (x : Rat) : Int :=
  let f := x.floor
  if x - f < 1 / 2 then f else if 1 / 2 < x - f then f + 1 else if f % 2 = 0 then f else f + 1

/-- rounding of `q > 0` to 53 binary digits -/
def roundPos (q : Rat) : Rat :=
  let e := expOf q - 52
  (nearestInt (q * pow2 (-e)) : Rat) * pow2 e

/-- rounding to the nearest float, ties to even: the result of every operation of IEEE 754 on floats, of `int / int` in Python
and of the conversion of an `int` -/
def fl (q : Rat) : Rat := if 0 < q then roundPos q else if q < 0 then -roundPos (-q) else 0

/-- `a / b` with `int` operands, or with floats -/
def div (a b : Rat) : Except PyErr Rat := if b = 0 then .error .zeroDivisionError else .ok (fl (a / b))
/-- `x * y`; an `int` operand is converted before (`fl`) -/
def mul (x y : Rat) : Rat := fl (x * y)
def sub (x y : Rat) : Rat := fl (x - y)
def add (x y : Rat) : Rat := fl (x + y)

/-! ### the measures with the rounding of each operation (sums, differences and products of counts are of type `int`, so exact) -/

/-- `quality_measures/support.py:44` -/
def support (d : Params) : Except PyErr Rat := do
  let tp ← getParam d kTp; let TP ← getParam d kTP; let FP ← getParam d kFP
  div tp (TP + FP)

/-- `quality_measures/coverage.py:47` -/
def coverage (d : Params) : Except PyErr Rat := do
  let tp ← getParam d kTp; let fp ← getParam d kFp; let TP ← getParam d kTP; let FP ← getParam d kFP
  div (tp + fp) (TP + FP)

/-- `quality_measures/wracc.py:47` -/
def wracc (d : Params) : Except PyErr Rat := do
  let tp ← getParam d kTp; let fp ← getParam d kFp; let TP ← getParam d kTP; let FP ← getParam d kFP
  let a ← div (tp + fp) (TP + FP)
  let b ← div tp (tp + fp)
  let c ← div TP (TP + FP)
  return mul a (sub b c)

/-- `quality_measures/absolute_wracc.py:33` (`abs` is exact) -/
def absoluteWracc (d : Params) : Except PyErr Rat := do
  let w ← wracc d
  return |w|

/-- `quality_measures/ppv.py:41` -/
def ppv (d : Params) : Except PyErr Rat := do
  let tp ← getParam d kTp; let fp ← getParam d kFp
  div tp (tp + fp)

/-- `quality_measures/npv.py:47` -/
def npv (d : Params) : Except PyErr Rat := do
  let tp ← getParam d kTp; let fp ← getParam d kFp; let TP ← getParam d kTP; let FP ← getParam d kFP
  div (FP - fp) (FP - fp + TP - tp)

/-- `quality_measures/sensitivity.py:41` -/
def sensitivity (d : Params) : Except PyErr Rat := do
  let tp ← getParam d kTp; let TP ← getParam d kTP
  div tp TP

/-- `quality_measures/specificity.py:41` -/
def specificity (d : Params) : Except PyErr Rat := do
  let fp ← getParam d kFp; let FP ← getParam d kFP
  div (FP - fp) FP

/-- `quality_measures/f1_score.py:44` -/
def f1 (d : Params) : Except PyErr Rat := do
  let tp ← getParam d kTp; let fp ← getParam d kFp; let TP ← getParam d kTP
  div (2 * tp) (tp + fp + TP)

/-- `quality_measures/irr.py:44` -/
def irr (d : Params) : Except PyErr Rat := do
  let tp ← getParam d kTp; let fp ← getParam d kFp; let FP ← getParam d kFP
  let a ← div tp (tp + fp)
  let b ← div (FP - fp) FP
  return add (sub a 1) b

/-- `quality_measures/youden.py:47` -/
def youden (d : Params) : Except PyErr Rat := do
  let tp ← getParam d kTp; let fp ← getParam d kFp; let TP ← getParam d kTP; let FP ← getParam d kFP
  let a ← div tp TP
  let b ← div (FP - fp) FP
  return sub (add a b) 1

/-- `quality_measures/qg.py:45`. Simplification: `g` is an `int`. -/
def qg (d : Params) : Except PyErr Rat := do
  let tp ← getParam d kTp; let fp ← getParam d kFp; let g ← getParam d kG
  div tp (fp + g)

/-- `quality_measures/piatetsky_shapiro.py:47` -/
def piatetskyShapiro (d : Params) : Except PyErr Rat := do
  let tp ← getParam d kTp; let fp ← getParam d kFp; let TP ← getParam d kTP; let FP ← getParam d kFP
  let a ← div tp (tp + fp)
  let b ← div TP (TP + FP)
  return mul (fl (tp + fp)) (sub a b)

/-- `quality_measures/piatetsky_shapiro_optimistic_estimate_1.py:48` -/
def psOE1 (d : Params) : Except PyErr Rat := do
  let tp ← getParam d kTp; let fp ← getParam d kFp; let TP ← getParam d kTP; let FP ← getParam d kFP
  let a ← div TP (TP + FP)
  return mul (fl (tp + fp)) (sub 1 a)

/-- `quality_measures/piatetsky_shapiro_optimistic_estimate_2.py:45` -/
def psOE2 (d : Params) : Except PyErr Rat := do
  let tp ← getParam d kTp; let TP ← getParam d kTP; let FP ← getParam d kFP
  let a ← div TP (TP + FP)
  return mul (fl tp) (sub 1 a)

/-- `quality_measures/wracc_optimistic_estimate_1.py:48` -/
def wraccOE1 (d : Params) : Except PyErr Rat := do
  let tp ← getParam d kTp; let fp ← getParam d kFp; let TP ← getParam d kTP; let FP ← getParam d kFP
  let a ← div (tp * tp) (tp + fp)
  let b ← div TP (TP + FP)
  return mul a (sub 1 b)

end Float64

/-- `measure.compute(dict_of_parameters)` in floating point -/
def Measure.computeFl : Measure → Params → Except PyErr Rat
  | .support => Float64.support | .coverage => Float64.coverage | .wracc => Float64.wracc
  | .absoluteWracc => Float64.absoluteWracc | .ppv => Float64.ppv | .npv => Float64.npv
  | .sensitivity => Float64.sensitivity | .specificity => Float64.specificity | .f1 => Float64.f1
  | .irr => Float64.irr | .youden => Float64.youden | .qg => Float64.qg
  | .piatetskyShapiro => Float64.piatetskyShapiro | .psOE1 => Float64.psOE1 | .psOE2 => Float64.psOE2
  | .wraccOE1 => Float64.wraccOE1

end Verif
