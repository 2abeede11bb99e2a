import Verif.Model.Float64
import Verif.Model.Credibility
/-! The quality measures in the arithmetic of IEEE 754 binary64 with its range of exponents: numbers below `2^-1022` have fewer digits (subnormal numbers), numbers from about
`2^1024` on are infinite or raise `OverflowError`. (`Model/Float64` has no limits; C103 says when this makes no difference.) -/
namespace Verif
namespace Binary64
open Float64

/-- rounding of `q > 0` to a multiple of a power of 2 with 53 binary digits, or to a multiple of `2^-1074` below `2^-1022` -/
def roundPos (q : Rat) : Rat :=
  let e := max (expOf q - 52) (-1074)
  (nearestInt (q * pow2 (-e)) : Rat) * pow2 e

/-- the rounded number, before overflow is looked at -/
def roundAny (q : Rat) : Rat := if 0 < q then roundPos q else if q < 0 then -roundPos (-q) else 0

/-- rounding to a float: infinite from `2^1024` on. Simplification: 0 and -0.0 are one number (they are equal, and the measures do not divide by a float). -/
def round (q : Rat) : XF :=
  if pow2 1024 ≤ roundAny q then .inf else if roundAny q ≤ -pow2 1024 then .ninf else .fin (roundAny q)

/-- an `int` used as a float, and the quotient of two of type `int`: `OverflowError` instead of an infinite number -/
def exact (q : Rat) : Except PyErr XF :=
  match round q with
  | .fin r => .ok (.fin r)
  | _ => .error .overflowError

/-- `a / b` with operands of type `int` -/
def div (a b : Rat) : Except PyErr XF := if b = 0 then .error .zeroDivisionError else exact (a / b)

/-- `-x` -/
def neg : XF → XF
  | .fin q => .fin (-q)
  | .inf => .ninf
  | .ninf => .inf
  | .nan => .nan

/-- `x + y` with floats -/
def add : XF → XF → XF
  | .fin a, .fin b => round (a + b)
  | .nan, _ => .nan
  | _, .nan => .nan
  | .inf, .ninf => .nan
  | .ninf, .inf => .nan
  | .inf, _ => .inf
  | .ninf, _ => .ninf
  | .fin _, .inf => .inf
  | .fin _, .ninf => .ninf

/-- `x - y` with floats -/
def sub (x y : XF) : XF := add x (neg y)

/-- the infinite number of sign `s` -/
def infinite (s : Rat) : XF := if 0 < s then .inf else if s < 0 then .ninf else .nan

/-- `x * y` with floats -/
def mul : XF → XF → XF
  | .fin a, .fin b => round (a * b)
  | .nan, _ => .nan
  | _, .nan => .nan
  | .fin a, .inf => infinite a
  | .fin a, .ninf => infinite (-a)
  | .inf, .fin b => infinite b
  | .ninf, .fin b => infinite (-b)
  | .inf, .inf => .inf
  | .ninf, .ninf => .inf
  | .inf, .ninf => .ninf
  | .ninf, .inf => .ninf

/-- `abs(x)` -/
def abs : XF → XF
  | .fin q => .fin |q|
  | .nan => .nan
  | _ => .inf

/-! ### the measures (sums, differences and products of counts are of type `int`, so exact) -/

/-- `quality_measures/support.py:44` -/
def support (d : Params) : Except PyErr XF := do
  let tp ← getParam d kTp; let TP ← getParam d kTP; let FP ← getParam d kFP
  div tp (TP + FP)

/-- `quality_measures/coverage.py:47` -/
def coverage (d : Params) : Except PyErr XF := do
  let tp ← getParam d kTp; let fp ← getParam d kFp; let TP ← getParam d kTP; let FP ← getParam d kFP
  div (tp + fp) (TP + FP)

/-- `quality_measures/wracc.py:47` -/
def wracc (d : Params) : Except PyErr XF := do
  let tp ← getParam d kTp; let fp ← getParam d kFp; let TP ← getParam d kTP; let FP ← getParam d kFP
  let a ← div (tp + fp) (TP + FP)
  let b ← div tp (tp + fp)
  let c ← div TP (TP + FP)
  return mul a (sub b c)

/-- `quality_measures/absolute_wracc.py:33` -/
def absoluteWracc (d : Params) : Except PyErr XF := do
  let w ← wracc d
  return abs w

/-- `quality_measures/ppv.py:41` -/
def ppv (d : Params) : Except PyErr XF := do
  let tp ← getParam d kTp; let fp ← getParam d kFp
  div tp (tp + fp)

/-- `quality_measures/npv.py:47` -/
def npv (d : Params) : Except PyErr XF := do
  let tp ← getParam d kTp; let fp ← getParam d kFp; let TP ← getParam d kTP; let FP ← getParam d kFP
  div (FP - fp) (FP - fp + TP - tp)

/-- `quality_measures/sensitivity.py:41` -/
def sensitivity (d : Params) : Except PyErr XF := do
  let tp ← getParam d kTp; let TP ← getParam d kTP
  div tp TP

/-- `quality_measures/specificity.py:41` -/
def specificity (d : Params) : Except PyErr XF := do
  let fp ← getParam d kFp; let FP ← getParam d kFP
  div (FP - fp) FP

/-- `quality_measures/f1_score.py:44` -/
def f1 (d : Params) : Except PyErr XF := do
  let tp ← getParam d kTp; let fp ← getParam d kFp; let TP ← getParam d kTP
  div (2 * tp) (tp + fp + TP)

/-- `quality_measures/irr.py:44` -/
def irr (d : Params) : Except PyErr XF := do
  let tp ← getParam d kTp; let fp ← getParam d kFp; let FP ← getParam d kFP
  let a ← div tp (tp + fp)
  let b ← div (FP - fp) FP
  return add (sub a (.fin 1)) b

/-- `quality_measures/youden.py:47` -/
def youden (d : Params) : Except PyErr XF := do
  let tp ← getParam d kTp; let fp ← getParam d kFp; let TP ← getParam d kTP; let FP ← getParam d kFP
  let a ← div tp TP
  let b ← div (FP - fp) FP
  return sub (add a b) (.fin 1)

/-- `quality_measures/qg.py:45`. Simplification: `g` is an `int`. -/
def qg (d : Params) : Except PyErr XF := do
  let tp ← getParam d kTp; let fp ← getParam d kFp; let g ← getParam d kG
  div tp (fp + g)

/-- `quality_measures/piatetsky_shapiro.py:47`: `int * float` converts the `int` when both operands are there -/
def piatetskyShapiro (d : Params) : Except PyErr XF := do
  let tp ← getParam d kTp; let fp ← getParam d kFp; let TP ← getParam d kTP; let FP ← getParam d kFP
  let a ← div tp (tp + fp)
  let b ← div TP (TP + FP)
  let n ← exact (tp + fp)
  return mul n (sub a b)

/-- `quality_measures/piatetsky_shapiro_optimistic_estimate_1.py:48` -/
def psOE1 (d : Params) : Except PyErr XF := do
  let tp ← getParam d kTp; let fp ← getParam d kFp; let TP ← getParam d kTP; let FP ← getParam d kFP
  let a ← div TP (TP + FP)
  let n ← exact (tp + fp)
  return mul n (sub (.fin 1) a)

/-- `quality_measures/piatetsky_shapiro_optimistic_estimate_2.py:45` -/
def psOE2 (d : Params) : Except PyErr XF := do
  let tp ← getParam d kTp; let TP ← getParam d kTP; let FP ← getParam d kFP
  let a ← div TP (TP + FP)
  let n ← exact tp
  return mul n (sub (.fin 1) a)

/-- `quality_measures/wracc_optimistic_estimate_1.py:48` -/
def wraccOE1 (d : Params) : Except PyErr XF := do
  let tp ← getParam d kTp; let fp ← getParam d kFp; let TP ← getParam d kTP; let FP ← getParam d kFP
  let a ← div (tp * tp) (tp + fp)
  let b ← div TP (TP + FP)
  return mul a (sub (.fin 1) b)

end Binary64

/-- `measure.compute(dict_of_parameters)` in binary64 -/
def Measure.compute64 : Measure → Params → Except PyErr XF
  | .support => Binary64.support | .coverage => Binary64.coverage | .wracc => Binary64.wracc
  | .absoluteWracc => Binary64.absoluteWracc | .ppv => Binary64.ppv | .npv => Binary64.npv
  | .sensitivity => Binary64.sensitivity | .specificity => Binary64.specificity | .f1 => Binary64.f1
  | .irr => Binary64.irr | .youden => Binary64.youden | .qg => Binary64.qg
  | .piatetskyShapiro => Binary64.piatetskyShapiro | .psOE1 => Binary64.psOE1 | .psOE2 => Binary64.psOE2
  | .wraccOE1 => Binary64.wraccOE1

end Verif
