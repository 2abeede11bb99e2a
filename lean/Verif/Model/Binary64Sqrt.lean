import Verif.Model.Binary64
import Verif.Model.FloatBinomial
/-! `BinomialTest` and its optimistic estimate in binary64 with its range of exponents. -/
namespace Verif
namespace Binary64
open Float64

/-- `sqrt(x)` of `math` with a float; `ValueError` for a negative number. The square root of a float is never out of range (`C103_sqrt`), so rounding to 53 digits is enough. -/
def sqrt : XF → Except PyErr XF
  | .fin q => if q < 0 then .error .valueError else .ok (.fin (fsqrt q))
  | .inf => .ok .inf
  | .ninf => .error .valueError
  | .nan => .ok .nan

/-- `x / y` with floats -/
def fdiv : XF → XF → Except PyErr XF
  | .fin a, .fin b => if b = 0 then .error .zeroDivisionError else .ok (round (a / b))
  | .inf, .fin b => if b = 0 then .error .zeroDivisionError else .ok (infinite b)
  | .ninf, .fin b => if b = 0 then .error .zeroDivisionError else .ok (infinite (-b))
  | .nan, .fin b => if b = 0 then .error .zeroDivisionError else .ok .nan
  | .fin _, .inf => .ok (.fin 0)
  | .fin _, .ninf => .ok (.fin 0)
  | _, _ => .ok .nan

/-- `quality_measures/binomial_test.py:45-52`: `sqrt(n)` converts the `int` `n` to a float first -/
def binomialTest (d : Params) : Except PyErr XF := do
  let tp ← getParam d kTp; let fp ← getParam d kFp; let TP ← getParam d kTP; let FP ← getParam d kFP
  let n := tp + fp
  let N := TP + FP
  let p ← div tp n
  let p0 ← div TP N
  let m ← exact n
  let rn ← sqrt m
  let rv ← sqrt (mul p0 (sub (.fin 1) p0))
  let a ← fdiv (mul (sub p p0) rn) rv
  let q ← div N (N - n)
  let b ← sqrt q
  return mul a b

/-- `quality_measures/binomial_test_optimistic_estimate_1.py:43-46` -/
def binomialTestOE1 (d : Params) : Except PyErr XF := do
  let tp ← getParam d kTp; let TP ← getParam d kTP; let FP ← getParam d kFP
  let t ← exact tp
  let r ← sqrt t
  let a ← div TP (TP + FP)
  return mul r (sub (.fin 1) a)

end Binary64
end Verif
