import Verif.Model.Float64
/-! `BinomialTest` and its optimistic estimate in floating point. -/
namespace Verif
namespace Float64

/-- `math.sqrt` of a float `q ≥ 0`: the float nearest to the square root. With 61 or 62 digits of the root and the information whether
more digits follow, the rounding is that of the exact root. -/
def fsqrt (q : Rat) : Rat :=
  if q ≤ 0 then 0
  else
    let t : Int := 60 - expOf q / 2
    let a := q * pow2 (2 * t)
    let s := Nat.sqrt a.floor.toNat
    fl ((2 * s + (if (s : Rat) * s = a then 0 else 1)) * pow2 (-(t + 1)))

/-- `sqrt(x)` of `math`: `ValueError` for a negative argument; an `int` is converted before (`fl`) -/
def pySqrt (x : Rat) : Except PyErr Rat := if x < 0 then .error .valueError else .ok (fsqrt x)

/-- `quality_measures/binomial_test.py:45-52` -/
def binomialTest (d : Params) : Except PyErr Rat := do
  let tp ← getParam d kTp; let fp ← getParam d kFp; let TP ← getParam d kTP; let FP ← getParam d kFP
  let n := tp + fp
  let N := TP + FP
  let p ← div tp n
  let p0 ← div TP N
  let rn ← pySqrt (fl n)
  let rv ← pySqrt (mul p0 (sub 1 p0))
  let a ← div (mul (sub p p0) rn) rv
  let q ← div N (N - n)
  let b ← pySqrt q
  return mul a b

/-- `quality_measures/binomial_test_optimistic_estimate_1.py:43-46` -/
def binomialTestOE1 (d : Params) : Except PyErr Rat := do
  let tp ← getParam d kTp; let TP ← getParam d kTP; let FP ← getParam d kFP
  let r ← pySqrt (fl tp)
  let a ← div TP (TP + FP)
  return mul r (sub 1 a)

end Float64
end Verif
