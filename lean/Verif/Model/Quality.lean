import Verif.Model.Py
import Mathlib.Analysis.SpecialFunctions.Pow.Real
/-! Model of `src/subgroups/quality_measures/*.py`. Simplification: Python integers and floats are exact rationals
(exact reals for the two measures with a square root); the measures with rounding are in `Model/Float64`. -/
namespace Verif

/-- A Python dictionary with text keys: association list in insertion order. -/
abbrev Dict (α : Type) := List (Str × α)

namespace Dict
variable {α : Type}
/-- `d[k] = v` -/
def set (d : Dict α) (k : Str) (v : α) : Dict α :=
  if d.any (fun e => e.1 == k) then d.map (fun e => if e.1 == k then (k, v) else e) else d ++ [(k, v)]
/-- `d.update(e)` -/
def update (d e : Dict α) : Dict α := e.foldl (fun d p => d.set p.1 p.2) d
/-- `try: del d[k] except KeyError: pass` -/
def del (d : Dict α) (k : Str) : Dict α := d.filter (fun e => e.1 != k)
end Dict

/-- the parameter dictionary of a quality measure -/
abbrev Params := Dict Rat

/-- the keys `QualityMeasure.TRUE_POSITIVES` ..., `quality_measures/quality_measure.py:22-28` -/
def kTp : Str := c!"tp"
def kFp : Str := c!"fp"
def kTP : Str := c!"TP"
def kFP : Str := c!"FP"
def kG : Str := c!"g"

/-- `if key not in dict: raise (Subgroup)ParameterNotFoundError` ... `dict[key]` -/
def getParam (d : Params) (k : Str) : Except PyErr Rat :=
  match d.lookup k with
  | some v => .ok v
  | none => .error .parameterNotFound

/-- `a / b` -/
def pyDiv (a b : Rat) : Except PyErr Rat := if b = 0 then .error .zeroDivisionError else .ok (a / b)

namespace Quality

/-- `Support.compute`, `quality_measures/support.py:33-44` -/
def support (d : Params) : Except PyErr Rat := do
  let tp ← getParam d kTp; let TP ← getParam d kTP; let FP ← getParam d kFP
  pyDiv tp (TP + FP)

/-- `Coverage.compute`, `quality_measures/coverage.py:33-47` -/
def coverage (d : Params) : Except PyErr Rat := do
  let tp ← getParam d kTp; let fp ← getParam d kFp; let TP ← getParam d kTP; let FP ← getParam d kFP
  pyDiv (tp + fp) (TP + FP)

/-- `WRAcc.compute`, `quality_measures/wracc.py:33-47` -/
def wracc (d : Params) : Except PyErr Rat := do
  let tp ← getParam d kTp; let fp ← getParam d kFp; let TP ← getParam d kTP; let FP ← getParam d kFP
  let a ← pyDiv (tp + fp) (TP + FP)
  let b ← pyDiv tp (tp + fp)
  let c ← pyDiv TP (TP + FP)
  return a * (b - c)

/-- `AbsoluteWRAcc.compute`, `quality_measures/absolute_wracc.py:33` -/
def absoluteWracc (d : Params) : Except PyErr Rat := do
  let w ← wracc d
  return |w|

/-- `PPV.compute`, `quality_measures/ppv.py:33-41` -/
def ppv (d : Params) : Except PyErr Rat := do
  let tp ← getParam d kTp; let fp ← getParam d kFp
  pyDiv tp (tp + fp)

/-- `NPV.compute`, `quality_measures/npv.py:33-47` -/
def npv (d : Params) : Except PyErr Rat := do
  let tp ← getParam d kTp; let fp ← getParam d kFp; let TP ← getParam d kTP; let FP ← getParam d kFP
  pyDiv (FP - fp) (FP - fp + TP - tp)

/-- `Sensitivity.compute`, `quality_measures/sensitivity.py:33-41` -/
def sensitivity (d : Params) : Except PyErr Rat := do
  let tp ← getParam d kTp; let TP ← getParam d kTP
  pyDiv tp TP

/-- `Specificity.compute`, `quality_measures/specificity.py:33-41` -/
def specificity (d : Params) : Except PyErr Rat := do
  let fp ← getParam d kFp; let FP ← getParam d kFP
  pyDiv (FP - fp) FP

/-- `F1Score.compute`, `quality_measures/f1_score.py:33-44` -/
def f1 (d : Params) : Except PyErr Rat := do
  let tp ← getParam d kTp; let fp ← getParam d kFp; let TP ← getParam d kTP
  pyDiv (2 * tp) (tp + fp + TP)

/-- `IRR.compute`, `quality_measures/irr.py:33-44` -/
def irr (d : Params) : Except PyErr Rat := do
  let tp ← getParam d kTp; let fp ← getParam d kFp; let FP ← getParam d kFP
  let a ← pyDiv tp (tp + fp)
  let b ← pyDiv (FP - fp) FP
  return a - 1 + b

/-- `Youden.compute`, `quality_measures/youden.py:33-47` -/
def youden (d : Params) : Except PyErr Rat := do
  let tp ← getParam d kTp; let fp ← getParam d kFp; let TP ← getParam d kTP; let FP ← getParam d kFP
  let a ← pyDiv tp TP
  let b ← pyDiv (FP - fp) FP
  return a + b - 1

/-- `Qg.compute`, `quality_measures/qg.py:33-45` -/
def qg (d : Params) : Except PyErr Rat := do
  let tp ← getParam d kTp; let fp ← getParam d kFp; let g ← getParam d kG
  pyDiv tp (fp + g)

/-- `PiatetskyShapiro.compute`, `quality_measures/piatetsky_shapiro.py:33-47` -/
def piatetskyShapiro (d : Params) : Except PyErr Rat := do
  let tp ← getParam d kTp; let fp ← getParam d kFp; let TP ← getParam d kTP; let FP ← getParam d kFP
  let a ← pyDiv tp (tp + fp)
  let b ← pyDiv TP (TP + FP)
  return (tp + fp) * (a - b)

/-- `PiatetskyShapiroOptimisticEstimate1.compute`, `quality_measures/piatetsky_shapiro_optimistic_estimate_1.py:34-48` -/
def psOE1 (d : Params) : Except PyErr Rat := do
  let tp ← getParam d kTp; let fp ← getParam d kFp; let TP ← getParam d kTP; let FP ← getParam d kFP
  let a ← pyDiv TP (TP + FP)
  return (tp + fp) * (1 - a)

/-- `PiatetskyShapiroOptimisticEstimate2.compute`, `quality_measures/piatetsky_shapiro_optimistic_estimate_2.py:34-45` -/
def psOE2 (d : Params) : Except PyErr Rat := do
  let tp ← getParam d kTp; let TP ← getParam d kTP; let FP ← getParam d kFP
  let a ← pyDiv TP (TP + FP)
  return tp * (1 - a)

/-- `WRAccOptimisticEstimate1.compute`, `quality_measures/wracc_optimistic_estimate_1.py:34-48` -/
def wraccOE1 (d : Params) : Except PyErr Rat := do
  let tp ← getParam d kTp; let fp ← getParam d kFp; let TP ← getParam d kTP; let FP ← getParam d kFP
  let a ← pyDiv (tp * tp) (tp + fp)
  let b ← pyDiv TP (TP + FP)
  return a * (1 - b)

/-- `sqrt(x)` of `math`: `ValueError` for a negative argument -/
noncomputable def pySqrt (x : ℝ) : Except PyErr ℝ := if x < 0 then .error .valueError else .ok (Real.sqrt x)

/-- `a / b` on reals -/
noncomputable def realDiv (a b : ℝ) : Except PyErr ℝ := open Classical in
  if b = 0 then .error .zeroDivisionError else .ok (a / b)

/-- `BinomialTest.compute`, `quality_measures/binomial_test.py:34-52` -/
noncomputable def binomialTest (d : Params) : Except PyErr ℝ := do
  let tp ← getParam d kTp; let fp ← getParam d kFp; let TP ← getParam d kTP; let FP ← getParam d kFP
  let n := tp + fp
  let N := TP + FP
  let p ← pyDiv tp n
  let p0 ← pyDiv TP N
  let rn ← pySqrt (n : ℝ)
  let rv ← pySqrt ((p0 * (1 - p0) : Rat) : ℝ)
  let a ← realDiv (((p - p0 : Rat) : ℝ) * rn) rv
  let q ← pyDiv N (N - n)
  let b ← pySqrt (q : ℝ)
  return a * b

/-- `BinomialTestOptimisticEstimate1.compute`, `quality_measures/binomial_test_optimistic_estimate_1.py:35-46` -/
noncomputable def binomialTestOE1 (d : Params) : Except PyErr ℝ := do
  let tp ← getParam d kTp; let TP ← getParam d kTP; let FP ← getParam d kFP
  let r ← pySqrt (tp : ℝ)
  let a ← pyDiv TP (TP + FP)
  return r * ((1 - a : Rat) : ℝ)

end Quality

/-- the rational-valued measures -/
inductive Measure
  | support | coverage | wracc | absoluteWracc | ppv | npv | sensitivity | specificity | f1 | irr | youden | qg
  | piatetskyShapiro | psOE1 | psOE2 | wraccOE1
  deriving DecidableEq

/-- `measure.compute(dict_of_parameters)` -/
def Measure.compute : Measure → Params → Except PyErr Rat
  | .support => Quality.support | .coverage => Quality.coverage | .wracc => Quality.wracc
  | .absoluteWracc => Quality.absoluteWracc | .ppv => Quality.ppv | .npv => Quality.npv
  | .sensitivity => Quality.sensitivity | .specificity => Quality.specificity | .f1 => Quality.f1
  | .irr => Quality.irr | .youden => Quality.youden | .qg => Quality.qg
  | .piatetskyShapiro => Quality.piatetskyShapiro | .psOE1 => Quality.psOE1 | .psOE2 => Quality.psOE2
  | .wraccOE1 => Quality.wraccOE1

/-- The heap of dictionaries of a program: a reference is a position. -/
abbrev Heap := List Params

/-- `d.copy()`: a new object -/
def Heap.copy (h : Heap) (r : Nat) : Heap × Nat := (h ++ [h.getD r []], h.length)

/-- apply a mutation to the object `r` -/
def Heap.mutate (h : Heap) (r : Nat) (f : Params → Params) : Heap := h.modify r f

/-- `_delete_subgroup_parameters_from_a_dictionary`, `algorithms/subgroup_sets/sdmap.py:35-55` (the same function in
`bsd.py:24-44`, `vlsd.py:25-45`, `sdmapstar.py:34-54`) -/
def deleteSubgroupParameters (d : Params) : Params := (((d.del kTp).del kFp).del kTP).del kFP

/-- The constructor's handling of the additional parameters, `sdmap.py:102-103` (the same in `bsd.py:100-103`,
`vlsd.py:122-125`, `sdmapstar.py:110-113`): copy the caller's dictionary, delete the subgroup parameters in the copy. Returns
the heap and the reference stored in the object. -/
def initAdditional (h : Heap) (caller : Nat) : Heap × Nat :=
  let (h1, r) := h.copy caller
  (h1.mutate r deleteSubgroupParameters, r)

/-- The dictionary given to the measure, `sdmap.py:161-162` (the same in the other algorithms). -/
def paramsFor (tp fp TP FP : Rat) (additional : Params) : Params :=
  Dict.update [(kTp, tp), (kFp, fp), (kTP, TP), (kFP, FP)] additional

end Verif
