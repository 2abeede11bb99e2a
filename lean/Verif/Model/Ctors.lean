import Verif.Model.Registry
import Verif.Model.ListMiner
/-! The constructors of the algorithms on arguments of any type: Python values with their dynamic types, the checks in the order of the code, the attributes of the new object. -/
namespace Verif
namespace Ctors

/-- a Python `float` -/
inductive FVal
  | fin (q : Rat)
  | nan
  | pinf
  | ninf
  deriving DecidableEq

/-- a Python object, as far as the constructors look at it. `measure`: an instance of a subclass of `QualityMeasure` (of the library or of the user): which object, what `get_name()` returns, the keys of
`optimistic_estimate_of()`. `dict`: keys are texts, values are references. `copyable`: an object of another type that has a method `copy`, but no deletion by a text key (`list`, `set`); `other`: an object of
another type without the methods used here, which is not equal to a text. Simplification: these two have one truth value, `True`. -/
inductive Obj
  | none
  | bool (b : Bool)
  | int (i : Int)
  | float (f : FVal)
  | str (s : Str)
  | dict (d : Dict Nat)
  | measure (id : Nat) (name : Str) (estimates : List Str)
  | copyable (id : Nat)
  | other (id : Nat)
  deriving DecidableEq

namespace Obj

/-- `type(x) is int` (a `bool` is not) -/
def isInt : Obj → Bool
  | int _ => true
  | _ => false
/-- `type(x) is float` -/
def isFloat : Obj → Bool
  | float _ => true
  | _ => false
/-- `type(x) is bool` -/
def isBool : Obj → Bool
  | bool _ => true
  | _ => false
/-- `type(x) is str` -/
def isStr : Obj → Bool
  | str _ => true
  | _ => false
/-- `type(x) is dict` -/
def isDict : Obj → Bool
  | dict _ => true
  | _ => false
/-- `x is None` -/
def isNone : Obj → Bool
  | none => true
  | _ => false
/-- `isinstance(x, QualityMeasure)` -/
def isMeasure : Obj → Bool
  | measure _ _ _ => true
  | _ => false

/-- truth value of `x` in a condition -/
def truthy : Obj → Bool
  | none => false
  | bool b => b
  | int i => i ≠ 0
  | float (.fin q) => q ≠ 0
  | float _ => true
  | str s => s ≠ []
  | dict d => d ≠ []
  | _ => true

/-- `x < q` for a number `x` (with `nan` every comparison is false) -/
def lt : Obj → Rat → Bool
  | int i, q => (i : Rat) < q
  | float (.fin r), q => r < q
  | float .ninf, _ => true
  | _, _ => false
/-- `x > q` -/
def gt : Obj → Rat → Bool
  | int i, q => q < (i : Rat)
  | float (.fin r), q => q < r
  | float .pinf, _ => true
  | _, _ => false
/-- `x <= q` -/
def le : Obj → Rat → Bool
  | int i, q => (i : Rat) ≤ q
  | float (.fin r), q => r ≤ q
  | float .ninf, _ => true
  | _, _ => false
/-- `x >= q` -/
def ge : Obj → Rat → Bool
  | int i, q => q ≤ (i : Rat)
  | float (.fin r), q => q ≤ r
  | float .pinf, _ => true
  | _, _ => false
/-- `x == q` -/
def eqNum : Obj → Rat → Bool
  | int i, q => (i : Rat) = q
  | float (.fin r), q => r = q
  | _, _ => false
/-- `x in [texts]` -/
def isIn : Obj → List Str → Bool
  | str s, l => l.contains s
  | _, _ => false

end Obj

/-- `if c: raise e` -/
def raiseIf (c : Bool) (e : PyErr) : Except PyErr Unit := if c then .error e else .ok ()

/-- `_delete_subgroup_parameters_from_a_dictionary`, `sdmap.py:35-55` and the same function in `bsd.py:24-44`, `vlsd.py:25-45`, `sdmapstar.py:34-54` -/
def delCounts (d : Dict Nat) : Dict Nat := (((d.del kTp).del kFp).del kTP).del kFP

/-- `x.copy()` and the deletion of the subgroup parameters in the copy, e.g. `bsd.py:102-103`. In an object of another type with a method `copy` the deletion by a text key raises `TypeError`. -/
def copyAndDelete : Obj → Except PyErr (Dict Nat)
  | .dict d => .ok (delCounts d)
  | .copyable _ => .error .typeError
  | _ => .error .attributeError

/-- `quality_measure.get_name() not in optimistic_estimate.optimistic_estimate_of()`, e.g. `bsd.py:83`: `get_name` is called first -/
def notEstimate : Obj → Obj → Except PyErr Bool
  | .measure _ name _, .measure _ _ estimates => .ok (!(estimates.contains name))
  | _, _ => .error .attributeError

/-- the check of the file arguments that the algorithms share, e.g. `sdmap.py:90-91` -/
def checkFile (write path : Obj) : Except PyErr Unit := raiseIf (write.truthy && path.isNone) .valueError

/-- `self._file_path`, e.g. `sdmap.py:104-107` -/
def filePath (write path : Obj) : Obj := if write.truthy then path else .none

/-- exactly one of the two ways to give the thresholds, `sdmap.py:93-94`, `sdmapstar.py:99-100` -/
def oneWay (tp fp n : Obj) : Bool := (!tp.isNone && !fp.isNone && n.isNone) || (tp.isNone && fp.isNone && !n.isNone)

/-- attributes of an `SDMap` (the counters start with 0, `sdmap.py:100-101`, and no file is open, `:108`) -/
structure SDMapObj where
  quality : Obj
  minQuality : Obj
  minTp : Obj
  minFp : Obj
  minN : Obj
  extra : Dict Nat
  path : Obj
  deriving DecidableEq

/-- `SDMap.__init__`, `sdmap.py:72-110` -/
def sdmapInit (quality minQuality minTp minFp minN extra write path : Obj) : Except PyErr SDMapObj := do
  raiseIf (!quality.isMeasure) .typeError
  raiseIf (!minQuality.isInt && !minQuality.isFloat) .typeError
  raiseIf (!minTp.isInt && !minTp.isNone) .typeError
  raiseIf (!minFp.isInt && !minFp.isNone) .typeError
  raiseIf (!minN.isInt && !minN.isNone) .typeError
  raiseIf (!extra.isDict) .typeError
  raiseIf (!write.isBool) .typeError
  raiseIf (!path.isStr && !path.isNone) .typeError
  checkFile write path
  raiseIf (!oneWay minTp minFp minN) .inconsistentParameters
  let d ← copyAndDelete extra
  .ok ⟨quality, minQuality, minTp, minFp, minN, d, filePath write path⟩

/-- attributes of an `SDMapStar` (the counters start with 0 and the list of qualities empty, `sdmapstar.py:107-124`) -/
structure SDMapStarObj where
  base : SDMapObj
  estimate : Obj
  extraOE : Dict Nat
  num : Obj
  deriving DecidableEq

/-- `SDMapStar.__init__`, `sdmapstar.py:73-126` -/
def sdmapStarInit (quality estimate minQuality minTp minFp minN extra extraOE write path num : Obj) : Except PyErr SDMapStarObj := do
  raiseIf (!quality.isMeasure) .typeError
  raiseIf (!minQuality.isInt && !minQuality.isFloat) .typeError
  raiseIf (!minTp.isInt && !minTp.isNone) .typeError
  raiseIf (!minFp.isInt && !minFp.isNone) .typeError
  raiseIf (!minN.isInt && !minN.isNone) .typeError
  raiseIf (!extra.isDict) .typeError
  raiseIf (!write.isBool) .typeError
  raiseIf (!num.isInt) .typeError
  raiseIf (!path.isStr && !path.isNone) .typeError
  checkFile write path
  let bad ← notEstimate quality estimate
  raiseIf bad .valueError
  raiseIf (!oneWay minTp minFp minN) .inconsistentParameters
  let d ← copyAndDelete extra
  let dOE ← copyAndDelete extraOE
  .ok ⟨⟨quality, minQuality, minTp, minFp, minN, d, filePath write path⟩, estimate, dOE, num⟩

/-- attributes of a `VLSD` -/
structure VLSDObj where
  quality : Obj
  minQuality : Obj
  estimate : Obj
  minEstimate : Obj
  extra : Dict Nat
  extraOE : Dict Nat
  sort1 : Obj
  sortOther : Obj
  impl : Obj
  path : Obj
  deriving DecidableEq

/-- `VLSD.__init__`, `vlsd.py:89-135` -/
def vlsdInit (quality minQuality estimate minEstimate extra extraOE sort1 sortOther impl write path : Obj) : Except PyErr VLSDObj := do
  raiseIf (!quality.isMeasure) .typeError
  raiseIf (!minQuality.isInt && !minQuality.isFloat) .typeError
  raiseIf (!estimate.isMeasure) .typeError
  let bad ← notEstimate quality estimate
  raiseIf bad .valueError
  raiseIf (!minEstimate.isInt && !minEstimate.isFloat) .typeError
  raiseIf (!extra.isDict) .typeError
  raiseIf (!extraOE.isDict) .typeError
  raiseIf (!sort1.isIn sortCriteria) .valueError
  raiseIf (!sortOther.isIn sortCriteria) .valueError
  raiseIf (!impl.isIn listImplementations) .valueError
  raiseIf (!write.isBool) .typeError
  raiseIf (!path.isStr && !path.isNone) .typeError
  checkFile write path
  let d ← copyAndDelete extra
  let dOE ← copyAndDelete extraOE
  .ok ⟨quality, minQuality, estimate, minEstimate, d, dOE, sort1, sortOther, impl, filePath write path⟩

/-- attributes of a `BSD`, `CBSD` or `CPBSD` -/
structure BSDObj where
  minSupport : Obj
  quality : Obj
  estimate : Obj
  num : Obj
  maxDepth : Obj
  extra : Dict Nat
  extraOE : Dict Nat
  path : Obj
  deriving DecidableEq

/-- `BSD.__init__`, `bsd.py:62-109` (inherited by `CBSD` and `CPBSD`) -/
def bsdInit (minSupport quality estimate num maxDepth extra extraOE write path : Obj) : Except PyErr BSDObj := do
  raiseIf (!quality.isMeasure) .typeError
  raiseIf (!num.isInt) .typeError
  raiseIf (!maxDepth.isInt) .typeError
  raiseIf (!minSupport.isInt && !minSupport.isFloat) .typeError
  raiseIf (!extra.isDict) .typeError
  raiseIf (!write.isBool) .typeError
  raiseIf (!path.isStr && !path.isNone) .typeError
  checkFile write path
  let bad ← notEstimate quality estimate
  raiseIf bad .valueError
  let d ← copyAndDelete extra
  let dOE ← copyAndDelete extraOE
  .ok ⟨minSupport, quality, estimate, num, maxDepth, d, dOE, filePath write path⟩

/-- attributes of an `IDSD` -/
structure IDSDObj where
  num : Obj
  cats : Obj
  maxComplexity : Obj
  coverage : Obj
  oddsRatio : Obj
  pValue : Obj
  absContribution : Obj
  contribution : Obj
  path : Obj
  deriving DecidableEq

/-- `IDSD.__init__`, `idsd.py:49-119` -/
def idsdInit (num cats maxC cov orT pT absT ratioT write path : Obj) : Except PyErr IDSDObj := do
  raiseIf (!num.isInt) .typeError
  raiseIf (!cats.isInt) .typeError
  raiseIf (!maxC.isInt) .typeError
  raiseIf (!cov.isFloat && !cov.isInt) .typeError
  raiseIf (!orT.isFloat && !orT.isInt) .typeError
  raiseIf (!pT.isFloat && !pT.isInt) .typeError
  raiseIf (!absT.isFloat && !absT.isInt) .typeError
  raiseIf (!ratioT.isFloat && !ratioT.isInt) .typeError
  raiseIf (!write.isBool) .typeError
  raiseIf (!path.isNone && !path.isStr) .typeError
  raiseIf (num.lt 1) .valueError
  raiseIf (cats.lt (-1) || cats.eqNum 0) .valueError
  raiseIf (cov.lt 0 || cov.gt 1) .valueError
  raiseIf (orT.lt 0) .valueError
  raiseIf (pT.lt 0 || pT.gt 1) .valueError
  raiseIf (absT.lt 0) .valueError
  raiseIf (ratioT.lt 0) .valueError
  checkFile write path
  .ok ⟨num, cats, maxC, cov, orT, pT, absT, ratioT, filePath write path⟩

/-- attributes of a `QFinder` -/
structure QFinderObj where
  num : Obj
  cats : Obj
  maxComplexity : Obj
  delta : Obj
  coverage : Obj
  oddsRatio : Obj
  pValue : Obj
  absContribution : Obj
  contribution : Obj
  path : Obj
  deriving DecidableEq

/-- `QFinder.__init__`, `qfinder.py:54-110`: the types of `write_results_in_file` and `file_path` are not checked -/
def qfinderInit (num cats maxC cov orT pT absT ratioT delta write path : Obj) : Except PyErr QFinderObj := do
  raiseIf (!num.isInt) .typeError
  raiseIf (!cats.isInt) .typeError
  raiseIf (!maxC.isInt) .typeError
  raiseIf (!cov.isFloat && !cov.isInt) .typeError
  raiseIf (!orT.isFloat && !orT.isInt) .typeError
  raiseIf (!pT.isFloat && !pT.isInt) .typeError
  raiseIf (!absT.isFloat && !absT.isInt) .typeError
  raiseIf (!ratioT.isFloat && !ratioT.isInt) .typeError
  raiseIf (!delta.isFloat && !delta.isInt) .typeError
  raiseIf (cats.lt (-1)) .valueError
  raiseIf (cov.lt 0 || cov.gt 1) .valueError
  raiseIf (orT.lt 0) .valueError
  raiseIf (pT.lt 0 || pT.gt 1) .valueError
  raiseIf (absT.lt 0) .valueError
  raiseIf (ratioT.lt 0) .valueError
  checkFile write path
  .ok ⟨num, cats, maxC, delta, cov, orT, pT, absT, ratioT, filePath write path⟩

/-- attributes of an `SDIGA` -/
structure SDIGAObj where
  maxGeneration : Obj
  populationSize : Obj
  crossover : Obj
  mutation : Obj
  supportWeight : Obj
  confidenceWeight : Obj
  minConfidence : Obj
  path : Obj
  deriving DecidableEq

/-- `SDIGA.__init__`, `sdiga.py:186-242` -/
def sdigaInit (maxGen popSize crossover mutation confW supW minConf write path : Obj) : Except PyErr SDIGAObj := do
  raiseIf (!maxGen.isInt) .typeError
  raiseIf (!popSize.isInt) .typeError
  raiseIf (!crossover.isFloat) .typeError
  raiseIf (!mutation.isFloat) .typeError
  raiseIf (!supW.isFloat) .typeError
  raiseIf (!confW.isFloat) .typeError
  raiseIf (!minConf.isFloat) .typeError
  raiseIf (!write.isBool) .typeError
  raiseIf (!path.isStr && !path.isNone) .typeError
  checkFile write path
  raiseIf (maxGen.le 0) .valueError
  raiseIf (popSize.le 0) .valueError
  raiseIf (crossover.le 0 || crossover.ge 1) .valueError
  raiseIf (mutation.le 0 || mutation.ge 1) .valueError
  raiseIf (supW.lt 0) .valueError
  raiseIf (confW.lt 0) .valueError
  raiseIf (minConf.lt 0) .valueError
  .ok ⟨maxGen, popSize, crossover, mutation, supW, confW, minConf, filePath write path⟩

/-- attributes of a `GMSL` -/
structure GMSLObj where
  input : Obj
  maxSl : Obj
  beta : Obj
  output : Obj
  deriving DecidableEq

/-- `GMSL.__init__`, `gmsl.py:42-59` -/
def gmslInit (input maxSl beta output : Obj) : Except PyErr GMSLObj := do
  raiseIf (!input.isStr) .typeError
  raiseIf (!maxSl.isInt) .typeError
  raiseIf (maxSl.le 0) .valueError
  raiseIf (!beta.isInt && !beta.isFloat) .typeError
  raiseIf (beta.lt 0 || beta.gt 1) .valueError
  raiseIf (!output.isStr) .typeError
  .ok ⟨input, maxSl, beta, output⟩

/-- `PSLD.__init__`, `psld.py:31-37` -/
def psldInit (input maxSl size beta output : Obj) : Except PyErr (GMSLObj × Obj) := do
  raiseIf (!size.isInt) .typeError
  raiseIf (size.le 0) .valueError
  let o ← gmslInit input maxSl beta output
  .ok (o, size)

/-- `DSLM.__init__`, `dslm.py:31-38` -/
def dslmInit (input maxSl size beta maxPos maxNeg output : Obj) : Except PyErr ((GMSLObj × Obj) × Obj × Obj) := do
  raiseIf (!maxPos.isFloat) .typeError
  raiseIf (!maxNeg.isFloat) .typeError
  let o ← psldInit input maxSl size beta output
  .ok (o, maxPos, maxNeg)

end Ctors
end Verif
