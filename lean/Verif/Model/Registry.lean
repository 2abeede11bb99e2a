import Verif.Model.Quality
import Verif.Model.IDSD
import Verif.Model.QFinder
import Verif.Model.VLSD
/-! Model of what the quality measures declare about themselves (`get_name`, `optimistic_estimate_of` in `src/subgroups/quality_measures/*.py`) and of the checks of values in the
constructors that depend on it. -/
namespace Verif

/-- the 18 quality measures: those with rational values and the two with square roots. Each class has one instance (`__new__`, e.g. `wracc.py:22-25`), so that equality is identity. -/
inductive QM
  | rat (m : Measure)
  | binomialTest
  | binomialTestOE1
  deriving DecidableEq

namespace QM

/-- `get_name()`: `support.py:46-49`, `coverage.py:49-52`, `wracc.py:49-52`, `absolute_wracc.py:35-38`, `ppv.py:43-46`, `npv.py:49-52`, `sensitivity.py:43-46`, `specificity.py:43-46`, `f1_score.py:46-49`, `irr.py:46-49`,
`youden.py:49-52`, `qg.py:47-50`, `piatetsky_shapiro.py:49-52`, `piatetsky_shapiro_optimistic_estimate_1.py:50-53`, `piatetsky_shapiro_optimistic_estimate_2.py:47-50`,
`wracc_optimistic_estimate_1.py:50-53`, `binomial_test.py:54-57`, `binomial_test_optimistic_estimate_1.py:48-51` -/
def name : QM → Str
  | .rat .support => c!"Support" | .rat .coverage => c!"Coverage" | .rat .wracc => c!"WRAcc" | .rat .absoluteWracc => c!"AbsoluteWRAcc"
  | .rat .ppv => c!"PPV" | .rat .npv => c!"NPV" | .rat .sensitivity => c!"Sensitivity" | .rat .specificity => c!"Specificity"
  | .rat .f1 => c!"F1Score" | .rat .irr => c!"IRR" | .rat .youden => c!"Youden" | .rat .qg => c!"Qg"
  | .rat .piatetskyShapiro => c!"PiatetskyShapiro" | .rat .psOE1 => c!"PiatetskyShapiroOptimisticEstimate1"
  | .rat .psOE2 => c!"PiatetskyShapiroOptimisticEstimate2" | .rat .wraccOE1 => c!"WRAccOptimisticEstimate1"
  | .binomialTest => c!"BinomialTest" | .binomialTestOE1 => c!"BinomialTestOptimisticEstimate1"

/-- `optimistic_estimate_of()`: a dictionary name -> instance. `wracc_optimistic_estimate_1.py:55-60`, `piatetsky_shapiro_optimistic_estimate_1.py:55-60`, `piatetsky_shapiro_optimistic_estimate_2.py:52-57`,
`binomial_test_optimistic_estimate_1.py:53-58`; empty for the others: `support.py:51-56`, `coverage.py:54-59`, `wracc.py:54-59`, `absolute_wracc.py:40-45`, `ppv.py:48-53`, `npv.py:54-59`,
`sensitivity.py:48-53`, `specificity.py:48-53`, `f1_score.py:51-56`, `irr.py:51-56`, `youden.py:54-59`, `qg.py:52-57`, `piatetsky_shapiro.py:54-59`, `binomial_test.py:59-64` -/
def estimateOf : QM → Dict QM
  | .rat .wraccOE1 => [((rat .wracc).name, .rat .wracc)]
  | .rat .psOE1 => [((rat .piatetskyShapiro).name, .rat .piatetskyShapiro)]
  | .rat .psOE2 => [((rat .piatetskyShapiro).name, .rat .piatetskyShapiro)]
  | .binomialTestOE1 => [(binomialTest.name, .binomialTest)]
  | _ => []

end QM

/-- the check of the pair in the constructors, `bsd.py:83-84`, `vlsd.py:96-97`, `sdmapstar.py:96-97` -/
def checkEstimate (quality estimate : QM) : Except PyErr Unit :=
  if !(estimate.estimateOf.has quality.name) then .error .valueError else .ok ()

/-- the check of the path, `bsd.py:80-81`, `vlsd.py:115-116`, `sdmapstar.py:93-94` (and in `sdmap.py`, `idsd.py`, `qfinder.py`, `sdiga.py`) -/
def checkPath (write : Bool) (path : Option Str) : Except PyErr Unit :=
  if write && path.isNone then .error .valueError else .ok ()

/-- the checks of values of `BSD.__init__` (`CBSD` and `CPBSD` inherit it), `bsd.py:80-84` -/
def bsdChecks (quality estimate : QM) (write : Bool) (path : Option Str) : Except PyErr Unit := do
  checkPath write path
  checkEstimate quality estimate

/-- the checks of values of `SDMapStar.__init__`, `sdmapstar.py:93-101` -/
def sdmapStarChecks (quality estimate : QM) (minTp minFp minN : Option Int) (write : Bool) (path : Option Str) : Except PyErr Unit := do
  checkPath write path
  checkEstimate quality estimate
  let _ ← Thresholds.mk? minTp minFp minN
  pure ()

/-- `VLSD.SORT_CRITERION`, `VLSD.VERTICAL_LISTS_IMPLEMENTATION`, `vlsd.py:77-84` -/
def sortCriteria : List Str := [c!"quality-ascending", c!"quality-descending", c!"no-order"]
def listImplementations : List Str := [c!"bitsets", c!"sets"]

/-- the checks of values of `VLSD.__init__`, `vlsd.py:96-116` -/
def vlsdChecks (quality estimate : QM) (sort1 sortOther impl : Str) (write : Bool) (path : Option Str) : Except PyErr Unit := do
  checkEstimate quality estimate
  if !(sortCriteria.contains sort1) then .error .valueError
  if !(sortCriteria.contains sortOther) then .error .valueError
  if !(listImplementations.contains impl) then .error .valueError
  checkPath write path

end Verif
