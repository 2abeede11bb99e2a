import Verif.Model.BSD
import Verif.Model.SDMapStar
import Verif.Model.VLSD
import Verif.Props.QualityReal
/-! C52 and C57: what the constructors of the algorithms keep of their arguments. -/
namespace Verif
open Spec

theorem counts_of_deleted (d : Params) (tp fp TP FP : Rat) : HasCounts (paramsFor tp fp TP FP (deleteSubgroupParameters d)) tp fp TP FP := by
  have key : ∀ k, k = kTp ∨ k = kFp ∨ k = kTP ∨ k = kFP → (deleteSubgroupParameters d).lookup k = none := by
    intro k hk
    simp only [deleteSubgroupParameters, lookup_del]
    rcases hk with rfl | rfl | rfl | rfl <;> simp
  unfold HasCounts paramsFor
  rw [lookup_update _ _ _ (key _ (by simp)), lookup_update _ _ _ (key _ (by simp)), lookup_update _ _ _ (key _ (by simp)),
    lookup_update _ _ _ (key _ (by simp))]
  exact ⟨rfl, rfl, rfl, rfl⟩

/-- C52 for the constructors of the algorithms: whatever dictionaries the user gives, the parameters with which an SDMap, SDMapStar, VLSD, BSD,
CBSD or CPBSD object calls its measure and its estimate hold the counts of the subgroup. -/
theorem C52_constructors (measure estimate : Params → Except PyErr Rat) (minQ minE : Rat) (minTp minFp minN : Option Int) (extra extraOE : Params)
    (num depth : Nat) (s1 s2 : SortCriterion) (v : BSDVariant) (tp fp TP FP : Rat) :
    (∀ cfg, SDMapConfig.new measure minQ minTp minFp minN extra = .ok cfg → HasCounts (paramsFor tp fp TP FP cfg.extra) tp fp TP FP) ∧
    (∀ cfg, SDMapStarConfig.new measure estimate minQ minTp minFp minN extra extraOE num = .ok cfg →
      HasCounts (paramsFor tp fp TP FP cfg.extra) tp fp TP FP ∧ HasCounts (paramsFor tp fp TP FP cfg.extraOE) tp fp TP FP) ∧
    (∀ cfg, VLSDConfig.new measure minQ estimate minE extra extraOE s1 s2 = cfg →
      HasCounts (paramsFor tp fp TP FP cfg.extra) tp fp TP FP ∧ HasCounts (paramsFor tp fp TP FP cfg.extraOE) tp fp TP FP ∧
      ∀ P N : Nat, (cfg.joinParams P N).lookup kTP = some (P : Rat) ∧ (cfg.joinParams P N).lookup kFP = some (N : Rat)) ∧
    (∀ cfg, BSDConfig.new v minQ measure estimate num depth extra extraOE = cfg →
      HasCounts (paramsFor tp fp TP FP cfg.extra) tp fp TP FP ∧ HasCounts (paramsFor tp fp TP FP cfg.extraOE) tp fp TP FP) := by
  have key : ∀ k, k = kTP ∨ k = kFP → (deleteSubgroupParameters extraOE).lookup k = none := by
    intro k hk
    simp only [deleteSubgroupParameters, lookup_del]
    rcases hk with rfl | rfl <;> simp
  refine ⟨?_, ?_, ?_, ?_⟩
  · intro cfg h
    unfold SDMapConfig.new at h
    split at h
    · cases h; exact counts_of_deleted _ _ _ _ _
    · cases h
  · intro cfg h
    unfold SDMapStarConfig.new at h
    split at h
    · cases h; exact ⟨counts_of_deleted _ _ _ _ _, counts_of_deleted _ _ _ _ _⟩
    · cases h
  · rintro cfg rfl
    refine ⟨counts_of_deleted _ _ _ _ _, counts_of_deleted _ _ _ _ _, fun P N => ⟨?_, ?_⟩⟩
    · unfold VLSDConfig.joinParams VLSDConfig.new
      simp only
      rw [lookup_update _ _ _ (key _ (by simp))]; rfl
    · unfold VLSDConfig.joinParams VLSDConfig.new
      simp only
      rw [lookup_update _ _ _ (key _ (by simp))]; rfl
  · rintro cfg rfl
    exact ⟨counts_of_deleted _ _ _ _ _, counts_of_deleted _ _ _ _ _⟩

/-- C57: the constructors accept the thresholds exactly when either `minimum_tp` and `minimum_fp` are given and `minimum_n` is not, or the
other way round; anything else is refused as inconsistent. The thresholds accepted are then those that were given. -/
theorem C57_thresholds (measure estimate : Params → Except PyErr Rat) (minQ : Rat) (minTp minFp minN : Option Int) (extra extraOE : Params) (num : Nat) :
    let accepted := (minTp.isSome ∧ minFp.isSome ∧ minN.isNone) ∨ (minTp.isNone ∧ minFp.isNone ∧ minN.isSome)
    let asGiven := fun th : Thresholds => (∃ a b, minTp = some a ∧ minFp = some b ∧ th = .tpFp a b) ∨ ∃ n, minN = some n ∧ th = .n n
    (accepted → (∃ cfg, SDMapConfig.new measure minQ minTp minFp minN extra = .ok cfg ∧ asGiven cfg.th) ∧
      ∃ cfg, SDMapStarConfig.new measure estimate minQ minTp minFp minN extra extraOE num = .ok cfg ∧ asGiven cfg.th) ∧
    (¬ accepted → SDMapConfig.new measure minQ minTp minFp minN extra = .error .inconsistentParameters ∧
      SDMapStarConfig.new measure estimate minQ minTp minFp minN extra extraOE num = .error .inconsistentParameters) := by
  cases minTp <;> cases minFp <;> cases minN <;> simp [SDMapConfig.new, SDMapStarConfig.new, Thresholds.mk?]

example : (match SDMapConfig.new Quality.wracc 0 (some 1) (some 0) none [(kTp, 7), (c!"g", 2)] with
    | .ok cfg => some (cfg.th, (paramsFor 3 1 4 4 cfg.extra).lookup kTp, (paramsFor 3 1 4 4 cfg.extra).lookup c!"g")
    | .error _ => none) = some (.tpFp 1 0, some 3, some 2) := by decide +kernel

end Verif
