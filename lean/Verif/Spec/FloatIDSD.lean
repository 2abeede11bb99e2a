import Verif.Spec.IDSD
import Verif.Model.FloatIDSD
/-! Specification vocabulary for IDSD with rounding. -/
namespace Verif.Spec
open Classical

/-- what the results of IDSD on `n` rows need of the rounding of numbers: it keeps the order and 0, and does not round the share of one row to 0 -/
class RoundsFor (ρ : Rat → Rat) (n : Nat) : Prop where
  mono : ∀ {x y : Rat}, x ≤ y → ρ x ≤ ρ y
  zero : ρ 0 = 0
  pos : 0 < ρ (1 / (n : Rat))

/-- the odds ratio of the counts as it is calculated, by three quotients that are rounded -/
def oddsRounded (ρ : Rat → Rat) (tp fp TP FP : Rat) : Rat := ρ (ρ (tp / fp) / ρ ((TP - tp) / (FP - fp)))

/-- the calculated odds ratio of the rows covered by a set of selectors: 0 when all the rows, no row or all the rows without the target are covered, infinite when (otherwise) all the
rows with the target or only such rows are covered -/
noncomputable def computedOdds (ρ : Rat → Rat) (df : Frame) (target : Str × Str) (X : List Selector) : XF :=
  if tpOf df target X = tpOf df target [] ∧ fpOf df target X = fpOf df target [] then .fin 0
  else if tpOf df target X = tpOf df target [] then .inf
  else if fpOf df target X = fpOf df target [] then .fin 0
  else if tpOf df target X = 0 ∧ fpOf df target X = 0 then .fin 0
  else if fpOf df target X = 0 then .inf
  else .fin (oddsRounded ρ (tpOf df target X) (fpOf df target X) (tpOf df target []) (fpOf df target []))

/-- the calculated share of the rows that are covered -/
noncomputable def computedCov (ρ : Rat → Rat) (df : Frame) (target : Str × Str) (X : List Selector) : Rat := ρ (covOf df target X)

/-- the calculated absolute contribution and contribution ratio of a pattern (see `C109_contribution`) -/
noncomputable def computedContrib (ρ : Rat → Rat) (df : Frame) (target : Str × Str) (p : Pattern) : XF × XF :=
  match IDSDRounded.compute ρ (fun q => .ok (computedOdds ρ df target q.sels)) p with
  | .ok r => r
  | .error _ => (.nan, .nan)

/-- the five credibility criteria of a pattern with the calculated values -/
noncomputable def computedCriteria (ρ : Rat → Rat) (cfg : IDSDConfig) (df : Frame) (target : Str × Str) (p : Pattern) : List Prop :=
  [cfg.covT ≤ computedCov ρ df target p.sels, (XF.fin cfg.orT).le (computedOdds ρ df target p.sels) = true, (pvalOf cfg df target p.sels).le (.fin cfg.pT) = true,
    (XF.fin cfg.absT).le (computedContrib ρ df target p).1 = true, (computedContrib ρ df target p).2.le (.fin cfg.ratioT) = true]

/-- the rank of a pattern with the calculated values: the number of criteria met before the first one that is not -/
noncomputable def computedRank (ρ : Rat → Rat) (cfg : IDSDConfig) (df : Frame) (target : Str × Str) (p : Pattern) : Nat :=
  ((computedCriteria ρ cfg df target p).takeWhile (fun c => decide c)).length

/-- the calculated values that are reported -/
noncomputable def computedCred (ρ : Rat → Rat) (cfg : IDSDConfig) (df : Frame) (target : Str × Str) (p : Pattern) : IDSDCred :=
  let r := computedRank ρ cfg df target p
  ⟨.fin (computedCov ρ df target p.sels), if 1 ≤ r then computedOdds ρ df target p.sels else .ninf, if 2 ≤ r then pvalOf cfg df target p.sels else .inf,
    if 3 ≤ r then (computedContrib ρ df target p).1 else .ninf, if 3 ≤ r then (computedContrib ρ df target p).2 else .inf⟩

/-- the entry of a pattern with the calculated values -/
noncomputable def computedEntry (ρ : Rat → Rat) (cfg : IDSDConfig) (df : Frame) (target : Str × Str) (p : Pattern) : IDSDEntry :=
  ⟨p, computedRank ρ cfg df target p, (computedCred ρ cfg df target p).odds, computedCred ρ cfg df target p⟩

/-- the object after `fit`s that follow one another -/
def idsdHistoryRounded (ρ : Rat → Rat) (cfg : IDSDConfig) (h : List (Frame × (Str × Str))) (st : IDSDState) : IDSDState :=
  h.foldl (fun st c => match IDSDRounded.fit ρ cfg st c.1 c.2 with | .ok st' => st' | .error _ => st) st

/-- a number rounded by `ρ`; infinities and `nan` are kept -/
def roundX (ρ : Rat → Rat) : XF → XF
  | .fin x => .fin (ρ x)
  | x => x

/-- `r` is the calculated ratio of the greatest contribution `m` to the least one `a`: infinite when the least is 0, and 1 when both are infinite -/
def IsComputedRatio (ρ : Rat → Rat) (m a r : XF) : Prop :=
  (a = .fin 0 → r = .inf) ∧ (a = .inf → r = .fin 1) ∧
  (∀ x y : Rat, a = .fin x → x ≠ 0 → m = .fin y → r = .fin (ρ (y / x))) ∧
  (∀ x : Rat, a = .fin x → 0 < x → m = .inf → r = .inf) ∧
  (∀ x : Rat, a = .fin x → x < 0 → m = .inf → r = .ninf) ∧
  (a = .ninf → r = .fin 0 ∨ r = .nan)

end Verif.Spec
