import Verif.Spec.Nominal
import Verif.Spec.Credibility
import Verif.Model.IDSD
/-! Specification vocabulary for IDSD: credibility of a pattern, from the rows of the data. -/
namespace Verif.Spec
open Classical

/-- odds ratio of the rows covered by a set of selectors (the measure of C47) -/
noncomputable def oddsOf (df : Frame) (target : Str × Str) (X : List Selector) : XF :=
  OddsRatioStatistic.ofCounts (tpOf df target X) (fpOf df target X) (tpOf df target []) (fpOf df target [])

/-- share of the rows that are covered -/
noncomputable def covOf (df : Frame) (target : Str × Str) (X : List Selector) : Rat :=
  ((tpOf df target X + fpOf df target X : Nat) : Rat) / df.nrows

/-- p-value of the rows covered by a set of selectors -/
noncomputable def pvalOf (cfg : IDSDConfig) (df : Frame) (target : Str × Str) (X : List Selector) : XF :=
  cfg.pv (tpOf df target X) (fpOf df target X) (tpOf df target []) (fpOf df target [])

/-- absolute contribution and contribution ratio of a pattern (the measure of C48, with the odds ratios of the rows) -/
noncomputable def contribOf (df : Frame) (target : Str × Str) (p : Pattern) : XF × XF :=
  match SelectorContribution.compute (fun q => .ok (oddsOf df target q.sels)) none p with
  | .ok r => r
  | .error _ => (.nan, .nan)

/-- the five credibility criteria of a pattern, in order: coverage, odds ratio, p-value, absolute contribution, contribution ratio -/
noncomputable def criteriaOf (cfg : IDSDConfig) (df : Frame) (target : Str × Str) (p : Pattern) : List Prop :=
  [cfg.covT ≤ covOf df target p.sels, (XF.fin cfg.orT).le (oddsOf df target p.sels) = true, (pvalOf cfg df target p.sels).le (.fin cfg.pT) = true,
    (XF.fin cfg.absT).le (contribOf df target p).1 = true, (contribOf df target p).2.le (.fin cfg.ratioT) = true]

/-- credibility rank of a pattern: the number of criteria met before the first one that is not -/
noncomputable def rankOf (cfg : IDSDConfig) (df : Frame) (target : Str × Str) (p : Pattern) : Nat :=
  ((criteriaOf cfg df target p).takeWhile (fun c => decide c)).length

/-- the credibility values that are reported: a value that is not needed for the rank is the worst possible one -/
noncomputable def credOf (cfg : IDSDConfig) (df : Frame) (target : Str × Str) (p : Pattern) : IDSDCred :=
  let r := rankOf cfg df target p
  ⟨.fin (covOf df target p.sels), if 1 ≤ r then oddsOf df target p.sels else .ninf, if 2 ≤ r then pvalOf cfg df target p.sels else .inf,
    if 3 ≤ r then (contribOf df target p).1 else .ninf, if 3 ≤ r then (contribOf df target p).2 else .inf⟩

/-- the entry of a pattern in the list of the best subgroups -/
noncomputable def entryOf (cfg : IDSDConfig) (df : Frame) (target : Str × Str) (p : Pattern) : IDSDEntry :=
  ⟨p, rankOf cfg df target p, (credOf cfg df target p).odds, credOf cfg df target p⟩

/-- `a` is not better than `b`: a lower rank, or the same rank and an odds ratio that is not higher -/
def NotBetter (a b : IDSDEntry) : Prop := a.rank < b.rank ∨ (a.rank = b.rank ∧ Le a.odds b.odds)

/-- the data that are searched: those given, with the less frequent values of each attribute grouped (see C58) -/
abbrev searched (cfg : IDSDConfig) (df : Frame) (target : Str × Str) : Frame := IDSD.reduceCategories cfg.ties cfg.cats df target.1

/-- the greatest number of selectors of a description: `max_complexity`, or the number of attributes other than the target -/
def maxSelectors (cfg : IDSDConfig) (df : Frame) : Nat := if cfg.maxC = -1 then df.cols.length - 1 else cfg.maxC.toNat

/-- the object after `fit`s that follow one another -/
def idsdHistory (cfg : IDSDConfig) (h : List (Frame × (Str × Str))) (st : IDSDState) : IDSDState :=
  h.foldl (fun st c => match IDSD.fit cfg st c.1 c.2 with | .ok st' => st' | .error _ => st) st

end Verif.Spec
