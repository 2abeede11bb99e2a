import Mathlib.Data.Nat.Find
import Verif.Spec.Nominal
import Verif.Spec.IDSD
import Verif.Model.QFinder
/-! Specification vocabulary for QFinder. -/
namespace Verif.Spec

/-- criterion `r` (counted from 1) holds and all criteria before it hold, the fourth excepted -/
def ReachesCriterion (l : List Bool) (r : Nat) : Prop := 0 < r ∧ l[r - 1]? = some true ∧ ∀ i, i + 1 < r → i ≠ 3 → l[i]? = some true

/-- the rank of a list of criteria: the greatest number of a criterion that is reached; 0 if there is none -/
def IsRank (l : List Bool) (r : Nat) : Prop := (r = 0 ∨ ReachesCriterion l r) ∧ ∀ r', ReachesCriterion l r' → r' ≤ r

/-- the six criteria: coverage, odds ratio, p-value, absolute contribution, contribution ratio and adjusted p-value against their thresholds -/
def qfCriteria (cfg : QFConfig) (c : QFCred) : List Bool :=
  [(XF.fin cfg.covT).le c.cov, (XF.fin cfg.orT).le c.odds, c.pval.le (.fin cfg.pT), (XF.fin cfg.absT).le c.absC, c.ratioC.le (.fin cfg.ratioT), c.adjP.le (.fin cfg.pT)]

open Classical in
/-- the rank of a pattern with these credibility values -/
noncomputable def qfRank (cfg : QFConfig) (c : QFCred) : Nat := Nat.findGreatest (ReachesCriterion (qfCriteria cfg c)) 6

/-- `a` describes with some of the selectors of `b` -/
def Generalises (a b : QFEntry) : Prop := a.pat.len < b.pat.len ∧ ∀ s ∈ a.pat.sels, s ∈ b.pat.sels

/-- the odds ratio of `b` is greater than that of `a` by more than `delta` -/
def Exceeds (cfg : QFConfig) (b a : QFEntry) : Prop := b.cred.odds.le (a.cred.odds.addFin cfg.delta) = false

/-- why a candidate may be absent from the result: a candidate with fewer of its selectors has an odds ratio that it does not exceed; or one with more selectors exceeds its
odds ratio and has a lower p-value; or `num_subgroups` other candidates have p-values not above its own, or not above that of a candidate with the same number of selectors and
a higher rank -/
def AbsenceReason (cfg : QFConfig) (E : List QFEntry) (c : QFEntry) : Prop :=
  (∃ a ∈ E, Generalises a c ∧ ¬ Exceeds cfg c a) ∨
  (∃ b ∈ E, Generalises c b ∧ Exceeds cfg b c ∧ b.cred.pval.lt c.cred.pval = true) ∨
  (∃ d ∈ E, d.pat.len = c.pat.len ∧ (d = c ∨ qfRank cfg c.cred < qfRank cfg d.cred) ∧
    ∃ T : List QFEntry, T.Nodup ∧ (∀ t ∈ T, t ∈ E ∧ t.cred.pval.le d.cred.pval = true) ∧ c ∉ T ∧ (T.length : Int) = cfg.num)

/-- order of the result: fewer selectors first, then higher rank, then lower p-value -/
def QFBefore (cfg : QFConfig) (a b : QFEntry) : Prop :=
  let r := fun e : QFEntry => qfRank cfg e.cred
  a.pat.len < b.pat.len ∨ (a.pat.len = b.pat.len ∧ (r b < r a ∨ (r b = r a ∧ a.cred.pval.le b.cred.pval = true)))

/-- why `a` may stay in the result `top` together with a refinement `b` of greater odds ratio and lower p-value, that should replace it: `b` has replaced a pattern before `a` -/
def StayReason (cfg : QFConfig) (E top : List QFEntry) (b a : QFEntry) : Prop :=
  ∃ d ∈ E, d ∉ top ∧ QFBefore cfg d a ∧ Generalises d b ∧ Exceeds cfg b d ∧ b.cred.pval.lt d.cred.pval = true

/-- the printed forms of the selectors of the data can be told apart and read back: no blank in the name of an attribute, and the separator of the selectors of a pattern
does not appear -/
def SafeTexts (df : Frame) (target : Str × Str) : Prop :=
  ∀ s, Describes target [s] → OccursIn df [s] → ' ' ∉ s.attr ∧ ¬ Occurs c!", " s.str

section
open Classical

/-- one bit per row: is the row covered? -/
noncomputable def rowBits (df : Frame) (X : List Selector) : Bits := (List.range df.nrows).map (fun i => decide (Covers df X i))

/-- odds ratio and p-value of the regression of the target on the rows covered by a set of selectors -/
noncomputable def glmOddsOf (cfg : QFConfig) (df : Frame) (target : Str × Str) (X : List Selector) : XF :=
  cfg.glmOr (rowBits df X) (rowBits df [targetSel target])
noncomputable def glmPOf (cfg : QFConfig) (df : Frame) (target : Str × Str) (X : List Selector) : XF :=
  cfg.glmP (rowBits df X) (rowBits df [targetSel target])

/-- absolute contribution and contribution ratio of a pattern (the measure of C48, with the odds ratios of the regressions) -/
noncomputable def glmContribOf (cfg : QFConfig) (df : Frame) (target : Str × Str) (p : Pattern) : XF × XF :=
  match SelectorContribution.compute (fun q => .ok (glmOddsOf cfg df target q.sels)) none p with
  | .ok r => r
  | .error _ => (.nan, .nan)

/-- Bonferroni's correction: the number of patterns times the p-value (an infinite or undefined one stays) -/
def bonferroni (n : Nat) : XF → XF
  | .fin q => .fin ((n : Rat) * q)
  | .inf => .inf
  | .ninf => .ninf
  | .nan => .nan

/-- a pattern with its credibility values; the adjusted p-value is the p-value times the number `n` of patterns -/
noncomputable def qfEntryOf (cfg : QFConfig) (df : Frame) (target : Str × Str) (n : Nat) (p : Pattern) : QFEntry :=
  ⟨p, .fin (covOf df target p.sels), glmOddsOf cfg df target p.sels, glmPOf cfg df target p.sels, (glmContribOf cfg df target p).1, (glmContribOf cfg df target p).2,
    bonferroni n (glmPOf cfg df target p.sels)⟩

end

/-- the values of a column for which QFinder makes selectors, with a limit of `cats` values: all of them if they are at most `cats` (or there is no limit), otherwise
`cats - 1` values that are at least as frequent as the others -/
def QFKept (cats : Int) (col : List Val) (K : List Val) : Prop :=
  let distinct := col.dedup.length
  if (distinct : Int) ≤ cats ∨ cats = -1 then ∀ v, v ∈ K ↔ v ∈ col
  else K.Nodup ∧ K.length = (cats - 1).toNat ∧ (∀ v ∈ K, v ∈ col) ∧ ∀ v ∈ K, ∀ w ∈ col, w ∉ K → col.count w ≤ col.count v

/-- the greatest number of selectors of a candidate: `max_complexity` (at least 1), or the number of attributes other than the target -/
def qfMaxSelectors (cfg : QFConfig) (df : Frame) : Nat := max 1 (if cfg.maxC = -1 then df.cols.length - 1 else cfg.maxC.toNat)

end Verif.Spec
