import Verif.Spec.QFinder
import Verif.Spec.FloatIDSD
import Verif.Model.FloatQFinder
/-! Specification vocabulary for QFinder with rounding. -/
namespace Verif.Spec

/-- the odds ratio of `b` is greater than the calculated sum of that of `a` and `delta` -/
def ExceedsRounded (ρ : Rat → Rat) (cfg : QFConfig) (b a : QFEntry) : Prop := b.cred.odds.le (roundX ρ (a.cred.odds.addFin cfg.delta)) = false

/-- why a candidate may be absent from the result (see `AbsenceReason`), with the calculated sums -/
def AbsenceReasonRounded (ρ : Rat → Rat) (cfg : QFConfig) (E : List QFEntry) (c : QFEntry) : Prop :=
  (∃ a ∈ E, Generalises a c ∧ ¬ ExceedsRounded ρ cfg c a) ∨
  (∃ b ∈ E, Generalises c b ∧ ExceedsRounded ρ cfg b c ∧ b.cred.pval.lt c.cred.pval = true) ∨
  (∃ d ∈ E, d.pat.len = c.pat.len ∧ (d = c ∨ qfRank cfg c.cred < qfRank cfg d.cred) ∧
    ∃ T : List QFEntry, T.Nodup ∧ (∀ t ∈ T, t ∈ E ∧ t.cred.pval.le d.cred.pval = true) ∧ c ∉ T ∧ (T.length : Int) = cfg.num)

/-- why `a` may stay in the result `top` together with a refinement `b` that should replace it (see `StayReason`), with the calculated sums -/
def StayReasonRounded (ρ : Rat → Rat) (cfg : QFConfig) (E top : List QFEntry) (b a : QFEntry) : Prop :=
  ∃ d ∈ E, d ∉ top ∧ QFBefore cfg d a ∧ Generalises d b ∧ ExceedsRounded ρ cfg b d ∧ b.cred.pval.lt d.cred.pval = true

section
open Classical

/-- the calculated absolute contribution and contribution ratio of a pattern, with the odds ratios of the regressions (see `C110_contribution` and `C110_ratio`) -/
noncomputable def computedGlmContrib (ρ : Rat → Rat) (cfg : QFConfig) (df : Frame) (target : Str × Str) (p : Pattern) : XF × XF :=
  match IDSDRounded.compute ρ (fun q => .ok (glmOddsOf cfg df target q.sels)) p with
  | .ok r => r
  | .error _ => (.nan, .nan)

/-- a pattern with its calculated credibility values: the rounded coverage, odds ratio and p-value of the regression, the contributions, and the rounded product of the p-value and the number
`n` of patterns -/
noncomputable def computedQFEntry (ρ : Rat → Rat) (cfg : QFConfig) (df : Frame) (target : Str × Str) (n : Nat) (p : Pattern) : QFEntry :=
  ⟨p, .fin (ρ (covOf df target p.sels)), glmOddsOf cfg df target p.sels, glmPOf cfg df target p.sels, (computedGlmContrib ρ cfg df target p).1, (computedGlmContrib ρ cfg df target p).2,
    roundX ρ (bonferroni n (glmPOf cfg df target p.sels))⟩

end
end Verif.Spec
