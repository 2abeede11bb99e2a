import Verif.Model.Credibility
/-! Specification vocabulary for the credibility measures. -/
namespace Verif.Spec

/-- the number is the odds ratio `tp * (FP - fp) : fp * (TP - tp)` of the contingency table; infinite when only the second
product is zero -/
def IsOddsRatio (v : XF) (tp fp TP FP : Rat) : Prop :=
  (fp * (TP - tp) ≠ 0 → ∃ q, v = .fin q ∧ q * (fp * (TP - tp)) = tp * (FP - fp)) ∧
  (fp * (TP - tp) = 0 → v = .inf)

/-- order of the extended numbers without `nan` -/
inductive Le : XF → XF → Prop
  | fin {a b : Rat} : a ≤ b → Le (.fin a) (.fin b)
  | ninf {b : XF} : b ≠ .nan → Le .ninf b
  | inf {a : XF} : a ≠ .nan → Le a .inf

end Verif.Spec
