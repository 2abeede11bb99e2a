import Verif.Spec.SDIGA
import Verif.Model.FloatSDIGA
/-! Specification vocabulary for SDIGA with rounding. -/
namespace Verif.Spec

/-- what the results of SDIGA need of the rounding of numbers: it keeps the order and 0, and the rounded difference of two different rounded numbers is not 0 -/
structure Rounds (ρ : Rat → Rat) : Prop where
  mono : ∀ {x y : Rat}, x ≤ y → ρ x ≤ ρ y
  zero : ρ 0 = 0
  diff : ∀ {x y : Rat}, ρ x < ρ y → 0 < ρ (ρ y - ρ x)

/-- the fitness as it is calculated: every quotient, product and sum is rounded -/
noncomputable def fitRounded (ρ : Rat → Rat) (cfg : SDIGAConfig) (df : Frame) (target : Str × Str) (l : List Pattern) (X : List Selector) : Rat :=
  ρ (ρ (ρ (cfg.supW * ρ ((freshTp df target l X : Rat) / ((freshTp df target l [] : Rat) + (freshFp df target l [] : Rat))))
    + ρ (cfg.confW * ρ (confOf df target X))) / ρ (cfg.supW + cfg.confW))

/-- the line of the result file for the pattern `p` found after the patterns `l`, with the fitness as it was calculated -/
def LineRounded (ρ : Rat → Rat) (cfg : SDIGAConfig) (df : Frame) (target : Str × Str) (l : List Pattern) (p : Pattern) (x : SDIGALine) : Prop :=
  x.fitness = fitRounded ρ cfg df target l p.sels ∧ LineOK cfg df target l p { x with fitness := fitOf cfg df target l p.sels }

end Verif.Spec
