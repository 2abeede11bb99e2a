import Verif.Spec.Float64
import Verif.Model.Quality
/-! The floats of IEEE 754 binary64 with their range, and what it means to round a number to the nearest one, ties to even. -/
namespace Verif.Spec

/-- a finite number of the format binary64: `m * 2^e` with an integer `m` of at most 53 binary digits and `-1074 ≤ e ≤ 971` -/
def IsFloat64 (f : Rat) : Prop := ∃ m e : Int, |m| < 2 ^ 53 ∧ -1074 ≤ e ∧ e ≤ 971 ∧ f = m * (2 : Rat) ^ e

/-- a number whose mantissa (of 53 digits, or fewer for a subnormal number) is even -/
def EvenMantissa64 (f : Rat) : Prop := ∃ m e : Int, (2 ^ 52 ≤ |m| ∨ e = -1074) ∧ |m| < 2 ^ 53 ∧ -1074 ≤ e ∧ m % 2 = 0 ∧ f = m * (2 : Rat) ^ e

/-- `f` is the number of the format nearest to `q`; when another one is equally near, `f` is the one with the even mantissa -/
structure IsRounding64 (q f : Rat) : Prop where
  float : IsFloat64 f
  nearest : ∀ g, IsFloat64 g → |f - q| ≤ |g - q|
  tie : ∀ g, IsFloat64 g → g ≠ f → |f - q| = |g - q| → EvenMantissa64 f

/-- every number of the dictionary is an integer of absolute value at most `2^256` -/
def Integers256 (d : Params) : Prop := ∀ k v, d.lookup k = some v → ∃ n : Int, v = n ∧ |n| ≤ 2 ^ 256

end Verif.Spec
