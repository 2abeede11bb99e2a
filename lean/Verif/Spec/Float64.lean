import Mathlib.Data.Rat.Cast.Defs
import Mathlib.Algebra.Order.Ring.Rat
import Mathlib.Algebra.Order.Field.Power
import Mathlib.Data.Rat.Floor
/-! Binary floating-point numbers with 53 digits, and what it means to round a number to the nearest one, ties to even
(IEEE 754-2019, 4.3.1), for an unlimited range of exponents. -/
namespace Verif.Spec

/-- a number with at most 53 binary digits -/
def IsFloat (f : Rat) : Prop := ∃ m e : Int, |m| < 2 ^ 53 ∧ f = m * (2 : Rat) ^ e

/-- a number whose 53-digit mantissa is even -/
def EvenMantissa (f : Rat) : Prop := ∃ m e : Int, 2 ^ 52 ≤ |m| ∧ |m| < 2 ^ 53 ∧ m % 2 = 0 ∧ f = m * (2 : Rat) ^ e

/-- `f` is the float nearest to `q`; when another one is equally near, `f` is the one with the even mantissa -/
structure IsRounding (q f : Rat) : Prop where
  float : IsFloat f
  nearest : ∀ g, IsFloat g → |f - q| ≤ |g - q|
  tie : ∀ g, IsFloat g → g ≠ f → |f - q| = |g - q| → EvenMantissa f

end Verif.Spec
