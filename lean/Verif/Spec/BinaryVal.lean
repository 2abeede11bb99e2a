import Mathlib.Data.Nat.Digits.Defs
import Verif.Model.BinaryVal
import Verif.Spec.Binary64
/-! What `repr` of a float prints. -/
namespace Verif.Spec

/-- number of significant decimal digits -/
def sigDigits (f : Flt) : Nat := (Nat.digits 10 f.m.natAbs).length

/-- `repr` prints a decimal number that is read back as the same float, with as few digits as possible (Python's documentation of `float.__repr__`).
Nothing is said about which one of several equally short ones. -/
structure ShortestRepr (repr : Rat → Flt) : Prop where
  back : ∀ b, IsFloat64 b → Binary64.round (repr b).toRat = .fin b
  short : ∀ b f, IsFloat64 b → Binary64.round f.toRat = .fin b → sigDigits (repr b) ≤ sigDigits f

/-- floats are floats, and integers are less than `2^53` in absolute value -/
def Ordinary : BVal → Prop
  | .str _ => True
  | .int z => |z| < 2 ^ 53
  | .flt b => IsFloat64 b

end Verif.Spec
