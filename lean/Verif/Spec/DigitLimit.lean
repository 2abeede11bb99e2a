import Verif.Spec.Literal
import Verif.Model.DigitLimit
/-! Specification vocabulary for the limit on digits. -/
namespace Verif.Spec

/-- `t` is an integer literal with `k` digits for `z` (`IntText` with the number of digits) -/
def IntDigits (t : Str) (z : Int) (k : Nat) : Prop :=
  ∃ u, List.Forall₂ CountsAs t u ∧ ∃ (before sign digits after : Str) (σ : Int) (n : Nat), Blanks before ∧ Blanks after ∧ Sign sign σ ∧ Digits digits n k ∧
    u = before ++ sign ++ digits ++ after ∧ z = σ * n

/-- `x` is the text of an attribute name without blanks, an operator and an unquoted integer literal with more than `limit` digits -/
def TooLong (limit : Nat) (x a : Str) (op : Op) (t : Str) : Prop :=
  ' ' ∉ a ∧ x = a ++ c!" " ++ op.str ++ c!" " ++ t ∧ limit ≠ 0 ∧ ∃ z k, IntDigits t z k ∧ limit < k

end Verif.Spec
