import Verif.Model.Regex
import Mathlib.Data.List.Forall2
/-! The language of a regular expression and the decompositions of a text. -/
namespace Verif.Spec

/-- the text belongs to the language -/
def Lang : Rgx → Str → Prop
  | .fail, _ => False
  | .eps, s => s = []
  | .cls p, s => ∃ c, s = [c] ∧ p c = true
  | .seq a b, s => ∃ x y, s = x ++ y ∧ Lang a x ∧ Lang b y
  | .alt a b, s => Lang a s ∨ Lang b s
  | .star a, s => ∃ l : List Str, s = l.flatten ∧ ∀ x ∈ l, Lang a x

/-- the text is the concatenation of the parts, each in its language -/
def Decomp (rs : List Rgx) (parts : List Str) (s : Str) : Prop := List.Forall₂ Lang rs parts ∧ parts.flatten = s

end Verif.Spec
