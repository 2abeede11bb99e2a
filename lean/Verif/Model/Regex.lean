import Verif.Model.Py
/-! Regular expressions as far as the code uses them (`re.compile(...).fullmatch`, `gmsl.py:34-38`, `file_format_transformations.py:11-12`): characters, classes, concatenation, alternation,
repetition and groups. The anchors `^` and `$` add nothing to `fullmatch`: the lines contain no newline. -/
namespace Verif

inductive Rgx
  | fail
  | eps
  | cls (p : Char → Bool)
  | seq (a b : Rgx)
  | alt (a b : Rgx)
  | star (a : Rgx)

namespace Rgx

/-- does it match the empty text? -/
def nullable : Rgx → Bool
  | fail => false
  | eps => true
  | cls _ => false
  | seq a b => a.nullable && b.nullable
  | alt a b => a.nullable || b.nullable
  | star _ => true

/-- what remains to be matched after the character `c` -/
def deriv (c : Char) : Rgx → Rgx
  | fail => fail
  | eps => fail
  | cls p => if p c then eps else fail
  | seq a b => if a.nullable then alt (seq (a.deriv c) b) (b.deriv c) else seq (a.deriv c) b
  | alt a b => alt (a.deriv c) (b.deriv c)
  | star a => seq (a.deriv c) (star a)

/-- `re.fullmatch` as a test -/
def test : Rgx → Str → Bool
  | r, [] => r.nullable
  | r, c :: s => (r.deriv c).test s

/-- a text -/
def lit : Str → Rgx
  | [] => eps
  | c :: s => seq (cls (· == c)) (lit s)

/-- `r+` -/
def plus (r : Rgx) : Rgx := seq r (star r)

/-- `.` -/
def any : Rgx := cls (· ≠ '\n')

/-- `[01]+` -/
def bits : Rgx := plus (cls (fun c => c = '0' ∨ c = '1'))

end Rgx

/-- all the ways of cutting a text in two, longest first part first -/
def cuts (s : Str) : List (Str × Str) := (List.range (s.length + 1)).reverse.map (fun i => (s.take i, s.drop i))

/-- `fullmatch` of a concatenation, with the parts matched (the groups): each part is as long as possible, the first ones first.
(The only repetitions inside the parts are those in which the choice is determined.) -/
def fullmatch : List Rgx → Str → Option (List Str)
  | [], s => if s = [] then some [] else none
  | r :: rs, s => (cuts s).findSome? (fun ab => if r.test ab.1 then (fullmatch rs ab.2).map (ab.1 :: ·) else none)

end Verif
