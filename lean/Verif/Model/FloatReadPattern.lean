import Verif.Model.FloatRead
import Verif.Model.Subgroup
/-! Printing and reading of patterns and subgroups with floats as the binary numbers they are; as `Model/Pattern` and `Model/Subgroup` otherwise. -/
namespace Verif

/-- loop of `Pattern.__str__`, `core/pattern.py:168-178`: all but the last followed by a comma and a blank, then the last and `]` -/
def XPattern.strLoop : List XSelector → Str
  | [] => []
  | [s] => s.str ++ c!"]"
  | s :: t :: rest => s.str ++ c!", " ++ XPattern.strLoop (t :: rest)

/-- `Pattern.__str__`, `core/pattern.py:168-178` -/
def XPattern.str (p : XPattern) : Str := if p.sels.length = 0 then c!"[]" else '[' :: XPattern.strLoop p.sels

/-- a subgroup, `core/subgroup.py:12-28` -/
structure XSubgroup where
  description : XPattern
  target : XSelector
  deriving DecidableEq

/-- `Subgroup.__eq__`, `core/subgroup.py:97-100` -/
def XSubgroup.eq (s t : XSubgroup) : Bool := s.description.eq t.description && s.target.eq t.target

/-- `Subgroup.__str__`, `core/subgroup.py:107-108` -/
def XSubgroup.str (s : XSubgroup) : Str := c!"Description: " ++ s.description.str ++ c!", Target: " ++ s.target.str

namespace FloatRead

/-- `Pattern.generate_from_str`, `core/pattern.py:129-146` -/
def patternFromStr (repr : Rat → Flt) (s : Str) : Except PyErr XPattern :=
  if s = c!"[]" then .ok (XPattern.new [])
  else match (splitOn c!", " s.tail.dropLast).mapM (generateFromStr repr) with
    | .error e => .error e
    | .ok l => .ok (XPattern.new l)

/-- `Subgroup.generate_from_str`, `core/subgroup.py:84-95`: the target is parsed first -/
def subgroupFromStr (repr : Rat → Flt) (s : Str) : Except PyErr XSubgroup :=
  match splitOn c!", Target: " s with
  | d :: t :: _ =>
    match generateFromStr repr t with
    | .error e => .error e
    | .ok target => match patternFromStr repr (d.drop 13) with
      | .error e => .error e
      | .ok description => .ok ⟨description, target⟩
  | _ => .error .indexError

end FloatRead
end Verif
