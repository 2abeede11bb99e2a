import Verif.Model.Pattern
/-! Model of `src/subgroups/core/subgroup.py`. -/
namespace Verif

structure Subgroup where
  description : Pattern
  target : Selector
  deriving DecidableEq

namespace Subgroup

/-- `Subgroup.copy`, `core/subgroup.py:30-36` -/
def copy (s : Subgroup) : Subgroup := ⟨s.description.copy, s.target⟩

/-- `df[df.columns.drop(name)]`: `KeyError` if the column does not exist -/
def dropColumn (df : Frame) (name : Str) : Except PyErr Frame :=
  if df.cols.any (fun c => c.1 == name) then .ok ⟨df.nrows, df.cols.filter (fun c => c.1 != name)⟩
  else .error .keyError

/-- `Subgroup.filter`, `core/subgroup.py:47-72` -/
def filter (s : Subgroup) (df : Frame) : Except PyErr (List Bool × List Bool × List Bool) := do
  let rest ← dropColumn df s.target.attr
  let targetCol ← df.col s.target.attr
  let contained ← s.description.isContained rest
  let targetMatch ← s.target.matchSeries targetCol
  return (List.zipWith (· && ·) contained targetMatch,
    List.zipWith (· && ·) contained (targetMatch.map (!·)), targetMatch)

/-- `Subgroup.is_refinement`, `core/subgroup.py:74-81` -/
def isRefinement (s t : Subgroup) (ofItself : Bool) : Bool :=
  s.description.isRefinement t.description ofItself && s.target.eq t.target

/-- `Subgroup.generate_from_str`, `core/subgroup.py:84-95`: the target is parsed first. -/
def generateFromStr (s : Str) : Except PyErr Subgroup :=
  match splitOn c!", Target: " s with
  | d :: t :: _ =>
    match Selector.generateFromStr t with
    | .error e => .error e
    | .ok target => match Pattern.generateFromStr (d.drop 13) with
      | .error e => .error e
      | .ok description => .ok ⟨description, target⟩
  | _ => .error .indexError

/-- `Subgroup.__eq__`, `core/subgroup.py:97-100` -/
def eq (s t : Subgroup) : Bool := s.description.eq t.description && s.target.eq t.target

/-- `Subgroup.__ne__`, `core/subgroup.py:102-105` -/
def ne (s t : Subgroup) : Bool := s.description.ne t.description || s.target.ne t.target

/-- `Subgroup.__str__`, `core/subgroup.py:107-108` -/
def str (s : Subgroup) : Str := c!"Description: " ++ s.description.str ++ c!", Target: " ++ s.target.str

end Subgroup
end Verif
