import Verif.Model.Selector
/-! Model of `src/subgroups/core/pattern.py`, of the part of pandas it uses, and of `utils/dataframe_filters.py`. -/
namespace Verif

/-- A `pandas.DataFrame` with a default index `0..nrows-1`: named columns in order. Simplifications: every cell is a text,
an integer or a finite float (no missing values); the index is the default `RangeIndex`; duplicated column names are
not modelled (look-up takes the first). -/
structure Frame where
  nrows : Nat
  cols : List (Str × List Val)

/-- `df[name]`: `KeyError` for an absent column. -/
def Frame.col (df : Frame) (name : Str) : Except PyErr (List Val) :=
  match df.cols.lookup name with
  | some c => .ok c
  | none => .error .keyError

/-- `Selector.match(attribute_name, Series)`, `core/selector.py:69-81`, element by element. -/
def Selector.matchSeries (s : Selector) (col : List Val) : Except PyErr (List Bool) :=
  col.mapM (fun v => s.op.evaluate v s.val)

/-- The while loop shared by `Pattern.is_contained` (`core/pattern.py:101-110`) and `filter_by_list_of_selectors`
(`utils/dataframe_filters.py:24-32`): it stops as soon as no row is left (`final_result.sum() > 0`). -/
def containedLoop (df : Frame) : List Selector → List Bool → Except PyErr (List Bool)
  | [], acc => .ok acc
  | s :: rest, acc =>
    if acc.any id then
      match df.col s.attr with
      | .error e => .error e
      | .ok col => match s.matchSeries col with
        | .error e => .error e
        | .ok m => containedLoop df rest (List.zipWith (· && ·) acc m)
    else .ok acc

/-- A pattern object: its list `_list_of_selectors`. -/
structure Pattern where
  sels : List Selector
  deriving DecidableEq

namespace Pattern

/-- The loop of the constructor that skips an element equal to the last one kept, `core/pattern.py:33-36`;
`acc` is the list built so far, reversed. -/
def dedupLoop : List Selector → List Selector → List Selector
  | acc, [] => acc.reverse
  | [], x :: xs => dedupLoop [x] xs
  | y :: ys, x :: xs => if y.ne x then dedupLoop (x :: y :: ys) xs else dedupLoop (y :: ys) xs

/-- `Pattern.__init__`, `core/pattern.py:24-36` -/
def new (l : List Selector) : Pattern := ⟨dedupLoop [] (pySort Selector.lt l)⟩

/-- `bisect_left(self._list_of_selectors, selector)` -/
def index (p : Pattern) (s : Selector) : Nat := bisectLeft Selector.lt p.sels s

/-- `Pattern.add_selector`, `core/pattern.py:38-50` -/
def add (p : Pattern) (s : Selector) : Pattern :=
  let i := p.index s
  if i = p.sels.length then ⟨p.sels ++ [s]⟩
  else match p.sels[i]? with
    | some t => if t.ne s then ⟨p.sels.insertIdx i s⟩ else p
    | none => p

/-- `Pattern.remove_selector`, `core/pattern.py:52-62` -/
def remove (p : Pattern) (s : Selector) : Pattern :=
  let i := p.index s
  match p.sels[i]? with
  | some t => if t.eq s then ⟨p.sels.eraseIdx i⟩ else p
  | none => p

/-- `Pattern.remove_selector_by_index`, `core/pattern.py:64-71` (`list.pop`) -/
def removeByIndex (p : Pattern) (i : Int) : Except PyErr Pattern :=
  match pyIndex p.sels.length i with
  | some k => .ok ⟨p.sels.eraseIdx k⟩
  | none => .error .indexError

/-- `Pattern.get_selector`, `core/pattern.py:73-80` -/
def get (p : Pattern) (i : Int) : Except PyErr Selector :=
  match pyIndex p.sels.length i with
  | some k => match p.sels[k]? with
    | some s => .ok s
    | none => .error .indexError
  | none => .error .indexError

/-- `Pattern.copy`, `core/pattern.py:82-90` (values have no identity in the model) -/
def copy (p : Pattern) : Pattern := ⟨p.sels⟩

/-- `Pattern.is_contained`, `core/pattern.py:92-110` -/
def isContained (p : Pattern) (df : Frame) : Except PyErr (List Bool) :=
  containedLoop df p.sels (List.replicate df.nrows true)

/-- sameness of two members of a Python `set` of selectors: same hash and `==`. The hash is that of the printed form
(`core/selector.py:190-191`). Simplification: two different texts are taken to have different hashes. -/
def same (a b : Selector) : Bool := a.str == b.str && a.eq b

/-- `set(list)` -/
def toSet (l : List Selector) : List Selector :=
  l.foldl (fun acc x => if acc.any (same x) then acc else acc ++ [x]) []

/-- `a.issubset(b)` on sets -/
def issubset (a b : List Selector) : Bool := a.all (fun x => b.any (same x))

/-- `a == b` on sets -/
def setEq (a b : List Selector) : Bool := a.length == b.length && issubset a b

/-- `Pattern.is_refinement`, `core/pattern.py:112-127` -/
def isRefinement (p q : Pattern) (ofItself : Bool) : Bool :=
  let a := toSet p.sels
  let b := toSet q.sels
  if a.length > b.length then false
  else if setEq a b then ofItself
  else issubset a b

/-- loop of `Pattern.__eq__` over the indexes, `core/pattern.py:151-156` -/
def eqLoop : List Selector → List Selector → Bool
  | a :: as, b :: bs => if a.ne b then false else eqLoop as bs
  | _, _ => true

/-- `Pattern.__eq__`, `core/pattern.py:148-156` -/
def eq (p q : Pattern) : Bool := if p.sels.length ≠ q.sels.length then false else eqLoop p.sels q.sels

/-- `Pattern.__ne__`, `core/pattern.py:158-166` -/
def ne (p q : Pattern) : Bool := if p.sels.length ≠ q.sels.length then true else !eqLoop p.sels q.sels

/-- loop of `Pattern.__str__`: all but the last followed by a comma and a blank, then the last and `]` -/
def strLoop : List Selector → Str
  | [] => []
  | [s] => s.str ++ c!"]"
  | s :: t :: rest => s.str ++ c!", " ++ strLoop (t :: rest)

/-- `Pattern.__str__`, `core/pattern.py:168-178` -/
def str (p : Pattern) : Str := if p.sels.length = 0 then c!"[]" else '[' :: strLoop p.sels

/-- `Pattern.__len__`, `core/pattern.py:180-181` -/
def len (p : Pattern) : Nat := p.sels.length

/-- `Pattern.__contains__`, `core/pattern.py:183-190` -/
def contains (p : Pattern) (s : Selector) : Bool :=
  if p.sels.length = 0 then false
  else match p.sels[p.index s]? with
    | some t => t.eq s
    | none => false

/-- `Pattern.generate_from_str`, `core/pattern.py:129-146`; `input_str[1:-1]` drops the first and last characters. -/
def generateFromStr (s : Str) : Except PyErr Pattern :=
  if s = c!"[]" then .ok (new [])
  else match (splitOn c!", " s.tail.dropLast).mapM Selector.generateFromStr with
    | .error e => .error e
    | .ok l => .ok (new l)

end Pattern

/-- `filter_by_list_of_selectors`, `utils/dataframe_filters.py:12-33`: the selected rows, as row numbers. -/
def filterByListOfSelectors (df : Frame) (l : List Selector) : Except PyErr (List Nat) :=
  match containedLoop df l (List.replicate df.nrows true) with
  | .error e => .error e
  | .ok m => .ok ((List.range df.nrows).filter (fun i => m[i]? == some true))

end Verif
