import Verif.Model.Pattern
/-! Selectors and patterns whose values may also be the floats that `Model/Value` leaves out: `nan`, `inf`, `-inf` and `-0.0`.
`core/selector.py`, `core/operator.py:27-51`, `core/pattern.py`. -/
namespace Verif

/-- a value of type `str`, `int` or `float`: an ordinary one (see `Val`) or one of the special floats -/
inductive XVal
  | val (v : Val)
  | nan
  | pinf
  | ninf
  | nzero
  deriving DecidableEq

namespace XVal

/-- `type(v) is str` -/
def isStr : XVal → Bool
  | val v => v.isStr
  | _ => false

/-- Python `str(v)` -/
def pyStr : XVal → Str
  | val v => v.pyStr
  | nan => c!"nan"
  | pinf => c!"inf"
  | ninf => c!"-inf"
  | nzero => c!"-0.0"

/-- the comparison `a == b` of two numbers (IEEE 754): `nan` is not equal to anything, `-0.0` is equal to zero -/
def eqNum : XVal → XVal → Bool
  | nan, _ => false
  | _, nan => false
  | pinf, b => b == pinf
  | ninf, b => b == ninf
  | _, pinf => false
  | _, ninf => false
  | nzero, nzero => true
  | nzero, val b => b.num == 0
  | val a, nzero => a.num == 0
  | val a, val b => a.num == b.num

/-- the comparison `a < b` of two numbers (IEEE 754): false when one is `nan` -/
def ltNum : XVal → XVal → Bool
  | nan, _ => false
  | _, nan => false
  | pinf, _ => false
  | _, ninf => false
  | ninf, _ => true
  | _, pinf => true
  | nzero, nzero => false
  | nzero, val b => decide (0 < b.num)
  | val a, nzero => decide (a.num < 0)
  | val a, val b => decide (a.num < b.num)

/-- Python `a == b`: a text is never equal to a number -/
def eq : XVal → XVal → Bool
  | val (.str a), val (.str b) => a == b
  | val (.str _), _ => false
  | _, val (.str _) => false
  | a, b => eqNum a b

/-- Python `a < b`; `TypeError` between text and number -/
def lt? : XVal → XVal → Except PyErr Bool
  | val (.str a), val (.str b) => .ok (strLt a b)
  | val (.str _), _ => .error .typeError
  | _, val (.str _) => .error .typeError
  | a, b => .ok (ltNum a b)

/-- Python `a <= b` -/
def le? : XVal → XVal → Except PyErr Bool
  | val (.str a), val (.str b) => .ok (strLt a b || a == b)
  | val (.str _), _ => .error .typeError
  | _, val (.str _) => .error .typeError
  | a, b => .ok (ltNum a b || eqNum a b)

end XVal

/-- `Operator.evaluate`, `core/operator.py:27-51` (`>` and `>=` of Python are `<` and `<=` with the sides exchanged) -/
def Op.evaluateX (op : Op) (l r : XVal) : Except PyErr Bool :=
  match op with
  | .equal => .ok (XVal.eq l r)
  | .notEqual => .ok (!XVal.eq l r)
  | .less => XVal.lt? l r
  | .greater => XVal.lt? r l
  | .lessOrEqual => XVal.le? l r
  | .greaterOrEqual => XVal.le? r l

/-- a selector object, `core/selector.py:24` -/
structure XSelector where
  attr : Str
  op : Op
  val : XVal
  deriving DecidableEq

namespace XSelector

/-- the text of a value inside a selector, `core/selector.py:42-45`, `:185-188` -/
def valText : XVal → Str
  | .val v => Selector.valText v
  | v => v.pyStr

/-- `Selector.__str__`, `core/selector.py:183-188`; also the key of the pool, `:45` -/
def str (s : XSelector) : Str := s.attr ++ c!" " ++ s.op.str ++ c!" " ++ valText s.val

/-- the check of the value in the constructor, `core/selector.py:36-37` -/
def legal (op : Op) (v : XVal) : Bool := !(v.isStr && op != .equal && op != .notEqual)

/-- `Selector.match` on a scalar, `core/selector.py:69-81` -/
def «match» (s : XSelector) (attr : Str) (v : XVal) : Except PyErr Bool :=
  if attr = s.attr then s.op.evaluateX v s.val else .ok false

/-- `Selector.__eq__`, `core/selector.py:106-109` -/
def eq (a b : XSelector) : Bool := a.attr == b.attr && a.op.eq b.op && a.val.eq b.val

/-- `Selector.__ne__`, `core/selector.py:111-114` -/
def ne (a b : XSelector) : Bool := a.attr != b.attr || a.op.ne b.op || !(a.val.eq b.val)

/-- `Selector.__lt__`, `core/selector.py:116-130` -/
def lt (a b : XSelector) : Bool :=
  if a.attr ≠ b.attr then strLt a.attr b.attr
  else if a.op.ne b.op then a.op.lt b.op
  else if !(a.val.eq b.val) then
    match a.val.lt? b.val with
    | .ok r => r
    | .error _ => strLt a.val.pyStr b.val.pyStr
  else false

/-- `Selector.__gt__`, `core/selector.py:132-146` -/
def gt (a b : XSelector) : Bool :=
  if a.attr ≠ b.attr then strLt b.attr a.attr
  else if a.op.ne b.op then a.op.gt b.op
  else if !(a.val.eq b.val) then
    match b.val.lt? a.val with
    | .ok r => r
    | .error _ => strLt b.val.pyStr a.val.pyStr
  else false

/-- `Selector.__le__`, `core/selector.py:148-162` -/
def le (a b : XSelector) : Bool :=
  if a.attr ≠ b.attr then Selector.strLe a.attr b.attr
  else if a.op.ne b.op then a.op.le b.op
  else if !(a.val.eq b.val) then
    match a.val.le? b.val with
    | .ok r => r
    | .error _ => Selector.strLe a.val.pyStr b.val.pyStr
  else true

/-- `Selector.__ge__`, `core/selector.py:164-178` -/
def ge (a b : XSelector) : Bool :=
  if a.attr ≠ b.attr then Selector.strLe b.attr a.attr
  else if a.op.ne b.op then a.op.ge b.op
  else if !(a.val.eq b.val) then
    match b.val.le? a.val with
    | .ok r => r
    | .error _ => Selector.strLe b.val.pyStr a.val.pyStr
  else true

/-- the value part of `Selector.generate_from_str`, `core/selector.py:95-104`: as `Selector.parseVal`, but `float` of a text with a minus sign that denotes zero is `-0.0`. `nan` and `inf` have no
point, so that `int` is called, which refuses them. Simplification: `float` of a literal beyond the range of floats (`inf` in Python) is not modelled here; `Model/FloatRead` has it (property C114). -/
def parseVal (t : Str) : Except PyErr XVal :=
  match Selector.parseVal t with
  | .error e => .error e
  | .ok (.flt f) => if f.m = 0 ∧ (literal t).bind List.head? = some '-' then .ok .nzero else .ok (.val (.flt f))
  | .ok v => .ok (.val v)

/-- `Selector.generate_from_str`, `core/selector.py:84-104` (without the pool, as `Selector.generateFromStr`) -/
def generateFromStr (s : Str) : Except PyErr XSelector :=
  match splitFirst (· == ' ') s with
  | (_, none) => .error .indexError
  | (a, some rest) =>
    match splitFirst (· == ' ') rest with
    | (o, third) =>
      match Op.generateFromStr o with
      | .error e => .error e
      | .ok op =>
        match third with
        | none => .error .indexError
        | some t =>
          match parseVal t with
          | .error e => .error e
          | .ok v => if !legal op v then .error .valueError else .ok ⟨a, op, v⟩

end XSelector

/-- a pattern object: its list `_list_of_selectors` -/
structure XPattern where
  sels : List XSelector
  deriving DecidableEq

namespace XPattern

/-- the loop of the constructor, `core/pattern.py:33-36`; `acc` is the list built so far, reversed -/
def dedupLoop : List XSelector → List XSelector → List XSelector
  | acc, [] => acc.reverse
  | [], x :: xs => dedupLoop [x] xs
  | y :: ys, x :: xs => if y.ne x then dedupLoop (x :: y :: ys) xs else dedupLoop (y :: ys) xs

/-- `Pattern.__init__`, `core/pattern.py:24-36` -/
def new (l : List XSelector) : XPattern := ⟨dedupLoop [] (pySort XSelector.lt l)⟩

/-- `bisect_left(self._list_of_selectors, selector)` -/
def index (p : XPattern) (s : XSelector) : Nat := bisectLeft XSelector.lt p.sels s

/-- `Pattern.add_selector`, `core/pattern.py:38-50` -/
def add (p : XPattern) (s : XSelector) : XPattern :=
  let i := p.index s
  if i = p.sels.length then ⟨p.sels ++ [s]⟩
  else match p.sels[i]? with
    | some t => if t.ne s then ⟨p.sels.insertIdx i s⟩ else p
    | none => p

/-- `Pattern.remove_selector`, `core/pattern.py:52-62` -/
def remove (p : XPattern) (s : XSelector) : XPattern :=
  let i := p.index s
  match p.sels[i]? with
  | some t => if t.eq s then ⟨p.sels.eraseIdx i⟩ else p
  | none => p

/-- `Pattern.remove_selector_by_index`, `core/pattern.py:64-71` -/
def removeByIndex (p : XPattern) (i : Int) : Except PyErr XPattern :=
  match pyIndex p.sels.length i with
  | some k => .ok ⟨p.sels.eraseIdx k⟩
  | none => .error .indexError

/-- `Pattern.get_selector`, `core/pattern.py:73-80` -/
def get (p : XPattern) (i : Int) : Except PyErr XSelector :=
  match pyIndex p.sels.length i with
  | some k => match p.sels[k]? with
    | some s => .ok s
    | none => .error .indexError
  | none => .error .indexError

/-- `Pattern.copy`, `core/pattern.py:82-90` -/
def copy (p : XPattern) : XPattern := ⟨p.sels⟩

/-- loop of `Pattern.__eq__`, `core/pattern.py:151-156` -/
def eqLoop : List XSelector → List XSelector → Bool
  | a :: as, b :: bs => if a.ne b then false else eqLoop as bs
  | _, _ => true

/-- `Pattern.__eq__`, `core/pattern.py:148-156` -/
def eq (p q : XPattern) : Bool := if p.sels.length ≠ q.sels.length then false else eqLoop p.sels q.sels

/-- `Pattern.__ne__`, `core/pattern.py:158-166` -/
def ne (p q : XPattern) : Bool := if p.sels.length ≠ q.sels.length then true else !eqLoop p.sels q.sels

/-- `Pattern.__contains__`, `core/pattern.py:183-190` -/
def contains (p : XPattern) (s : XSelector) : Bool :=
  if p.sels.length = 0 then false
  else match p.sels[p.index s]? with
    | some t => t.eq s
    | none => false

/-- sameness of two members of a Python `set`: the same object, or the same hash and `==`. Selectors with the same fields that live at the same time are the same object, because of the pool
(`core/selector.py:46-47`). Simplification: two different texts have different hashes. -/
def same (a b : XSelector) : Bool := a == b || (a.str == b.str && a.eq b)

/-- `set(list)` -/
def toSet (l : List XSelector) : List XSelector :=
  l.foldl (fun acc x => if acc.any (same x) then acc else acc ++ [x]) []

/-- `a.issubset(b)` on sets -/
def issubset (a b : List XSelector) : Bool := a.all (fun x => b.any (same x))

/-- `a == b` on sets -/
def setEq (a b : List XSelector) : Bool := a.length == b.length && issubset a b

/-- `Pattern.is_refinement`, `core/pattern.py:112-127` -/
def isRefinement (p q : XPattern) (ofItself : Bool) : Bool :=
  let a := toSet p.sels
  let b := toSet q.sels
  if a.length > b.length then false
  else if setEq a b then ofItself
  else issubset a b

end XPattern

/-- a column of a data frame with the answer of a selector, `core/pattern.py:106-108` -/
def XSelector.matchSeries (s : XSelector) (col : List XVal) : Except PyErr (List Bool) := col.mapM (fun v => s.op.evaluateX v s.val)

end Verif
