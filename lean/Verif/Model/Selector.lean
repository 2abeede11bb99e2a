import Verif.Model.Operator
import Verif.Model.Value
/-! Model of `src/subgroups/core/selector.py`. -/
namespace Verif

/-- `Operator.evaluate`, `core/operator.py:27-51` (on scalars; on a Series it is applied element-wise). -/
def Op.evaluate (op : Op) (l r : Val) : Except PyErr Bool :=
  match op with
  | .equal => .ok (Val.eq l r)
  | .notEqual => .ok (!Val.eq l r)
  | .less => Val.lt? l r
  | .greater => Val.lt? r l
  | .lessOrEqual => Val.le? l r
  | .greaterOrEqual => Val.le? r l

/-- A selector object: its three read-only fields (`core/selector.py:24`). -/
structure Selector where
  attr : Str
  op : Op
  val : Val
  deriving DecidableEq

namespace Selector

/-- The text of a value inside a selector: text values get simple quotes
(`core/selector.py:42-45` and `core/selector.py:185-188`). -/
def valText : Val → Str
  | .str s => '\'' :: s ++ c!"'"
  | v => v.pyStr

/-- `Selector.__str__`, `core/selector.py:183-188`; the same expression is the pool key, `:45`. -/
def str (s : Selector) : Str := s.attr ++ c!" " ++ s.op.str ++ c!" " ++ valText s.val

/-- The value check of the constructor, `core/selector.py:36-37`. -/
def legal (op : Op) (v : Val) : Bool := !(v.isStr && op != .equal && op != .notEqual)

/-- The selector pool `_dict_of_selectors` (`core/selector.py:27`): live entries, key ↦ object. -/
abbrev Pool := List (Str × Selector)

/-- `Selector.__new__`, `core/selector.py:29-54`: the object returned and the new pool. -/
def new (pool : Pool) (attr : Str) (op : Op) (v : Val) : Except PyErr (Selector × Pool) :=
  if !legal op v then .error .valueError
  else
    let key := attr ++ c!" " ++ op.str ++ c!" " ++ valText v
    match pool.lookup key with
    | some s => .ok (s, pool)
    | none => let s : Selector := ⟨attr, op, v⟩; .ok (s, (key, s) :: pool)

/-- The constructor as a pure function: what the caller asks for (the pool returns an equal object whenever
keys do not collide; see property C02). -/
def mk? (attr : Str) (op : Op) (v : Val) : Except PyErr Selector :=
  if !legal op v then .error .valueError else .ok ⟨attr, op, v⟩

/-- `Selector.match` on a scalar, `core/selector.py:69-81` (`and` stops when the attribute names differ). -/
def «match» (s : Selector) (attr : Str) (v : Val) : Except PyErr Bool :=
  if attr = s.attr then s.op.evaluate v s.val else .ok false

/-- `Selector.__eq__`, `core/selector.py:106-109` -/
def eq (a b : Selector) : Bool := a.attr == b.attr && a.op.eq b.op && a.val.eq b.val

/-- `Selector.__ne__`, `core/selector.py:111-114` -/
def ne (a b : Selector) : Bool := a.attr != b.attr || a.op.ne b.op || !(a.val.eq b.val)

/-- `Selector.__lt__`, `core/selector.py:116-130` -/
def lt (a b : Selector) : Bool :=
  if a.attr ≠ b.attr then strLt a.attr b.attr
  else if a.op.ne b.op then a.op.lt b.op
  else if !(a.val.eq b.val) then
    match a.val.lt? b.val with
    | .ok r => r
    | .error _ => strLt a.val.pyStr b.val.pyStr
  else false

/-- `Selector.__gt__`, `core/selector.py:132-146` -/
def gt (a b : Selector) : Bool :=
  if a.attr ≠ b.attr then strLt b.attr a.attr
  else if a.op.ne b.op then a.op.gt b.op
  else if !(a.val.eq b.val) then
    match b.val.lt? a.val with
    | .ok r => r
    | .error _ => strLt b.val.pyStr a.val.pyStr
  else false

/-- `x <= y` on `str` -/
def strLe (x y : Str) : Bool := strLt x y || x == y

/-- `Selector.__le__`, `core/selector.py:148-162` -/
def le (a b : Selector) : Bool :=
  if a.attr ≠ b.attr then strLe a.attr b.attr
  else if a.op.ne b.op then a.op.le b.op
  else if !(a.val.eq b.val) then
    match a.val.le? b.val with
    | .ok r => r
    | .error _ => strLe a.val.pyStr b.val.pyStr
  else true

/-- `Selector.__ge__`, `core/selector.py:164-178` -/
def ge (a b : Selector) : Bool :=
  if a.attr ≠ b.attr then strLe b.attr a.attr
  else if a.op.ne b.op then a.op.ge b.op
  else if !(a.val.eq b.val) then
    match b.val.le? a.val with
    | .ok r => r
    | .error _ => strLe b.val.pyStr a.val.pyStr
  else true

/-- The value part of `Selector.generate_from_str`, `core/selector.py:95-104`: quoted text is a `str`;
otherwise a `float` if it contains a point, else an `int`; if that fails the text itself. `t[0]` on an empty
text raises `IndexError`. -/
def parseVal (t : Str) : Except PyErr Val :=
  match t.head?, t.getLast? with
  | some a, some b =>
    if (a = '\'' ∧ b = '\'') ∨ (a = '"' ∧ b = '"') then .ok (.str t.tail.dropLast)
    else if '.' ∈ t then
      match parseFloat t with
      | some f => .ok (.flt f)
      | none => .ok (.str t)
    else
      match parseInt t with
      | some z => .ok (.int z)
      | none => .ok (.str t)
  | _, _ => .error .indexError

/-- `Selector.generate_from_str`, `core/selector.py:84-104` (the pool is left out: see `mk?`). A missing part
after the split raises `IndexError`. -/
def generateFromStr (s : Str) : Except PyErr Selector :=
  match splitFirst (· == ' ') s with
  | (_, none) => .error .indexError
  | (a, some rest) =>
    match splitFirst (· == ' ') rest with
    | (o, third) =>
      match Op.generateFromStr o with
      | .error e => .error e
      | .ok op =>
        match third with
        | none => .error .indexError
        | some t =>
          match parseVal t with
          | .error e => .error e
          | .ok v => mk? a op v

end Selector
end Verif
