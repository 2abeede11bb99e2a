import Verif.Model.Selector
/-! Model of `Selector.__new__` and `Selector.generate_from_str` in a Python with a limit on the number of digits of integers in texts (`sys.set_int_max_str_digits`; 4300 by default since Python 3.11,
0 for none): `str` of an integer with more digits and `int` of a text with more digits raise `ValueError`. Simplification: as in `Model/Selector` otherwise. -/
namespace Verif.DigitLimit

/-- `k` digits are too many -/
def tooMany (limit k : Nat) : Bool := limit != 0 && decide (limit < k)

/-- the number of digits in a text -/
def digitCount (s : Str) : Nat := (s.filter (fun c => (digitVal? c).isSome)).length

/-- `int(text)`; `none` is `ValueError`. Underscores do not count, zeros in front do. -/
def parseInt (limit : Nat) (s : Str) : Option Int := (literal s).bind (fun u => if tooMany limit (digitCount u) then none else readInt u)

/-- `str(value)` raises `ValueError`: only integers are limited -/
def strFails (limit : Nat) : Val → Bool
  | .int z => tooMany limit (natStr z.natAbs).length
  | _ => false

/-- `Selector.__new__`, `core/selector.py:29-54`: the check of the value and the operator, then the key of the pool, which needs `str(value)` -/
def new? (limit : Nat) (attr : Str) (op : Op) (v : Val) : Except PyErr Selector :=
  if !Selector.legal op v then .error .valueError
  else if strFails limit v then .error .valueError
  else .ok ⟨attr, op, v⟩

/-- `float` or `int` of a text, `core/selector.py:99-102` -/
def number (limit : Nat) (t : Str) : Except PyErr Val :=
  if '.' ∈ t then
    match parseFloat t with
    | some f => .ok (.flt f)
    | none => .error .valueError
  else
    match parseInt limit t with
    | some z => .ok (.int z)
    | none => .error .valueError

/-- the value part of `Selector.generate_from_str`, `core/selector.py:95-104`: a `ValueError` of the conversion or of the constructor leads to the text itself -/
def build (limit : Nat) (attr : Str) (op : Op) (t : Str) : Except PyErr Selector :=
  match t.head?, t.getLast? with
  | some a, some b =>
    if (a = '\'' ∧ b = '\'') ∨ (a = '"' ∧ b = '"') then new? limit attr op (.str t.tail.dropLast)
    else
      match (number limit t).bind (new? limit attr op) with
      | .ok s => .ok s
      | .error .valueError => new? limit attr op (.str t)
      | .error e => .error e
  | _, _ => .error .indexError

/-- `Selector.generate_from_str`, `core/selector.py:84-104` -/
def generateFromStr (limit : Nat) (s : Str) : Except PyErr Selector :=
  match splitFirst (· == ' ') s with
  | (_, none) => .error .indexError
  | (a, some rest) =>
    match splitFirst (· == ' ') rest with
    | (o, third) =>
      match Op.generateFromStr o with
      | .error e => .error e
      | .ok op =>
        match third with
        | none => .error .indexError
        | some t => build limit a op t

end Verif.DigitLimit
