import Verif.Model.SpecialFloats
import Verif.Model.BinaryVal
/-! `Selector.generate_from_str` with floats as the binary numbers they are: `float` of a decimal literal is the nearest number of the format binary64. (`Model/Selector` keeps the decimal number.)
As in `Model/BinaryVal` a finite float is shown by the decimal number `repr` that is printed of it. -/
namespace Verif.FloatRead

/-- `float(text)` for a text that denotes the decimal number `f`: rounded, infinite beyond the range; a zero keeps the minus sign -/
def floatValue (repr : Rat → Flt) (t : Str) (f : Flt) : XVal :=
  match Binary64.round f.toRat with
  | .fin b => if b = 0 ∧ (literal t).bind List.head? = some '-' then .nzero else .val (.flt (repr b))
  | .inf => .pinf
  | .ninf => .ninf
  | .nan => .nan

/-- the value part of `Selector.generate_from_str`, `core/selector.py:95-104` -/
def readVal (repr : Rat → Flt) (t : Str) : Except PyErr XVal :=
  match Selector.parseVal t with
  | .error e => .error e
  | .ok (.flt f) => .ok (floatValue repr t f)
  | .ok v => .ok (.val v)

/-- `Selector.generate_from_str`, `core/selector.py:84-104` (without the pool, as `Selector.generateFromStr`) -/
def generateFromStr (repr : Rat → Flt) (s : Str) : Except PyErr XSelector :=
  match splitFirst (· == ' ') s with
  | (_, none) => .error .indexError
  | (a, some rest) =>
    match splitFirst (· == ' ') rest with
    | (o, third) =>
      match Op.generateFromStr o with
      | .error e => .error e
      | .ok op =>
        match third with
        | none => .error .indexError
        | some t =>
          match readVal repr t with
          | .error e => .error e
          | .ok v => if !XSelector.legal op v then .error .valueError else .ok ⟨a, op, v⟩

end Verif.FloatRead
