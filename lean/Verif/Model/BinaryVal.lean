import Verif.Model.Selector
import Verif.Model.Binary64
/-! Values of selectors and cells with floats as the binary numbers they are (`Model/Value` has the decimal numbers that are printed). -/
namespace Verif

/-- a value of type `str`, `int` or `float`; a finite `float` is the rational number it stands for (C89: the special floats) -/
inductive BVal
  | str (s : Str)
  | int (z : Int)
  | flt (b : Rat)

namespace BVal

/-- the number (0 for text; never used there) -/
def num : BVal → Rat
  | str _ => 0
  | int z => (z : Rat)
  | flt b => b

/-- Python `a == b`: CPython compares an `int` and a `float` by their exact values -/
def eq : BVal → BVal → Bool
  | str a, str b => a == b
  | str _, _ => false
  | _, str _ => false
  | a, b => a.num == b.num

/-- Python `a < b` -/
def lt? : BVal → BVal → Except PyErr Bool
  | str a, str b => .ok (strLt a b)
  | str _, _ => .error .typeError
  | _, str _ => .error .typeError
  | a, b => .ok (decide (a.num < b.num))

/-- Python `a <= b` -/
def le? : BVal → BVal → Except PyErr Bool
  | str a, str b => .ok (strLt a b || a == b)
  | str _, _ => .error .typeError
  | _, str _ => .error .typeError
  | a, b => .ok (decide (a.num ≤ b.num))

/-- the value as it is in `Model/Value`: floats by the decimal number that `repr` prints -/
def printed (repr : Rat → Flt) : BVal → Val
  | str s => .str s
  | int z => .int z
  | flt b => .flt (repr b)

/-- numpy's comparison of an array of integers with a float: the integers are converted first -/
def asFloat : BVal → BVal
  | int z => flt (Float64.fl z)
  | v => v

end BVal

/-- `Operator.evaluate`, `core/operator.py:27-51` -/
def Op.evaluateB (op : Op) (l r : BVal) : Except PyErr Bool :=
  match op with
  | .equal => .ok (BVal.eq l r)
  | .notEqual => .ok (!BVal.eq l r)
  | .less => BVal.lt? l r
  | .greater => BVal.lt? r l
  | .lessOrEqual => BVal.le? l r
  | .greaterOrEqual => BVal.le? r l

end Verif
