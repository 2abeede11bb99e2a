import Verif.Model.Py
/-! Model of `src/subgroups/core/operator.py`. -/
namespace Verif

/-- `core/operator.py:20-25` -/
inductive Op
  | equal | notEqual | less | greater | lessOrEqual | greaterOrEqual
  deriving DecidableEq, Repr

namespace Op

/-- the enumeration value, `core/operator.py:20-25` -/
def value : Op → Nat
  | equal => 1 | notEqual => 2 | less => 3 | greater => 4 | lessOrEqual => 5 | greaterOrEqual => 6

/-- `Operator.__str__`, `core/operator.py:107-121` -/
def str : Op → Str
  | equal => c!"=" | notEqual => c!"!=" | less => c!"<" | greater => c!">"
  | lessOrEqual => c!"<=" | greaterOrEqual => c!">="

/-- `Operator.generate_from_str`, `core/operator.py:54-75` -/
def generateFromStr (s : Str) : Except PyErr Op :=
  if s = c!"=" then .ok equal
  else if s = c!"!=" then .ok notEqual
  else if s = c!"<" then .ok less
  else if s = c!">" then .ok greater
  else if s = c!"<=" then .ok lessOrEqual
  else if s = c!">=" then .ok greaterOrEqual
  else .error .attributeError

/-- `Operator.__eq__` etc., `core/operator.py:77-105` -/
def eq (a b : Op) : Bool := a.value == b.value
def ne (a b : Op) : Bool := a.value != b.value
def lt (a b : Op) : Bool := decide (a.value < b.value)
def gt (a b : Op) : Bool := decide (a.value > b.value)
def le (a b : Op) : Bool := decide (a.value ≤ b.value)
def ge (a b : Op) : Bool := decide (a.value ≥ b.value)

end Op
end Verif
