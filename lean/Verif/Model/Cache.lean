import Verif.Model.MDL
/-! Model of `functools.lru_cache(maxsize=1000)` around the functions of `src/subgroups/utils/mdl.py` (lines 11, 34 and 82): what a call returns depends on the calls before it. Simplifications:
arguments are integers, booleans and finite floats (other objects that can be hashed are unequal to these numbers, and the functions refuse them); `maxsize` is a parameter; the codes of
the single integers inside `universal_code_for_integer_with_maximum` are those without a cache (by C112 for calls with integers or by position there is no difference). -/
namespace Verif.Cache

/-- an argument: of type `int`, `bool` or `float` -/
inductive Num
  | int (n : Int)
  | bool (b : Bool)
  | float (q : Rat)
  deriving DecidableEq

/-- the number, by which arguments are compared and hashed: `1 == True == 1.0` -/
def Num.val : Num → Rat
  | .int n => n
  | .bool b => if b then 1 else 0
  | .float q => q

/-- a call: the positional arguments and the keyword arguments, in the order of the call -/
structure Call where
  pos : List Num
  kw : List (Str × Num)

/-- the key of a call, `_make_key` of `functools`: a single positional argument of type `int` is its own key; else the tuple of the positional arguments and, behind a mark, of the keyword
arguments; keys are compared with `==` -/
inductive Key
  | int (n : Int)
  | args (pos : List Rat) (kw : List (Str × Rat))
  deriving DecidableEq

/-- `_make_key` -/
def key : Call → Key
  | ⟨[.int n], []⟩ => .int n
  | ⟨pos, kw⟩ => .args (pos.map Num.val) (kw.map (fun e => (e.1, e.2.val)))

/-- the cache: keys and values, the most recently used first -/
abbrev State (V : Type) := List (Key × V)

/-- a call of a function `f` with a cache of `size` entries: a key that is there is answered from the cache and becomes the most recent one; else `f` is called, an exception leaves the cache as it
is, and a value is stored, for which the least recent entry is dropped if the cache is full -/
def call {V : Type} (size : Nat) (f : Call → Except PyErr V) (st : State V) (c : Call) : State V × Except PyErr V :=
  match st.lookup (key c) with
  | some v => ((key c, v) :: st.filter (fun e => e.1 ≠ key c), .ok v)
  | none =>
    match f c with
    | .error e => (st, .error e)
    | .ok v => (((key c, v) :: st).take size, .ok v)

/-- the state of the cache after a history of calls -/
def after {V : Type} (size : Nat) (f : Call → Except PyErr V) : List Call → State V
  | [] => []
  | c :: earlier => (call size f (after size f earlier) c).1

/-- what a call returns after a history (the latest call first) -/
def result {V : Type} (size : Nat) (f : Call → Except PyErr V) (earlier : List Call) (c : Call) : Except PyErr V := (call size f (after size f earlier) c).2

/-- the arguments in the order of the parameters; too many, too few, unknown or repeated ones are a `TypeError` -/
def bind (params : List Str) (c : Call) : Except PyErr (List Num) :=
  if c.pos.length ≤ params.length ∧ ((c.kw.map (·.1)).isPerm (params.drop c.pos.length)) = true then
    .ok (c.pos ++ (params.drop c.pos.length).filterMap (fun p => c.kw.lookup p))
  else .error .typeError

/-- `universal_code_for_integer` without its cache, `mdl.py:12-32` -/
noncomputable def codeFn (c : Call) : Except PyErr ℝ :=
  match bind [c!"input_integer_value"] c with
  | .error e => .error e
  | .ok [.int n] => if n < 0 then .error .valueError else .ok (MDL.code n.toNat)
  | .ok _ => .error .typeError

/-- the maximum as an integer: `range` and the division take booleans, `range` refuses floats -/
def maxInt : Num → Option Int
  | .int n => some n
  | .bool b => some (if b then 1 else 0)
  | .float _ => none

/-- `universal_code_for_integer_with_maximum` without its cache, `mdl.py:35-46`: the codes of `1..maximum` come first (`range` refuses a float), then that of the integer, then the division; a negative
maximum has an empty range, and its share is negative; the logarithm of a number that is not positive is no number (`none`) -/
noncomputable def maxFn (c : Call) : Except PyErr (Option ℝ) :=
  match bind [c!"input_integer_value", c!"maximum_integer_value"] c with
  | .error e => .error e
  | .ok [x, y] =>
    match maxInt y, x with
    | none, _ => .error .typeError
    | some m, .int n =>
      if n < 0 then .error .valueError
      else if 0 ≤ m then MDL.codeWithMaximum n.toNat m.toNat
      else if (2 : ℝ) ^ (-MDL.code n.toNat) + 1 / (m : ℝ) > 0 then .ok (some (-Real.logb 2 ((2 : ℝ) ^ (-MDL.code n.toNat) + 1 / (m : ℝ)))) else .ok none
    | some _, _ => .error .typeError
  | .ok _ => .error .typeError

/-- `log2_multinomial_with_recurrence` without its cache, `mdl.py:83-96` -/
noncomputable def log2Fn (c : Call) : Except PyErr ℝ :=
  match bind [c!"number_of_categories", c!"number_of_samples"] c with
  | .error e => .error e
  | .ok [.int l, .int n] => MDL.log2Multinomial l n
  | .ok _ => .error .typeError

end Verif.Cache
