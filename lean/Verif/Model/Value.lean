import Verif.Model.Py
/-! Values of selectors: `str`, `int` and `float` (`Union[str, int, float]`, `core/selector.py:29`).

A Python `float` is modelled as the exact finite decimal `m * 10^e` that its `repr` denotes, in the unique
normal form (no trailing decimal zero in `m`). Every finite Python float except `-0.0` has such a form
(its shortest round-trip decimal). Simplification: the binary value may differ from this decimal by less than half
a unit in the last place, so a comparison of a float with an integer above 2^53 may differ (property C105: otherwise it does not); `nan`, `inf` and
`-0.0` are not values here; `Model/SpecialFloats` adds them (property C89). -/
namespace Verif

/-- finite decimal `m * 10^e` in normal form -/
structure Flt where
  m : Int
  e : Int
  norm : (m = 0 ∧ e = 0) ∨ ¬ (10 ∣ m)
  deriving DecidableEq

/-- strip trailing decimal zeros -/
def stripZeros (m e : Int) : Int × Int :=
  if m = 0 then (0, 0)
  else if 10 ∣ m then stripZeros (m / 10) (e + 1)
  else (m, e)
termination_by m.natAbs
decreasing_by omega

theorem stripZeros_norm (m e : Int) :
    ((stripZeros m e).1 = 0 ∧ (stripZeros m e).2 = 0) ∨ ¬ (10 ∣ (stripZeros m e).1) := by
  fun_induction stripZeros m e with
  | case1 => simp
  | case2 m e h1 h2 ih => exact ih
  | case3 m e h1 h2 => right; exact h2

/-- the float denoted by the decimal `m * 10^e` -/
def mkFlt (m e : Int) : Flt := ⟨(stripZeros m e).1, (stripZeros m e).2, stripZeros_norm m e⟩

/-- the rational value of a float -/
def Flt.toRat (f : Flt) : Rat :=
  if 0 ≤ f.e then (f.m : Rat) * (10 : Rat) ^ f.e.toNat else (f.m : Rat) / (10 : Rat) ^ (-f.e).toNat

/-- exponent part of a Python float `repr`: sign and at least two digits -/
def expStr (x : Int) : Str :=
  (if x < 0 then '-' else '+') :: (if x.natAbs < 10 then '0' :: natStr x.natAbs else natStr x.natAbs)

/-- `repr`/`str` of a non-negative Python float with digits `ds` (shortest round-trip digits) and exponent `e`;
CPython `float_repr_style 'short'`: fixed notation iff `-4 < decpt <= 16`. -/
def floatDigits (ds : Str) (e : Int) : Str :=
  let decpt : Int := ds.length + e
  if -4 < decpt ∧ decpt ≤ 16 then
    if 0 ≤ e then ds ++ List.replicate e.toNat '0' ++ c!".0"
    else if 0 < decpt then ds.take decpt.toNat ++ '.' :: ds.drop decpt.toNat
    else c!"0." ++ List.replicate (-decpt).toNat '0' ++ ds
  else
    match ds with
    | [d] => d :: 'e' :: expStr (decpt - 1)
    | d :: rest => d :: '.' :: rest ++ 'e' :: expStr (decpt - 1)
    | [] => []

/-- `str(x)` of a Python float. -/
def Flt.str (f : Flt) : Str :=
  if f.m < 0 then '-' :: floatDigits (natStr f.m.natAbs) f.e else floatDigits (natStr f.m.natAbs) f.e

/-- mantissa `digits[.digits]` -/
def parseMantissa (s : Str) : Option (Nat × Nat) :=
  match splitFirst (· == '.') s with
  | (i, none) => (parseNat i).map (fun n => (n, 0))
  | (i, some fr) => (parseNat (i ++ fr)).map (fun n => (n, fr.length))

/-- unsigned decimal literal with optional exponent -/
def parseUFloat (s : Str) : Option (Nat × Int) :=
  match splitFirst (fun c => c == 'e' || c == 'E') s with
  | (a, none) => (parseMantissa a).map (fun p => (p.1, -(p.2 : Int)))
  | (a, some x) => match parseMantissa a, readInt x with
    | some p, some k => some (p.1, k - (p.2 : Int))
    | _, _ => none

/-- a decimal literal with optional sign -/
def readFloat : Str → Option Flt
  | '-' :: cs => (parseUFloat cs).map (fun p => mkFlt (-(p.1 : Int)) p.2)
  | '+' :: cs => (parseUFloat cs).map (fun p => mkFlt p.1 p.2)
  | cs => (parseUFloat cs).map (fun p => mkFlt p.1 p.2)

/-- `float(text)`; `none` is `ValueError`. Simplification: `nan` and `inf` (not reached: the code calls `float` only on texts with a point), overflow
to `inf` and the rounding to binary are not modelled here; `Model/FloatRead` has them (property C114: for up to fifteen digits in the normal range nothing differs). -/
def parseFloat (s : Str) : Option Flt := (literal s).bind readFloat

/-- a selector / cell value -/
inductive Val
  | str (s : Str)
  | int (z : Int)
  | flt (f : Flt)
  deriving DecidableEq

namespace Val

/-- `type(v) is str` -/
def isStr : Val → Bool
  | str _ => true
  | _ => false

/-- the number denoted by a numeric value (0 for text; never used there) -/
def num : Val → Rat
  | str _ => 0
  | int z => (z : Rat)
  | flt f => f.toRat

/-- Python `str(v)` -/
def pyStr : Val → Str
  | str s => s
  | int z => intStr z
  | flt f => f.str

/-- Python `a == b` on values: numbers by numeric value, text by content, text never equals a number. -/
def eq : Val → Val → Bool
  | str a, str b => a == b
  | str _, _ => false
  | _, str _ => false
  | a, b => a.num == b.num

/-- Python `a < b` on values; `TypeError` between text and number. -/
def lt? : Val → Val → Except PyErr Bool
  | str a, str b => .ok (strLt a b)
  | str _, _ => .error .typeError
  | _, str _ => .error .typeError
  | a, b => .ok (decide (a.num < b.num))

/-- Python `a <= b` on values. -/
def le? : Val → Val → Except PyErr Bool
  | str a, str b => .ok (strLt a b || a == b)
  | str _, _ => .error .typeError
  | _, str _ => .error .typeError
  | a, b => .ok (decide (a.num ≤ b.num))

end Val

end Verif
