import Verif.Model.Ctors
/-! What the documentation says about the arguments of the constructors. Independent of the checks of the model: only the constructors of `Obj` are used. -/
namespace Verif
namespace Ctors

/-- an `int` (a `bool` is not one) -/
def IsInt (o : Obj) : Prop := ∃ i, o = .int i
/-- a `float` -/
def IsFloat (o : Obj) : Prop := ∃ f, o = .float f
/-- an `int` or a `float` -/
def IsNumber (o : Obj) : Prop := IsInt o ∨ IsFloat o
def IsBool (o : Obj) : Prop := ∃ b, o = .bool b
def IsText (o : Obj) : Prop := ∃ s, o = .str s
def IsDict (o : Obj) : Prop := ∃ d, o = .dict d
/-- an instance of a subclass of `QualityMeasure` -/
def IsMeasure (o : Obj) : Prop := ∃ i n es, o = .measure i n es
def IsTextOrNone (o : Obj) : Prop := IsText o ∨ o = .none
def IsIntOrNone (o : Obj) : Prop := IsInt o ∨ o = .none

/-- the finite number `q` -/
def Value (o : Obj) (q : Rat) : Prop := (∃ i : Int, o = .int i ∧ q = i) ∨ o = .float (.fin q)

/-- a number between 0 and 1 (or `nan`, which no range check refuses) -/
def UnitOrNan (o : Obj) : Prop := o = .float .nan ∨ ∃ q, Value o q ∧ 0 ≤ q ∧ q ≤ 1
/-- a number from 0 (`inf` and `nan` included) -/
def NonNegOrNan (o : Obj) : Prop := o = .float .nan ∨ o = .float .pinf ∨ ∃ q, Value o q ∧ 0 ≤ q
/-- a probability strictly between 0 and 1 (or `nan`), as a `float` -/
def OpenUnitOrNan (o : Obj) : Prop := o = .float .nan ∨ ∃ q, o = .float (.fin q) ∧ 0 < q ∧ q < 1
/-- an `int` that is positive -/
def PosInt (o : Obj) : Prop := ∃ i : Int, o = .int i ∧ 0 < i

/-- the second measure declares itself an estimate of the first one -/
def Declared (quality estimate : Obj) : Prop := ∃ i n es i' n' es', quality = .measure i n es ∧ estimate = .measure i' n' es' ∧ n ∈ es'

/-- a path is given if results are to be written -/
def FileArgs (write path : Obj) : Prop := ¬ (write = .bool true ∧ path = .none)

/-- either both `minimum_tp` and `minimum_fp`, or `minimum_n` -/
def OneWay (tp fp n : Obj) : Prop := (tp ≠ .none ∧ fp ≠ .none ∧ n = .none) ∨ (tp = .none ∧ fp = .none ∧ n ≠ .none)

/-- the dictionary without the four counts -/
def Without (extra : Obj) (d : Dict Nat) : Prop := ∃ d0, extra = .dict d0 ∧ d = d0.filter (fun e => e.1 ∉ [c!"tp", c!"fp", c!"TP", c!"FP"])

/-- the path that is remembered: the one given if results are to be written, else none -/
def Path (write path p : Obj) : Prop := (write = .bool true ∧ p = path) ∨ (write = .bool false ∧ p = .none)

/-- false in a condition -/
def Falsy (o : Obj) : Prop := o = .none ∨ o = .bool false ∨ o = .int 0 ∨ o = .float (.fin 0) ∨ o = .str [] ∨ o = .dict []

end Ctors
end Verif
