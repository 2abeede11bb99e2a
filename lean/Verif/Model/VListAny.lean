import Verif.Model.VerticalList
import Verif.Model.Ctors
/-! `vertical_list.py`, `vertical_list_with_sets.py` and `vertical_list_with_bitsets.py` on any row numbers (repeated, negative, out of range, not even
numbers), any number of rows, any quality value and arguments of any type. `Model/VerticalList` is the part that VLSD uses. -/
namespace Verif
namespace VListAny
open Ctors (Obj)

/-- an element of a sequence of instances: an integer, or an object that is not an index (text, float, `None`, dictionary, ...), hashable or not.
Not modelled: `bool` elements (equal to 0 and 1), and lists, tuples, slices and bitarrays as elements, which a bitarray accepts as index. -/
inductive Elem
  | int (k : Int)
  | other (id : Nat) (hashable : Bool)
  deriving DecidableEq

/-- can be an element of a Python set -/
def Elem.hashable : Elem → Bool
  | .int _ => true
  | .other _ h => h

/-- `VerticalList` objects; `quality_value` is an object -/
structure VL (σ Seq : Type) where
  sels : List σ
  tpSeq : Seq
  fpSeq : Seq
  tp : Nat
  fp : Nat
  rows : Int
  quality : Obj
  deriving DecidableEq

/-- a call of a constructor: `none` for an object that is not a `list` (selectors) or not a `Collection` (sequences) -/
structure Call (σ : Type) where
  sels : Option (List σ)
  tp : Option (List Elem)
  fp : Option (List Elem)
  rows : Obj
  quality : Obj

/-- `VerticalList.__init__`, `vertical_list.py:23-36`: the checks, and the arguments that passed them -/
def check {σ : Type} (c : Call σ) : Except PyErr (List σ × List Elem × List Elem × Int × Obj) :=
  match c.sels with
  | none => .error .typeError
  | some s => match c.tp with
    | none => .error .typeError
    | some t => match c.fp with
      | none => .error .typeError
      | some f => match c.rows with
        | .int n => if !c.quality.isInt && !c.quality.isFloat then .error .typeError else .ok (s, t, f, n, c.quality)
        | _ => .error .typeError

/-- `set(sequence)` -/
def toSet (l : List Elem) : Except PyErr (List Elem) := if l.all Elem.hashable then .ok l.dedup else .error .typeError

/-- `VerticalListWithSets.__init__`, `vertical_list_with_sets.py:30-38` -/
def newSets {σ : Type} (c : Call σ) : Except PyErr (VL σ (List Elem)) := do
  let (s, t, f, n, q) ← check c
  let ts ← toSet t
  let fs ← toSet f
  return ⟨s, ts, fs, t.length, f.length, n, q⟩

/-- `for elem in sequence: bits[elem] = 1`: a negative number counts from the end, `IndexError` out of range, `TypeError` for other objects -/
def markBits : Bits → List Elem → Except PyErr Bits
  | b, [] => .ok b
  | b, .int k :: xs =>
    if 0 ≤ k ∧ k < b.length then markBits (b.set k.toNat true) xs
    else if k < 0 ∧ -(b.length : Int) ≤ k then markBits (b.set (k + b.length).toNat true) xs
    else .error .indexError
  | _, .other _ _ :: _ => .error .typeError

/-- `VerticalListWithBitsets.__init__`, `vertical_list_with_bitsets.py:31-45`; `bitarray(n)` refuses a negative length with `ValueError` -/
def newBits {σ : Type} (c : Call σ) : Except PyErr (VL σ Bits) := do
  let (s, t, f, n, q) ← check c
  if n < 0 then .error .valueError
  else do
    let tb ← markBits (List.replicate n.toNat false) t
    let fb ← markBits (List.replicate n.toNat false) f
    return ⟨s, tb, fb, t.length, f.length, n, q⟩

/-- a call of `join` or `compute_quality_value` on an object: `none` for an object of a wrong type (another class of vertical lists, not a
quality measure, not a `dict`, not a `bool`) -/
structure JoinCall (σ Seq : Type) where
  other : Option (VL σ Seq)
  measure : Option (Params → Except PyErr Obj)
  params : Option Params
  noneIf0 : Option Bool

section
variable {σ Seq : Type}

/-- `join`, `vertical_list_with_sets.py:76-120` and `vertical_list_with_bitsets.py:93-137`; `inter` is `intersection` or `&`, `size` is `len` or
`count(1)`. The constructor called at the end checks the type of the new quality value. -/
def join (inter : Seq → Seq → Seq) (size : Seq → Nat) (a : VL σ Seq) (c : JoinCall σ Seq) : Except PyErr (Option (VL σ Seq)) :=
  match c.other with
  | none => .error .typeError
  | some b => match c.measure with
    | none => .error .typeError
    | some m => match c.params with
      | none => .error .typeError
      | some d => match c.noneIf0 with
        | none => .error .typeError
        | some z =>
          if a.rows ≠ b.rows then .error .verticalListSize
          else if !z || decide (size (inter a.tpSeq b.tpSeq) + size (inter a.fpSeq b.fpSeq) > 0) then
            match b.sels.getLast? with
            | none => .error .indexError
            | some s => match m (vlParams d (size (inter a.tpSeq b.tpSeq)) (size (inter a.fpSeq b.fpSeq))) with
              | .error e => .error e
              | .ok q =>
                if !q.isInt && !q.isFloat then .error .typeError
                else .ok (some ⟨a.sels ++ [s], inter a.tpSeq b.tpSeq, inter a.fpSeq b.fpSeq, size (inter a.tpSeq b.tpSeq), size (inter a.fpSeq b.fpSeq), a.rows, q⟩)
          else .ok none

/-- `compute_quality_value`, `vertical_list_with_sets.py:60-74`, `vertical_list_with_bitsets.py:77-91`: no check of the result -/
def computeQuality (m : Option (Params → Except PyErr Obj)) (d : Option Params) (v : VL σ Seq) : Except PyErr Obj :=
  match m with
  | none => .error .typeError
  | some m => match d with
    | none => .error .typeError
    | some d => m (vlParams d v.tp v.fp)

/-- the setter of `quality_value`, `vertical_list.py:74-75`: any object is stored -/
def setQuality (v : VL σ Seq) (q : Obj) : VL σ Seq := { v with quality := q }

end

/-- `a.intersection(b)` -/
def interSets (a b : List Elem) : List Elem := a.filter (fun x => b.contains x)

/-- a program that creates vertical lists, joins them with measures and dictionaries of its choice and assigns quality values -/
inductive Prog (σ : Type)
  | new (c : Call σ)
  | join (a b : Prog σ) (m : Params → Except PyErr Obj) (d : Params) (z : Bool)
  | setQuality (a : Prog σ) (q : Obj)

/-- run the program with one implementation; an operation on `None` is `AttributeError` (on the left) or `TypeError` (on the right) -/
def Prog.eval {σ Seq : Type} (new : Call σ → Except PyErr (VL σ Seq)) (inter : Seq → Seq → Seq) (size : Seq → Nat) :
    Prog σ → Except PyErr (Option (VL σ Seq))
  | .new c => match new c with
    | .error e => .error e
    | .ok v => .ok (some v)
  | .join a b m d z => match a.eval new inter size with
    | .error e => .error e
    | .ok none => .error .attributeError
    | .ok (some x) => match b.eval new inter size with
      | .error e => .error e
      | .ok y => VListAny.join inter size x ⟨y, some m, some d, some z⟩
  | .setQuality a q => match a.eval new inter size with
    | .error e => .error e
    | .ok none => .error .attributeError
    | .ok (some x) => .ok (some (VListAny.setQuality x q))

/-- the program with the class `VerticalListWithSets` -/
def Prog.sets {σ : Type} (p : Prog σ) : Except PyErr (Option (VL σ (List Elem))) := p.eval newSets interSets List.length
/-- the program with the class `VerticalListWithBitsets` -/
def Prog.bits {σ : Type} (p : Prog σ) : Except PyErr (Option (VL σ Bits)) := p.eval newBits Bits.and Bits.ones

end VListAny
end Verif
