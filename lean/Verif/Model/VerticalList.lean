import Verif.Model.Quality
import Verif.Model.Bits
import Mathlib.Data.List.Dedup
/-! Model of `src/subgroups/data_structures/vertical_list_with_sets.py` and `vertical_list_with_bitsets.py`. `σ` is the
type of selectors, `quality` the `compute` method of the measure in use. Rows are numbered from 0; negative row numbers
(which Python's indexing would accept) are not modelled. -/
namespace Verif

/-- `VerticalList` objects; `Seq` is the type of the two sequences of instances (a Python set, or a bitarray) -/
structure VList (σ Seq : Type) where
  sels : List σ
  tpSeq : Seq
  fpSeq : Seq
  tp : Nat
  fp : Nat
  rows : Nat
  quality : Rat
  deriving DecidableEq

/-- the dictionary completed by `join`, `vertical_list_with_sets.py:107-110`, `vertical_list_with_bitsets.py:124-127` -/
def vlParams (d : Params) (tp fp : Nat) : Params := (d.set kTp tp).set kFp fp

namespace VListSet
variable {σ : Type}

/-- `set(sequence)`: the elements without repetition (a set has no order; the list is one of its enumerations) -/
def toSet (l : List Nat) : List Nat := l.dedup

/-- `VerticalListWithSets.__init__`, `vertical_list_with_sets.py:30-38`: the counters are the lengths of the arguments -/
def new (sels : List σ) (tpSeq fpSeq : List Nat) (rows : Nat) (q : Rat) : Except PyErr (VList σ (List Nat)) :=
  .ok ⟨sels, toSet tpSeq, toSet fpSeq, tpSeq.length, fpSeq.length, rows, q⟩

/-- `a.intersection(b)` -/
def inter (a b : List Nat) : List Nat := a.filter (fun x => b.contains x)

/-- `VerticalListWithSets.join`, `vertical_list_with_sets.py:76-120`; `none` is the Python `None` -/
def join (quality : Params → Except PyErr Rat) (d : Params) (noneIf0 : Bool) (a b : VList σ (List Nat)) :
    Except PyErr (Option (VList σ (List Nat))) :=
  if a.rows ≠ b.rows then .error .verticalListSize
  else
    let t := inter a.tpSeq b.tpSeq
    let f := inter a.fpSeq b.fpSeq
    if !noneIf0 || decide (t.length + f.length > 0) then
      match b.sels.getLast? with
      | none => .error .indexError
      | some s => match quality (vlParams d t.length f.length) with
        | .error e => .error e
        | .ok q => .ok (some ⟨a.sels ++ [s], t, f, t.length, f.length, a.rows, q⟩)
    else .ok none

end VListSet

namespace VListBits
variable {σ : Type}

/-- `for elem in sequence: bits[elem] = 1`; `IndexError` out of range -/
def setBits : Bits → List Nat → Except PyErr Bits
  | b, [] => .ok b
  | b, x :: xs => if x < b.length then setBits (b.set x true) xs else .error .indexError

/-- `VerticalListWithBitsets.__init__`, `vertical_list_with_bitsets.py:31-45` -/
def new (sels : List σ) (tpSeq fpSeq : List Nat) (rows : Nat) (q : Rat) : Except PyErr (VList σ Bits) :=
  match setBits (List.replicate rows false) tpSeq with
  | .error e => .error e
  | .ok t => match setBits (List.replicate rows false) fpSeq with
    | .error e => .error e
    | .ok f => .ok ⟨sels, t, f, tpSeq.length, fpSeq.length, rows, q⟩

/-- `VerticalListWithBitsets.join`, `vertical_list_with_bitsets.py:93-137` -/
def join (quality : Params → Except PyErr Rat) (d : Params) (noneIf0 : Bool) (a b : VList σ Bits) :
    Except PyErr (Option (VList σ Bits)) :=
  if a.rows ≠ b.rows then .error .verticalListSize
  else
    let t := a.tpSeq.and b.tpSeq
    let f := a.fpSeq.and b.fpSeq
    if !noneIf0 || decide (t.ones + f.ones > 0) then
      match b.sels.getLast? with
      | none => .error .indexError
      | some s => match quality (vlParams d t.ones f.ones) with
        | .error e => .error e
        | .ok q => .ok (some ⟨a.sels ++ [s], t, f, t.ones, f.ones, a.rows, q⟩)
    else .ok none

end VListBits

/-- `compute_quality_value`, `vertical_list_with_sets.py:60-74`, `vertical_list_with_bitsets.py:77-91` -/
def VList.computeQuality {σ Seq : Type} (quality : Params → Except PyErr Rat) (d : Params) (v : VList σ Seq) : Except PyErr Rat :=
  quality (vlParams d v.tp v.fp)

/-- a program that creates vertical lists and joins them in any way -/
inductive JExpr (σ : Type)
  | new (sels : List σ) (tpSeq fpSeq : List Nat) (rows : Nat) (q : Rat)
  | join (a b : JExpr σ)

/-- run the program with one implementation; a join with something that is not a vertical list is not reached -/
def JExpr.eval {σ Seq : Type}
    (new : List σ → List Nat → List Nat → Nat → Rat → Except PyErr (VList σ Seq))
    (join : VList σ Seq → VList σ Seq → Except PyErr (Option (VList σ Seq))) : JExpr σ → Except PyErr (Option (VList σ Seq))
  | .new s t f n q => match new s t f n q with | .error e => .error e | .ok v => .ok (some v)
  | .join a b => match a.eval new join with
    | .error e => .error e
    | .ok none => .ok none
    | .ok (some x) => match b.eval new join with
      | .error e => .error e
      | .ok none => .ok none
      | .ok (some y) => join x y

end Verif
