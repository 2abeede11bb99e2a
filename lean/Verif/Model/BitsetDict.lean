import Verif.Model.BSD
import Verif.Model.FitArgs
/-! Model of the class `BitsetDictionary` and of a `BitsetBSD` object with its life, `src/subgroups/data_structures/bitset_bsd.py`: a dictionary whose keys are given as
selectors or patterns and are stored as texts. -/
namespace Verif
namespace BitsetDict

/-- what is written between the brackets of `d[...]`: an object whose type is exactly `Selector`, one whose type is exactly `Pattern`, or anything else -/
inductive Key
  | sel (s : Selector)
  | pat (p : Pattern)
  | other (id : Nat)
  deriving DecidableEq

/-- what is stored: a `bitarray`, or anything else -/
inductive Item
  | bits (b : Bits)
  | other (id : Nat)
  deriving DecidableEq

/-- the text under which the parent class keeps the entry: `str(Pattern([key]))` or `str(key)`, `bitset_bsd.py:28-31`, `:36-39`, `:44-47` -/
def Key.text : Key → Except PyErr Str
  | .sel s => .ok (Pattern.new [s]).str
  | .pat p => .ok p.str
  | .other _ => .error .typeError

/-- `BitsetDictionary.__setitem__`, `bitset_bsd.py:25-33` -/
def setitem (d : Dict Bits) (k : Key) (v : Item) : Except PyErr (Dict Bits) :=
  match v with
  | .other _ => .error .typeError
  | .bits b => match k.text with
    | .error e => .error e
    | .ok t => .ok (d.set t b)

/-- `BitsetDictionary.__getitem__`, `bitset_bsd.py:35-41` -/
def getitem (d : Dict Bits) (k : Key) : Except PyErr Bits :=
  match k.text with
  | .error e => .error e
  | .ok t => match d.lookup t with
    | some b => .ok b
    | none => .error .keyError

/-- `BitsetDictionary.__contains__`, `bitset_bsd.py:43-49` -/
def contains (d : Dict Bits) (k : Key) : Except PyErr Bool :=
  match k.text with
  | .error e => .error e
  | .ok t => .ok (d.lookup t).isSome

/-- the loop of the generator `__iter__`, `bitset_bsd.py:21-23`: the patterns that are yielded, and the exception that ends the iteration, if any -/
def iterLoop : List Str → List Pattern × Option PyErr
  | [] => ([], none)
  | t :: rest => match Pattern.generateFromStr t with
    | .error e => ([], some e)
    | .ok p => ((p :: (iterLoop rest).1), (iterLoop rest).2)

/-- `for p in d`, `bitset_bsd.py:21-23` -/
def iter (d : Dict Bits) : List Pattern × Option PyErr := iterLoop (d.map (·.1))

/-- `d.get(key)`: the class does not redefine it, so `dict.get` looks for the object itself (`bitset_bsd.py:15-49`). A pattern cannot be hashed (`core/pattern.py:148-156` defines
`__eq__` without `__hash__`). A selector has the hash of its own text (`core/selector.py:190-191`): with an entry of the same text the comparison of the text with the selector
raises (`core/selector.py:106-109`). Simplification: two different texts are taken to have different hashes, and the other objects to be hashable, unequal to every text. -/
def inheritedGet (d : Dict Bits) (k : Key) : Except PyErr (Option Bits) :=
  match k with
  | .pat _ => .error .typeError
  | .sel s => if d.any (fun e => e.1 == s.str) then .error .typeError else .ok none
  | .other _ => .ok none

end BitsetDict

/-- a `BitsetBSD` object: the two dictionaries, and `_TP` and `_FP`, which do not exist before the first `build_bitset`, `bitset_bsd.py:51-63` -/
structure BitsetObj where
  pos : Dict Bits
  neg : Dict Bits
  TP : Option Nat
  FP : Option Nat
  deriving DecidableEq

namespace BitsetObj
open BitsetDict

/-- `BitsetBSD()`, `bitset_bsd.py:57-63` -/
def new : BitsetObj := ⟨[], [], none, none⟩

/-- the loop of `build_bitset` that fills the dictionaries, `bitset_bsd.py:140-148`; `P`, `N` are the rows with and without the target -/
def fill (P N : List Nat) : List ((Str × List Val) × Val) → Dict Bits × Dict Bits → Except PyErr (Dict Bits × Dict Bits)
  | [], d => .ok d
  | e :: rest, d =>
    match setitem d.1 (.sel ⟨e.1.1, .equal, e.2⟩) (.bits (BitsetBSD.bitsOf P e.1.2 e.2)) with
    | .error x => .error x
    | .ok p => match setitem d.2 (.sel ⟨e.1.1, .equal, e.2⟩) (.bits (BitsetBSD.bitsOf N e.1.2 e.2)) with
      | .error x => .error x
      | .ok n => fill P N rest (p, n)

/-- `build_bitset` on an object that may have been used before, `bitset_bsd.py:96-148` (without the checks of types): the dictionaries are not emptied.
`freq` is the list of frequent selectors that the caller gives. -/
def build (o : BitsetObj) (df : Frame) (target : Str × Str) (freq : List Selector) : Except PyErr BitsetObj :=
  match targetMask df target with
  | .error e => .error e
  | .ok mask =>
    let P := BitsetBSD.rowsWhere df.nrows mask true
    let N := BitsetBSD.rowsWhere df.nrows mask false
    match fill P N ((BitsetBSD.pairs df target.1).filter (fun e => freq.any (fun t => (⟨e.1.1, .equal, e.2⟩ : Selector).eq t))) (o.pos, o.neg) with
    | .error e => .error e
    | .ok d => .ok ⟨d.1, d.2, some P.length, some N.length⟩

/-- `all_true_positives`, `bitset_bsd.py:207-212`: an attribute of `__slots__` that was never written does not exist -/
def allTruePositives (o : BitsetObj) : Except PyErr Bits :=
  match o.TP with
  | some n => .ok (List.replicate n true)
  | none => .error .attributeError

/-- `all_true_negatives`, `bitset_bsd.py:214-219` -/
def allTrueNegatives (o : BitsetObj) : Except PyErr Bits :=
  match o.FP with
  | some n => .ok (List.replicate n true)
  | none => .error .attributeError

/-- the setter of `bitset_pos`, `bitset_bsd.py:79-84`, `:93` -/
def setPos (o : BitsetObj) (d : Dict Bits) : BitsetObj := { o with pos := d }

/-- the setter of `bitset_neg`, `bitset_bsd.py:86-91`, `:94` -/
def setNeg (o : BitsetObj) (d : Dict Bits) : BitsetObj := { o with neg := d }

open FitArgs in
/-- the checks of `build_bitset`, `bitset_bsd.py:110-119`, and the look-up of the target, `:133`; `isList` says whether `set_of_frequent_selectors` is of type `list`. There is no result file. -/
def buildEntry (a : Arg) (isList : Bool) (t : Arg) : Entry :=
  match a with
  | .frame df =>
    if !isList then .refused .typeError false
    else match t with
      | .tuple items =>
        if items.length ≠ 2 then .refused .valueError false
        else match items with
          | .str _ :: _ => lookupTarget df items false
          | _ => .refused .valueError false
      | _ => .refused .typeError false
  | _ => .refused .typeError false

open FitArgs in
/-- the checks of `generate_set_of_frequent_selectors`, `bitset_bsd.py:169-182`; `isNumber` says whether `min_support` is of type `int` or `float` -/
def frequentEntry (a t : Arg) (isNumber : Bool) : Entry :=
  match a with
  | .frame df => match t with
    | .tuple items =>
      if items.length ≠ 2 then .refused .valueError false
      else match items with
        | .str n :: _ =>
          match column? df (.str n) with
          | none => .refused .valueError false
          | some _ => if !isNumber then .refused .typeError false else lookupTarget df items false
        | _ => .refused .valueError false
    | _ => .refused .typeError false
  | _ => .refused .typeError false

end BitsetObj
end Verif
