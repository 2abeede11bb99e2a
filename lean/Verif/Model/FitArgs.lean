import Verif.Model.SDMap
import Verif.Model.SDMapStar
import Verif.Model.VLSD
import Verif.Model.BSD
import Verif.Model.IDSD
import Verif.Model.QFinder
import Verif.Model.SDIGA
import Verif.Model.ListMiner
/-! The beginning of every `fit`: the checks of the two arguments, which may be of any type, until the target column has been looked up. -/
namespace Verif
namespace FitArgs

/-- an element of the target tuple: a text, or a number, `None` or another hashable scalar that is not a text. Simplification: elements that pandas treats as a list of labels (lists, arrays, masks,
slices) or that cannot be hashed are not modelled. -/
inductive Item
  | str (s : Str)
  | scalar (id : Nat)
  deriving DecidableEq

/-- an argument: an object whose type is exactly `DataFrame`, one whose type is exactly `tuple`, or anything else (subclasses included) -/
inductive Arg
  | frame (df : Frame)
  | tuple (items : List Item)
  | other (id : Nat)

/-- how the call goes on: it raises (and `emptied` says whether the result file has been opened, hence emptied, before), or it goes on with this data frame, target column and target value -/
inductive Entry
  | refused (e : PyErr) (emptied : Bool)
  | runs (df : Frame) (name : Str) (value : Item)

/-- `pandas_dataframe[x]` exists: columns have texts as names. Simplification: as in `Frame` -/
def column? (df : Frame) : Item → Option (List Val)
  | .str n => df.cols.lookup n
  | .scalar _ => none

/-- `x == v` for a cell `v` -/
def Item.eqVal : Item → Val → Bool
  | .str s, v => v.eq (.str s)
  | .scalar _, _ => false

/-- `pandas_dataframe[target[0]] == target[1]`: the operands are evaluated from left to right -/
def lookupTarget (df : Frame) (items : List Item) (emptied : Bool) : Entry :=
  match items with
  | [] => .refused .indexError emptied
  | .scalar _ :: _ => .refused .keyError emptied
  | .str n :: rest =>
    match column? df (.str n) with
    | none => .refused .keyError emptied
    | some _ => match rest with
      | [] => .refused .indexError emptied
      | v :: _ => .runs df n v

/-- the mask `pandas_dataframe[target[0]] == target[1]` of a call that goes on -/
def Entry.mask : Entry → Option (List Bool)
  | .runs df n v => (column? df (.str n)).map (fun col => col.map v.eqVal)
  | .refused _ _ => none

/-- `SDMap.fit`, `sdmap.py:249-260`, with `fp_tree_for_sdmap.py:112-125`; `SDMapStar.fit`, `sdmapstar.py:358-367`. The file is opened later. -/
def sdmap (a t : Arg) : Entry :=
  match a with
  | .frame df => match t with
    | .tuple items => if !df.nominal then .refused .datasetAttributeType false else lookupTarget df items false
    | _ => .refused .typeError false
  | _ => .refused .typeError false

/-- `VLSD.fit`, `vlsd.py:336-348`: the file is opened before the target is looked up -/
def vlsd (a t : Arg) : Entry :=
  match a with
  | .frame df => match t with
    | .tuple items => if !df.nominal then .refused .datasetAttributeType false else lookupTarget df items true
    | _ => .refused .typeError false
  | _ => .refused .typeError false

/-- `BSD.fit`, `bsd.py:410-424` -/
def bsd (a t : Arg) : Entry :=
  match a with
  | .frame df => match t with
    | .tuple items =>
      if items.length ≠ 2 then .refused .valueError false
      else match items with
        | .str _ :: _ => if !df.nominal then .refused .datasetAttributeType false else lookupTarget df items false
        | _ => .refused .valueError false
    | _ => .refused .typeError false
  | _ => .refused .typeError false

/-- `IDSD.fit`, `idsd.py:381-392` -/
def idsd (a t : Arg) : Entry :=
  match a with
  | .frame df => match t with
    | .tuple items =>
      if !df.nominal then .refused .datasetAttributeType false
      else match items with
        | [] => .refused .indexError false
        | .scalar _ :: _ => .refused .valueError false
        | .str n :: rest => match column? df (.str n) with
          | none => .refused .valueError false
          | some col => match rest with
            | [] => .refused .indexError false
            | v :: _ => if col.any v.eqVal then .runs df n v else .refused .valueError false
    | _ => .refused .typeError false
  | _ => .refused .typeError false

/-- `QFinder.fit`, `qfinder.py:294-303`, with the checks of `_generate_candidate_patterns`, `qfinder.py:138-149` -/
def qfinder (a t : Arg) : Entry :=
  match a with
  | .frame df => match t with
    | .tuple items =>
      if !df.nominal then .refused .datasetAttributeType false
      else if items.length ≠ 2 then .refused .inconsistentParameters false
      else lookupTarget df items false
    | _ => .refused .typeError false
  | _ => .refused .typeError false

/-- `SDIGA.fit`, `sdiga.py:543-560`: the file is opened after the checks -/
def sdiga (a t : Arg) : Entry :=
  match a with
  | .frame df => match t with
    | .tuple items =>
      match items with
      | [.str n, .str v] =>
        if !df.nominal then .refused .datasetAttributeType false
        else match column? df (.str n) with
          | none => .refused .keyError false
          | some col => if col.any (Item.str v).eqVal then .runs df n (.str v) else .refused .valueError false
      | [_, _] => .refused .typeError false
      | _ => .refused .valueError false
    | _ => .refused .typeError false
  | _ => .refused .datasetAttributeType false

/-- `GMSL.fit`, `gmsl.py:200-213`; `PSLD.fit`, `psld.py:96-109`; `DSLM.fit`, `dslm.py:103-116`: the output file is opened after the target has been looked up -/
def lists (a t : Arg) : Entry :=
  match a with
  | .frame df =>
    if df.nrows = 0 then .refused .valueError false
    else match t with
      | .tuple items => if !df.nominal then .refused .datasetAttributeType false else lookupTarget df items false
      | _ => .refused .typeError false
  | _ => .refused .typeError false

end FitArgs
end Verif
