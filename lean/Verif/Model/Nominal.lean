import Mathlib.Data.List.Dedup
import Verif.Model.FPTree
import Verif.Model.Subgroup
/-! What the nominal-attribute algorithms read from the data frame: `generate_set_of_frequent_selectors` and the row scan of
`build_tree` (`data_structures/fp_tree_for_sdmap.py`). -/
namespace Verif

/-- `repr(s)` of a Python `str`: simple quotes unless the text contains simple quotes and no double ones. Simplification:
of the special characters only the backslash, the quote, newline, tab and carriage return are escaped (Python also
escapes non-printable ones, by their code). -/
def escChar (q c : Char) : Str :=
  if c = q ∨ c = '\\' then ['\\', c]
  else if c = '\n' then c!"\\n" else if c = '\t' then c!"\\t" else if c = '\r' then c!"\\r" else [c]

def reprStr (s : Str) : Str :=
  let q := if '\'' ∈ s ∧ '"' ∉ s then '"' else '\''
  q :: (s.flatMap (escChar q) ++ [q])

/-- `repr(v)` of a cell -/
def Val.repr : Val → Str
  | .str s => reprStr s
  | v => v.pyStr

/-- the dictionary key `attribute_name + repr(value)` of a selector -/
def Selector.dictKey (s : Selector) : Str := s.attr ++ s.val.repr

/-- every cell of every column is a text (`is_string_dtype` on each column, `sdmap.py:254-256`). Simplification: a column without rows counts as text; pandas accepts it only if its dtype is
`object` or a text type. -/
def Frame.nominal (df : Frame) : Bool := df.cols.all (fun c => c.2.all Val.isStr)

/-- `df[target[0]] == target[1]` -/
def targetMask (df : Frame) (target : Str × Str) : Except PyErr (List Bool) :=
  match df.col target.1 with
  | .ok col => .ok (col.map (fun v => v.eq (.str target.2)))
  | .error e => .error e

/-- order of the groups of `groupby` (sorted distinct values) -/
def valLe (a b : Val) : Bool :=
  match Val.le? a b with
  | .ok r => r
  | .error _ => false

def groupKeys (col : List Val) : List Val := stableSort valLe col.dedup

/-- `groupby(col).aggregate(["size", "sum"])` of the mask, for one value: (tp, fp) = (sum, size - sum) -/
def groupCnt (col : List Val) (mask : List Bool) (v : Val) : Cnt :=
  let size := (col.zip mask).countP (fun e => e.1 = v)
  let sum := (col.zip mask).countP (fun e => e.1 = v ∧ e.2)
  (sum, size - sum)

/-- `d[k] = v` -/
def FreqDict.set {σ κ : Type} [DecidableEq κ] (d : FreqDict σ κ) (k : κ) (v : σ × Cnt × Int) : FreqDict σ κ :=
  if (d.map (·.1)).contains k then d.map (fun e => if e.1 = k then (e.1, v) else e) else d ++ [(k, v)]

/-- `df.columns.drop(name)` -/
def otherCols (df : Frame) (name : Str) : List (Str × List Val) := df.cols.filter (fun c => c.1 ≠ name)

/-- `generate_set_of_frequent_selectors`, `fp_tree_for_sdmap.py:102-168` -/
def frequentSelectors (th : Thresholds) (df : Frame) (tname : Str) (mask : List Bool) : FreqDict Selector Str :=
  ((otherCols df tname).foldl (fun st c =>
    ((groupKeys c.2).filter (fun v => th.ok (groupCnt c.2 mask v))).foldl
      (fun (st : FreqDict Selector Str × Int) v =>
        (st.1.set (c.1 ++ v.repr) (⟨c.1, .equal, v⟩, groupCnt c.2 mask v, st.2), st.2 + 1)) st) (([], 0) : FreqDict Selector Str × Int)).1

/-- the keys of the cells of row `i` (except the target), `fp_tree_for_sdmap.py:240-252` -/
def rowKeys (df : Frame) (tname : Str) (i : Nat) : List Str :=
  (otherCols df tname).filterMap (fun c => (c.2[i]?).map (fun v => c.1 ++ v.repr))

/-- the rows scanned by `build_tree`, `fp_tree_for_sdmap.py:238-260` -/
def keyRows (df : Frame) (tname : Str) (mask : List Bool) : List (List Str × Bool) :=
  (List.range df.nrows).map (fun i => (rowKeys df tname i, mask[i]?.getD false))

end Verif
