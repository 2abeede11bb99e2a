import Verif.Model.Subgroup
/-! Row labels and the Boolean `Series` of `Pattern.is_contained`, `Subgroup.filter` and `filter_by_list_of_selectors`.

The other modules take data frames whose row labels (`DataFrame.index`) are `0..n-1`. `is_contained` starts from `Series([True] * n)`,
which has the labels `0..n-1` whatever the labels of the data frame are, and `&` between two `Series` aligns them by label. Here the labels are
explicit: `labels` is `pandas_dataframe.index`, one label per row, `pos i` is the label that is the number `i`, and a `Series` of Booleans is
the list of its (label, value) pairs, in order. -/
namespace Verif
variable {ι : Type} [DecidableEq ι]

/-- the entries of the outer join that come from one entry of the left side: one for each entry with the same label on the right side, and a `False` if there
is none; see `alignAnd` -/
def joinAt (right : List (ι × Bool)) (a : ι × Bool) : List (ι × Bool) :=
  match right.filter (fun b => decide (b.1 = a.1)) with
  | [] => [(a.1, false)]
  | bs => bs.map (fun b => (a.1, a.2 && b.2))

/-- `left & right` for two Boolean `Series` (`core/pattern.py:108`, `core/subgroup.py:68,70`, `utils/dataframe_filters.py:31`). pandas:
if both have the same labels in the same order, element by element; otherwise the outer join of the labels, where each pair of entries with the same
label gives one entry, and a label that is only on one side gives `False`. `ord` is the order of the joined labels (ascending when they can be sorted,
else as found): pandas does not promise more, so it is a parameter. -/
def alignAnd (ord : List (ι × Bool) → List (ι × Bool)) (left right : List (ι × Bool)) : List (ι × Bool) :=
  if left.map (·.1) = right.map (·.1) then List.zipWith (fun a b => (a.1, a.2 && b.2)) left right
  else ord (left.flatMap (joinAt right) ++ (right.filter (fun b => !(left.map (·.1)).contains b.1)).map (fun b => (b.1, false)))

/-- The loop of `Pattern.is_contained` (`core/pattern.py:103-110`) and of `filter_by_list_of_selectors` (`utils/dataframe_filters.py:26-32`);
`match` of a column keeps the labels of the data frame -/
def containedLoopL (ord : List (ι × Bool) → List (ι × Bool)) (labels : List ι) (df : Frame) :
    List Selector → List (ι × Bool) → Except PyErr (List (ι × Bool))
  | [], acc => .ok acc
  | s :: rest, acc =>
    if acc.any (·.2) then
      match df.col s.attr with
      | .error e => .error e
      | .ok col => match s.matchSeries col with
        | .error e => .error e
        | .ok m => containedLoopL ord labels df rest (alignAnd ord acc (labels.zip m))
    else .ok acc

/-- `Series([True] * len(pandas_dataframe))`, `core/pattern.py:100`, `utils/dataframe_filters.py:23`: labels `0..n-1` -/
def allTrue (pos : Nat → ι) (n : Nat) : List (ι × Bool) := (List.range n).map (fun i => (pos i, true))

/-- `Pattern.is_contained`, `core/pattern.py:92-110`, on a data frame with the given row labels -/
def Pattern.isContainedL (pos : Nat → ι) (ord : List (ι × Bool) → List (ι × Bool)) (p : Pattern) (labels : List ι) (df : Frame) :
    Except PyErr (List (ι × Bool)) :=
  containedLoopL ord labels df p.sels (allTrue pos df.nrows)

/-- `Subgroup.filter`, `core/subgroup.py:47-72`, on a data frame with the given row labels -/
def Subgroup.filterL (pos : Nat → ι) (ord : List (ι × Bool) → List (ι × Bool)) (s : Subgroup) (labels : List ι) (df : Frame) :
    Except PyErr (List (ι × Bool) × List (ι × Bool) × List (ι × Bool)) :=
  match Subgroup.dropColumn df s.target.attr with
  | .error e => .error e
  | .ok rest => match df.col s.target.attr with
    | .error e => .error e
    | .ok targetCol => match s.description.isContainedL pos ord labels rest with
      | .error e => .error e
      | .ok contained => match s.target.matchSeries targetCol with
        | .error e => .error e
        | .ok m => .ok (alignAnd ord contained (labels.zip m), alignAnd ord contained (labels.zip (m.map (!·))), labels.zip m)

/-- what `filter_by_list_of_selectors` does: return the rows (as row numbers), raise one of its own exceptions, or raise the `IndexingError`
of pandas ("Unalignable boolean Series provided as indexer") -/
inductive RowsOut
  | rows (l : List Nat)
  | raises (e : PyErr)
  | unalignable
  deriving DecidableEq

/-- `pandas_dataframe[mask]`, `utils/dataframe_filters.py:33`: pandas looks up the label of each row in the mask. Simplification: with repeated
labels pandas takes all entries of the mask with the label (and then may fail); here the first one is taken, so the theorems about this
function ask for different labels. -/
def maskRows (labels : List ι) (mask : List (ι × Bool)) : RowsOut :=
  if labels.all (fun x => (mask.map (·.1)).contains x) then
    .rows ((List.range labels.length).filter (fun i => (labels[i]?.bind (fun x => mask.lookup x)) == some true))
  else .unalignable

/-- `filter_by_list_of_selectors`, `utils/dataframe_filters.py:12-33`, on a data frame with the given row labels -/
def filterByListOfSelectorsL (pos : Nat → ι) (ord : List (ι × Bool) → List (ι × Bool)) (labels : List ι) (df : Frame)
    (l : List Selector) : RowsOut :=
  match containedLoopL ord labels df l (allTrue pos df.nrows) with
  | .error e => .raises e
  | .ok mask => maskRows labels mask

end Verif
