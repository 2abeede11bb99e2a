import Verif.Model.SDMapStar
/-! Row labels. The other modules take data frames whose row labels are all different (a `RangeIndex`). `build_tree` reads the
cells by label, so here the labels are explicit: `labels` is `pandas_dataframe.index`, one label per row. What the rest of `fit`
reads (masks, `groupby`, numbers of rows) does not depend on the labels. -/
namespace Verif
variable {ι : Type} [DecidableEq ι]

/-- the cells of a column in the rows with the label `l` -/
def locCells (labels : List ι) (col : List Val) (l : ι) : List Val :=
  ((labels.zip col).filter (fun e => decide (e.1 = l))).map (·.2)

/-- `column + repr(pandas_dataframe.loc[row, column])`, `fp_tree_for_sdmap.py:247-252`: `loc` gives the cell if one row has the label and
a `Series` otherwise; `ser` is the text of the `Series` -/
def locKey (ser : ι → Str → List Val → Str) (labels : List ι) (c : Str × List Val) (l : ι) : Str :=
  match locCells labels c.2 l with
  | [v] => c.1 ++ v.repr
  | vs => c.1 ++ ser l c.1 vs

/-- `pandas_dataframe.loc[row, target[0]] == target[1]`, `fp_tree_for_sdmap.py:243,260`; `none` is a `Series` of Booleans -/
def locMatch (labels : List ι) (tcol : List Val) (tv : Str) (l : ι) : Option Bool :=
  match locCells labels tcol l with
  | [v] => some (v.eq (.str tv))
  | _ => none

/-- `_insert_tree(selectors, root, target_match)`, `fp_tree_for_sdmap.py:171-226`: the truth value of a `Series`, which is an error, is taken only if
there is a selector to insert -/
def FPTree.insertTreeL {σ : Type} [DecidableEq σ] (t : FPTree σ) : Option Bool → List σ → Except PyErr (FPTree σ)
  | _, [] => .ok t
  | none, _ :: _ => .error .valueError
  | some b, s :: l => .ok (t.insertTree [] b (s :: l))

/-- `build_tree`, `fp_tree_for_sdmap.py:228-269`, with row labels. A missing target column would be a `KeyError`. -/
def buildTreeL (ser : ι → Str → List Val → Str) (labels : List ι) (df : Frame) (target : Str × Str) (d : FreqDict Selector Str) :
    Except PyErr (FPTree Selector) :=
  match df.col target.1 with
  | .error e => .error e
  | .ok tcol =>
    match labels.foldlM (fun (t : FPTree Selector) l =>
        t.insertTreeL (locMatch labels tcol target.2 l)
          (FPTree.sortRow Selector.dictKey d (FPTree.validSelectors d ((otherCols df target.1).map (fun c => locKey ser labels c l)))))
        FPTree.empty with
    | .error e => .error e
    | .ok t => .ok t.sortHeader

/-- as `nominalResults`, with row labels; `sdmap.py:243-274` -/
def nominalResultsL (ser : ι → Str → List Val → Str) (labels : List ι) (order : FPTree Selector → List Selector) (th : Thresholds)
    (df : Frame) (target : Str × Str) : Except PyErr (Option (List (Emission Selector)) × Nat × Nat) :=
  if !df.nominal then .error .datasetAttributeType
  else match targetMask df target with
    | .error e => .error e
    | .ok mask =>
      match buildTreeL ser labels df target (frequentSelectors th df target.1 mask) with
      | .error e => .error e
      | .ok t =>
        if t.isEmpty then .ok (none, mask.count true, df.nrows - mask.count true)
        else .ok (some (FPTree.fpgrowth order Selector.dictKey th (t.nodes.length + 1) t []), mask.count true, df.nrows - mask.count true)

/-- `SDMap.fit`, `sdmap.py:243-274`, on a data frame with the given row labels -/
def SDMapConfig.fitL (ser : ι → Str → List Val → Str) (labels : List ι) (cfg : SDMapConfig) (st : SDMapState) (df : Frame) (target : Str × Str) :
    Except PyErr SDMapState :=
  match nominalResultsL ser labels FPTree.sorted cfg.th df target with
  | .error e => .error e
  | .ok (none, _, _) => .ok st
  | .ok (some rs, TP, FP) =>
    (rs.map (fun r => (Pattern.new r.1, r.2))).foldlM (cfg.handle target TP FP) { st with file := [] }

/-- `SDMapStar.fit`, `sdmapstar.py:352-382`, on a data frame with the given row labels -/
def SDMapStarConfig.fitL (ser : ι → Str → List Val → Str) (labels : List ι) (cfg : SDMapStarConfig) (st : StarState) (df : Frame) (target : Str × Str) :
    Except PyErr StarState :=
  if cfg.num = 0 then
    match nominalResultsL ser labels (fun t => t.header.map (·.1)) cfg.th df target with
    | .error e => .error e
    | .ok (none, _, _) => .ok st
    | .ok (some rs, TP, FP) =>
      match (rs.map (fun r => (Pattern.new r.1, r.2))).foldlM (cfg.toSDMapConfig.handle target TP FP) { st.base with file := [] } with
      | .error e => .error e
      | .ok b => .ok { st with base := b }
  else if !df.nominal then .error .datasetAttributeType
  else match targetMask df target with
    | .error e => .error e
    | .ok mask =>
      match buildTreeL ser labels df target (frequentSelectors cfg.th df target.1 mask) with
      | .error e => .error e
      | .ok t =>
        if t.isEmpty then .ok st
        else cfg.fpgrowthStar target (mask.count true) (df.nrows - mask.count true) (t.nodes.length + 1)
          { st with base := { st.base with file := [] } } t []

end Verif
