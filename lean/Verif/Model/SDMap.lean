import Verif.Model.Nominal
import Verif.Model.Quality
/-! Model of `src/subgroups/algorithms/subgroup_sets/sdmap.py`. -/
namespace Verif

/-- `_generate_all_combinations`, `sdmap.py:24-33` -/
def allCombinations {α : Type} : List α → List (List α)
  | [] => [[]]
  | a :: l => let x := allCombinations l; x ++ x.map (a :: ·)

/-- an individual result: selectors, tp and fp -/
abbrev Emission (σ : Type) := List σ × Cnt

namespace FPTree
variable {σ κ : Type} [DecidableEq σ] [DecidableEq κ]

/-- counters of the first selector of the sorted header table that is in `beta`, `sdmap.py:209-219`. (The list of counters of
an absent entry would be a `KeyError`; it is never absent.) -/
def leastFrequentCnt (t : FPTree σ) (beta : List σ) : Cnt :=
  match t.sorted.find? (fun s => beta.contains s) with
  | some s => (t.header.lookup s).getD (0, 0)
  | none => (0, 0)

/-- the single-path branch, `sdmap.py:195-221` -/
def singlePathResults (t : FPTree σ) (alpha : List σ) : List (Emission σ) :=
  ((allCombinations t.sorted).erase []).map (fun beta => (beta ++ alpha, t.leastFrequentCnt beta))

/-- `SDMap._fpgrowth`, `sdmap.py:185-241`: the arguments of the successive calls of `_handle_individual_result`, which has no
influence on the control flow. `alpha = None` is the empty list. `order` is the list of selectors that the loop visits: the
sorted header table in SDMap (`:224`), the header table in SDMapStar without top-k (`sdmapstar.py:286`). The fuel bounds the
depth of the recursion; property C24 shows that the fuel given by `fit` is never exhausted. -/
def fpgrowth (order : FPTree σ → List σ) (key : σ → κ) (th : Thresholds) : Nat → FPTree σ → List σ → List (Emission σ)
  | 0, _, _ => []
  | fuel + 1, t, alpha =>
    if t.singlePath then t.singlePathResults alpha
    else (order t).flatMap (fun a =>
      let beta := a :: alpha
      let cond := t.condTree key th a
      (beta, (t.header.lookup a).getD (0, 0)) ::
        (if !cond.isEmpty then fpgrowth order key th fuel cond beta else []))

end FPTree

/-- configuration of an `SDMap` object, `sdmap.py:72-110`. Simplification: thresholds and parameters have the documented types,
so the `TypeError`s are not modelled. -/
structure SDMapConfig where
  measure : Params → Except PyErr Rat
  minQuality : Rat
  th : Thresholds
  /-- the additional parameters, after `_delete_subgroup_parameters_from_a_dictionary` -/
  extra : Params

/-- `SDMap.__init__`, `sdmap.py:92-110` -/
def SDMapConfig.new (measure : Params → Except PyErr Rat) (minQuality : Rat) (minTp minFp minN : Option Int) (extra : Params) :
    Except PyErr SDMapConfig :=
  match Thresholds.mk? minTp minFp minN with
  | .ok th => .ok ⟨measure, minQuality, th, deleteSubgroupParameters extra⟩
  | .error e => .error e

/-- a line of the result file (as a record, not as text) -/
structure ResultLine where
  subgroup : Subgroup
  quality : Rat
  tp : Nat
  fp : Nat
  TP : Nat
  FP : Nat

/-- the mutable state of an `SDMap` object and its file. `calls` is a ghost: the descriptions handled so far, with the counters. -/
structure SDMapState where
  selected : Nat
  unselected : Nat
  file : List ResultLine
  calls : List (Pattern × Cnt)

/-- `SDMap._handle_individual_result`, `sdmap.py:150-183`, when a file is written -/
def SDMapConfig.handle (cfg : SDMapConfig) (target : Str × Str) (TP FP : Nat) (st : SDMapState) (r : Pattern × Cnt) :
    Except PyErr SDMapState :=
  match cfg.measure (paramsFor r.2.1 r.2.2 TP FP cfg.extra) with
  | .error e => .error e
  | .ok q =>
    if q ≥ cfg.minQuality then
      .ok { st with
        selected := st.selected + 1
        file := st.file ++ [⟨⟨r.1, ⟨target.1, .equal, .str target.2⟩⟩, q, r.2.1, r.2.2, TP, FP⟩]
        calls := st.calls ++ [r] }
    else .ok { st with unselected := st.unselected + 1, calls := st.calls ++ [r] }

/-- the descriptions that `fit` hands to `_handle_individual_result`, and `TP`, `FP`; `none` when the tree is empty.
`SDMap.fit`, `sdmap.py:243-274`. `order` as in `fpgrowth`. -/
def nominalResults (order : FPTree Selector → List Selector) (th : Thresholds) (df : Frame) (target : Str × Str) :
    Except PyErr (Option (List (Emission Selector)) × Nat × Nat) :=
  if !df.nominal then .error .datasetAttributeType
  else match targetMask df target with
    | .error e => .error e
    | .ok mask =>
      let d := frequentSelectors th df target.1 mask
      let t := FPTree.buildTree Selector.dictKey d (keyRows df target.1 mask)
      let TP := mask.count true
      if t.isEmpty then .ok (none, TP, df.nrows - TP)
      else .ok (some (FPTree.fpgrowth order Selector.dictKey th (t.nodes.length + 1) t []), TP, df.nrows - TP)

/-- `SDMap.fit`, `sdmap.py:243-274`: the file is emptied (`open(..., "w")`) before the first result. -/
def SDMapConfig.fit (cfg : SDMapConfig) (st : SDMapState) (df : Frame) (target : Str × Str) : Except PyErr SDMapState :=
  match nominalResults FPTree.sorted cfg.th df target with
  | .error e => .error e
  | .ok (none, _, _) => .ok st
  | .ok (some rs, TP, FP) =>
    (rs.map (fun r => (Pattern.new r.1, r.2))).foldlM (cfg.handle target TP FP) { st with file := [] }

end Verif
