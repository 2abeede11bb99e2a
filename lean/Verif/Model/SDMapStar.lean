import Verif.Model.SDMap
/-! Model of `src/subgroups/algorithms/subgroup_sets/sdmapstar.py` and of the pruned conditional trees of
`src/subgroups/data_structures/fp_tree_for_sdmapstar.py`. -/
namespace Verif

/-- configuration of an `SDMapStar` object, `sdmapstar.py:72-127`. Simplification: parameters have the documented types (`Model/Ctors` for others); the check of
the names of measure and optimistic estimate is in `Model/Registry`; a negative `num_subgroups` behaves as 0. -/
structure SDMapStarConfig extends SDMapConfig where
  estimate : Params → Except PyErr Rat
  /-- additional parameters of the optimistic estimate -/
  extraOE : Params
  num : Nat

/-- `SDMapStar.__init__`, `sdmapstar.py:100-127` -/
def SDMapStarConfig.new (measure : Params → Except PyErr Rat) (estimate : Params → Except PyErr Rat) (minQuality : Rat) (minTp minFp minN : Option Int)
    (extra extraOE : Params) (num : Nat) : Except PyErr SDMapStarConfig :=
  match Thresholds.mk? minTp minFp minN with
  | .ok th => .ok ⟨⟨measure, minQuality, th, deleteSubgroupParameters extra⟩, estimate, deleteSubgroupParameters extraOE, num⟩
  | .error e => .error e

/-- the mutable state: that of `SDMap`, the sorted list of the best qualities and the two counters of pruned work. `visits` is
a ghost: all descriptions given to `_updateKSubgroups`, with their counters. -/
structure StarState where
  base : SDMapState
  ks : List Rat
  pruned : Nat
  condPruned : Nat
  visits : List (Emission Selector)

namespace SDMapStarConfig

/-- the value added to the list of best qualities: measure of the counters, with the additional parameters of the estimate, `:339-341` -/
def kQuality (cfg : SDMapStarConfig) (TP FP : Nat) (c : Cnt) : Except PyErr Rat :=
  cfg.measure (paramsFor c.1 c.2 TP FP cfg.extraOE)

/-- the optimistic estimate of counters, `:264-266`, `:275-277`, `:303-305`, `fp_tree_for_sdmapstar.py:83-87` -/
def oe (cfg : SDMapStarConfig) (TP FP : Nat) (c : Cnt) : Except PyErr Rat :=
  cfg.estimate (paramsFor c.1 c.2 TP FP cfg.extraOE)

/-- `_updateKSubgroups`, `:342-350`, for a quality: append when not full, else replace the smallest if it is smaller; sort -/
def pushK (k : Nat) (ks : List Rat) (q : Rat) : Except PyErr (List Rat) :=
  if ks.length < k then .ok (stableSort (fun a b => decide (a ≤ b)) (ks ++ [q]))
  else match ks with
    | [] => .error .indexError
    | m :: rest => if m < q then .ok (stableSort (fun a b => decide (a ≤ b)) (q :: rest)) else .ok ks

/-- one description with `num_subgroups > 0`: update the best qualities, compare the smallest one with the optimistic estimate, and
handle the description unless it is pruned, `:258-271` and `:297-313`. The Boolean tells whether the search goes on below. -/
def visit (cfg : SDMapStarConfig) (target : Str × Str) (TP FP : Nat) (st : StarState) (X : List Selector) (c : Cnt) :
    Except PyErr (StarState × Bool) := do
  let q ← cfg.kQuality TP FP c
  let ks ← pushK cfg.num st.ks q
  let o ← cfg.oe TP FP c
  match ks with
  | [] => .error .indexError
  | m :: _ =>
    if m > o then .ok ({ st with ks := ks, pruned := st.pruned + 1, visits := st.visits ++ [(X, c)] }, false)
    else do
      let b ← cfg.toSDMapConfig.handle target TP FP st.base (Pattern.new X, c)
      .ok ({ st with base := b, ks := ks, visits := st.visits ++ [(X, c)] }, true)

/-- the selectors of the header table by decreasing (optimistic estimate, selector), `:272-283` -/
def oeOrder (cfg : SDMapStarConfig) (TP FP : Nat) (t : FPTree Selector) : Except PyErr (List Selector) := do
  let l ← t.header.mapM (fun e => do let o ← cfg.oe TP FP e.2; return (o, e.1))
  return ((pySort (fun a b => decide (a.1 < b.1) || (a.1 == b.1 && a.2.lt b.2)) l.reverse).reverse).map (·.2)

/-- the nodes of the horizontal list whose optimistic estimate reaches the bound, and the number of the others,
`fp_tree_for_sdmapstar.py:79-91` -/
def pruneBase (cfg : SDMapStarConfig) (TP FP : Nat) (bound : Rat) : List (List Selector × Cnt) → Except PyErr (List (List Selector × Cnt) × Nat)
  | [] => .ok ([], 0)
  | b :: rest => do
    let o ← cfg.oe TP FP b.2
    let r ← pruneBase cfg TP FP bound rest
    if o < bound then .ok (r.1, r.2 + 1) else .ok (b :: r.1, r.2)

/-- `generate_conditional_fp_tree_star`, `fp_tree_for_sdmapstar.py:37-160` -/
def condTreeStar (cfg : SDMapStarConfig) (TP FP : Nat) (bound : Rat) (t : FPTree Selector) (a : Selector) :
    Except PyErr (FPTree Selector × Nat) :=
  if (t.header.map (·.1)).contains a then do
    let r ← cfg.pruneBase TP FP bound (t.horizontal a)
    return (FPTree.condOf Selector.dictKey cfg.th r.1, r.2)
  else .ok (FPTree.empty, 0)

/-- `_fpgrowth` with `num_subgroups > 0`, `:221-324` -/
def fpgrowthStar (cfg : SDMapStarConfig) (target : Str × Str) (TP FP : Nat) : Nat → StarState → FPTree Selector → List Selector →
    Except PyErr StarState
  | 0, st, _, _ => .ok st
  | fuel + 1, st, t, alpha =>
    if t.singlePath then
      ((allCombinations t.sorted).erase []).foldlM (fun st beta => do
        let r ← cfg.visit target TP FP st (beta ++ alpha) (t.leastFrequentCnt beta)
        return r.1) st
    else do
      let order ← cfg.oeOrder TP FP t
      order.foldlM (fun st a => do
        let r ← cfg.visit target TP FP st (a :: alpha) ((t.header.lookup a).getD (0, 0))
        if r.2 then do
          let c ← cfg.condTreeStar TP FP (r.1.ks.headD 0) t a
          let st := { r.1 with condPruned := r.1.condPruned + c.2 }
          if !c.1.isEmpty then cfg.fpgrowthStar target TP FP fuel st c.1 (a :: alpha) else .ok st
        else .ok r.1) st

/-- `SDMapStar.fit`, `:352-382`. With `num_subgroups = 0` the loop visits the header table in its order and nothing is pruned. -/
def fit (cfg : SDMapStarConfig) (st : StarState) (df : Frame) (target : Str × Str) : Except PyErr StarState :=
  if cfg.num = 0 then
    match nominalResults (fun t => t.header.map (·.1)) cfg.th df target with
    | .error e => .error e
    | .ok (none, _, _) => .ok st
    | .ok (some rs, TP, FP) =>
      match (rs.map (fun r => (Pattern.new r.1, r.2))).foldlM (cfg.toSDMapConfig.handle target TP FP) { st.base with file := [] } with
      | .error e => .error e
      | .ok b => .ok { st with base := b }
  else if !df.nominal then .error .datasetAttributeType
  else match targetMask df target with
    | .error e => .error e
    | .ok mask =>
      let t := FPTree.buildTree Selector.dictKey (frequentSelectors cfg.th df target.1 mask) (keyRows df target.1 mask)
      let TP := mask.count true
      if t.isEmpty then .ok st
      else cfg.fpgrowthStar target TP (df.nrows - TP) (t.nodes.length + 1) { st with base := { st.base with file := [] } } t []

end SDMapStarConfig
end Verif
