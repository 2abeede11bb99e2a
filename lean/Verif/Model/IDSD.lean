import Verif.Model.BSD
import Verif.Model.Credibility
/-! Model of `src/subgroups/algorithms/subgroup_sets/idsd.py`. -/
namespace Verif

/-- in which order pandas lists equally frequent values (`value_counts()` sorts the distinct values by decreasing frequency, `idsd.py:170`, `qfinder.py:164`; its
sort need not be stable and differs between versions of pandas): an arbitrary reordering of the distinct values, before a stable sort -/
structure TieOrder where
  order : List Val → List Val
  perm : ∀ l, (order l).Perm l

/-- equally frequent values in the order of their first appearances -/
def TieOrder.first : TieOrder := ⟨id, fun _ => List.Perm.refl _⟩

/-- equally frequent values in the opposite order -/
def TieOrder.last : TieOrder := ⟨List.reverse, List.reverse_perm⟩

/-- the number of selected subgroups, the category and complexity limits, and the thresholds of an `IDSD` object, `idsd.py:49-117`.
`pv tp fp TP FP` is the p-value (`PValueIndependence`, see `Model/PValue`; with the numpy integers of `fit` it may be `nan`); `ties` is the order of equally frequent values. -/
structure IDSDConfig where
  num : Nat
  cats : Int
  maxC : Int
  covT : Rat
  orT : Rat
  pT : Rat
  absT : Rat
  ratioT : Rat
  pv : Nat → Nat → Nat → Nat → XF
  ties : TieOrder

/-- `IDSD.__init__`, the checks of the values, `idsd.py:72-90`. Simplification: the types are the documented ones. -/
def IDSDConfig.new (num cats maxC : Int) (covT orT pT absT ratioT : Rat) (pv : Nat → Nat → Nat → Nat → XF) (ties : TieOrder) : Except PyErr IDSDConfig :=
  if num < 1 then .error .valueError
  else if cats < -1 ∨ cats = 0 then .error .valueError
  else if covT < 0 ∨ covT > 1 then .error .valueError
  else if orT < 0 then .error .valueError
  else if pT < 0 ∨ pT > 1 then .error .valueError
  else if absT < 0 then .error .valueError
  else if ratioT < 0 then .error .valueError
  else .ok ⟨num.toNat, cats, maxC, covT, orT, pT, absT, ratioT, pv, ties⟩

/-- the dictionary `credibility_values`, `idsd.py:224-230` -/
structure IDSDCred where
  cov : XF
  odds : XF
  pval : XF
  absC : XF
  ratioC : XF
  deriving DecidableEq

/-- an element of `_top_k_subgroups`: `(pattern, rank, odds ratio, credibility_values)`, `idsd.py:315` -/
structure IDSDEntry where
  pat : Pattern
  rank : Nat
  odds : XF
  cred : IDSDCred
  deriving DecidableEq

/-- the mutable state of an `IDSD` object. `calls` is a ghost: the patterns evaluated by
`_handle_individual_result` in the last `fit`, in order. -/
structure IDSDState where
  top : List IDSDEntry
  visited : Nat
  nonUnique : Nat
  pruned : Nat
  apps : List (Selector × Bits)
  calls : List Pattern

/-- the state of a new object, `idsd.py:91-111` -/
def IDSDState.init : IDSDState := ⟨[], 0, 0, 0, [], []⟩

namespace IDSD

/-! ### categories and selectors -/

/-- `value_counts()`: the distinct values with their numbers of appearances, by decreasing number; equally frequent ones in any order -/
def valueCounts (ties : TieOrder) (col : List Val) : List (Val × Nat) :=
  stableSort (fun a b : Val × Nat => decide (b.2 ≤ a.2)) ((ties.order (pyUnique col)).map (fun v => (v, col.count v)))

/-- `value_counts.nsmallest(k).index` -/
def nsmallest (k : Nat) (vc : List (Val × Nat)) : List Val :=
  ((stableSort (fun a b : Val × Nat => decide (a.2 ≤ b.2)) vc).take k).map (·.1)

/-- the loop that lengthens "other" until it is not a value, `idsd.py:171-173`. The fuel is the number of values plus one, which
is enough since the candidates are different. -/
def otherLoop (vals : List Val) : Nat → Str → Str
  | 0, s => s
  | fuel + 1, s => if vals.contains (.str s) then otherLoop vals fuel (s ++ c!"_") else s

/-- one column of `_reduce_categories`, `idsd.py:163-179` -/
def reduceColumn (ties : TieOrder) (cats : Int) (col : List Val) : List Val :=
  let vals := pyUnique col
  if (vals.length : Int) ≤ cats then col
  else
    let other := otherLoop vals (vals.length + 1) c!"other"
    let others := nsmallest ((vals.length : Int) - cats + 1).toNat (valueCounts ties col)
    col.map (fun v => if v ∈ others then .str other else v)

/-- `_reduce_categories`, `idsd.py:148-180` -/
def reduceCategories (ties : TieOrder) (cats : Int) (df : Frame) (tname : Str) : Frame :=
  if cats = -1 then df
  else { df with cols := df.cols.map (fun c => if c.1 = tname then c else (c.1, reduceColumn ties cats c.2)) }

/-- the selectors with their appearances, `_generate_selectors`, `idsd.py:182-201` -/
def selectorPairs (df : Frame) (tname : Str) : List (Selector × Bits) :=
  (otherCols df tname).flatMap (fun c => (pyUnique c.2).map (fun v => ((⟨c.1, .equal, v⟩ : Selector), c.2.map (fun x => x.eq v))))

/-- `self._selector_appearances[sel] = appearance`. Simplification: the dictionary is keyed by the selectors themselves (they
are of the form attribute = text). -/
def setApp (d : List (Selector × Bits)) (k : Selector) (v : Bits) : List (Selector × Bits) :=
  if (d.map (·.1)).contains k then d.map (fun e => if e.1 = k then (e.1, v) else e) else d ++ [(k, v)]

/-! ### credibility and rank -/

/-- `_compute_rank`, `idsd.py:255-268`, from index `i` on -/
def rankLoop (rank i : Nat) : List Bool → Nat
  | [] => rank
  | b :: l => if !b then rank else rankLoop (i + 1) (i + 1) l

/-- `_compute_rank`, `idsd.py:255-268` -/
def computeRank (l : List Bool) : Nat := rankLoop 0 0 l

/-- the credibility values with the early exit, `idsd.py:222-243` -/
def credibility (cfg : IDSDConfig) (tp fp TP FP : Nat) (contrib : Except PyErr (XF × XF)) : Except PyErr IDSDCred :=
  match Quality.coverage [(kTp, (tp : Rat)), (kFp, (fp : Rat)), (kTP, (TP : Rat)), (kFP, (FP : Rat))] with
  | .error e => .error e
  | .ok cov =>
    if !((XF.fin cov).ge (.fin cfg.covT)) then .ok ⟨.fin cov, .ninf, .inf, .ninf, .inf⟩
    else
      let o := OddsRatioStatistic.ofCounts tp fp TP FP
      if !(o.ge (.fin cfg.orT)) then .ok ⟨.fin cov, o, .inf, .ninf, .inf⟩
      else
        let p := cfg.pv tp fp TP FP
        if !(p.le (.fin cfg.pT)) then .ok ⟨.fin cov, o, p, .ninf, .inf⟩
        else match contrib with
          | .error e => .error e
          | .ok (a, r) => .ok ⟨.fin cov, o, p, a, r⟩

/-- the list of booleans `credibility`, `idsd.py:246-250` -/
def criteria (cfg : IDSDConfig) (c : IDSDCred) : List Bool :=
  [c.cov.ge (.fin cfg.covT), c.odds.ge (.fin cfg.orT), c.pval.le (.fin cfg.pT), c.absC.ge (.fin cfg.absT), c.ratioC.le (.fin cfg.ratioT)]

/-- `_redundant`, `idsd.py:270-278` -/
def redundant (p q : Pattern) : Bool := p.isRefinement q true || q.isRefinement p true

/-- `(rank, odds)` of `a` is better than that of `b`, `idsd.py:300` -/
def better (a b : IDSDEntry) : Bool := decide (a.rank > b.rank) || (decide (a.rank = b.rank) && b.odds.lt a.odds)

/-- Python's `<` on the sort keys `(rank, odds)`, `idsd.py:317` -/
def keyLt (a b : IDSDEntry) : Bool := decide (a.rank < b.rank) || (decide (a.rank = b.rank) && a.odds.lt b.odds)

/-- the candidate is worse than the last subgroup of the list, `idsd.py:288-290` -/
def worseThanLast (top : List IDSDEntry) (new : IDSDEntry) : Bool :=
  match top.getLast? with
  | some w => keyLt new w
  | none => false

/-- the rank of the last subgroup of the list is positive, `idsd.py:352` -/
def lastRankPos (top : List IDSDEntry) : Bool :=
  match top.getLast? with
  | some w => decide (w.rank > 0)
  | none => false

/-- `_top_k_update`, `idsd.py:280-321`. Simplification: `list.remove` removes the first element with the same fields. -/
def topKUpdate (num : Nat) (top : List IDSDEntry) (new : IDSDEntry) : List IDSDEntry :=
  if top.length = num ∧ worseThanLast top new = true then top
  else
    let toRemove := top.filter (fun s => redundant s.pat new.pat && better new s)
    let isRedundant := top.any (fun s => redundant s.pat new.pat && !better new s)
    let kept := toRemove.foldl (fun l s => l.erase s) top
    if !toRemove.isEmpty || !isRedundant then
      let sorted := stableSort (fun a b => !keyLt a b) (kept ++ [new])
      if sorted.length > num then sorted.dropLast else sorted
    else kept

/-- `_handle_individual_result`, `idsd.py:203-253` -/
def handle (cfg : IDSDConfig) (TP FP : Nat) (mask : Bits) (p : Pattern) (app : Bits) (st : IDSDState) : Except PyErr IDSDState :=
  let tp := (mask.alignAnd app).ones
  let fp := app.ones - tp
  match credibility cfg tp fp TP FP (SelectorContribution.compute (SelectorContribution.appearanceOr st.apps mask) none p) with
  | .error e => .error e
  | .ok c =>
    .ok { st with top := topKUpdate cfg.num st.top ⟨p, computeRank (criteria cfg c), c.odds, c⟩, calls := st.calls ++ [p] }

/-! ### search -/

/-- `_grow_tree` up to the recursive calls, `idsd.py:335-364`; the boolean tells whether the tree grows below this node -/
def visit (cfg : IDSDConfig) (complexity : Nat) (TP FP : Nat) (mask : Bits) (p : Pattern) (app : Bits) (st : IDSDState) :
    Except PyErr (IDSDState × Bool) :=
  let st := { st with visited := st.visited + (if p.len = complexity then 1 else 0), nonUnique := st.nonUnique + 1 }
  let pruned := { st with pruned := st.pruned + (if (complexity : Int) = cfg.maxC then 1 else 0) }
  match Quality.coverage [(kTp, (app.ones : Rat)), (kFp, 0), (kTP, (TP : Rat)), (kFP, (FP : Rat))] with
  | .error e => .error e
  | .ok cov =>
    if cov = 0 then .ok (pruned, false)
    else if st.top.length = cfg.num ∧ lastRankPos st.top = true ∧ ¬ (cov ≥ cfg.covT) then
      .ok (pruned, false)
    else if p.len = complexity then
      match handle cfg TP FP mask p app st with
      | .error e => .error e
      | .ok st => .ok (st, false)
    else .ok (st, true)

/-- the loop of `_grow_tree` over the selectors, `idsd.py:365-373` -/
def growLoop (cfg : IDSDConfig) (complexity : Nat) (TP FP : Nat) (mask : Bits) :
    List Selector → Pattern → Bits → IDSDState → Except PyErr IDSDState
  | [], _, _, st => .ok st
  | s :: rest, p, app, st =>
    match st.apps.lookup s with
    | none => .error .keyError
    | some b =>
      match visit cfg complexity TP FP mask (p.copy.add s) (app.alignAnd b) st with
      | .error e => .error e
      | .ok (st1, false) => growLoop cfg complexity TP FP mask rest p app st1
      | .ok (st1, true) =>
        match growLoop cfg complexity TP FP mask rest (p.copy.add s) (app.alignAnd b) st1 with
        | .error e => .error e
        | .ok st2 => growLoop cfg complexity TP FP mask rest p app st2

/-- `_grow_tree`, `idsd.py:323-373` -/
def growTree (cfg : IDSDConfig) (complexity : Nat) (TP FP : Nat) (mask : Bits) (sels : List Selector) (p : Pattern) (app : Bits)
    (st : IDSDState) : Except PyErr IDSDState :=
  match visit cfg complexity TP FP mask p app st with
  | .error e => .error e
  | .ok (st, false) => .ok st
  | .ok (st, true) => growLoop cfg complexity TP FP mask sels p app st

/-- the iterations `for complexity in range(1, max_complexity + 1)`, `idsd.py:411-412` -/
def deepen (cfg : IDSDConfig) (TP FP : Nat) (mask : Bits) (sels : List Selector) (n : Nat) : List Nat → IDSDState → Except PyErr IDSDState
  | [], st => .ok st
  | c :: cs, st => match growTree cfg c TP FP mask sels (Pattern.new []) (List.replicate n true) st with
    | .error e => .error e
    | .ok st => deepen cfg TP FP mask sels n cs st

/-- `max_complexity`, `idsd.py:406-409` -/
def maxComplexity (cfg : IDSDConfig) (df : Frame) : Nat := (if cfg.maxC = -1 then (df.cols.length : Int) - 1 else cfg.maxC).toNat

/-- `IDSD.fit`, `idsd.py:375-414` -/
def fit (cfg : IDSDConfig) (st : IDSDState) (df : Frame) (target : Str × Str) : Except PyErr IDSDState :=
  if !df.nominal then .error .datasetAttributeType
  else match targetMask df target with
    | .error _ => .error .valueError
    | .ok mask =>
      if !mask.any id then .error .valueError
      else
        let TP := mask.count true
        let df' := reduceCategories cfg.ties cfg.cats df target.1
        let pairs := selectorPairs df' target.1
        deepen cfg TP (df.nrows - TP) mask (pairs.map (·.1)) df.nrows ((List.range (maxComplexity cfg df')).map (· + 1))
          { st with top := [], calls := [], apps := pairs.foldl (fun d e => setApp d e.1 e.2) st.apps }

/-- `non_unique_visited_subgroups`, `idsd.py:131-132`: the attribute is an `int`, which has no `value` -/
def getNonUniqueVisited (_ : IDSDState) : Except PyErr Nat := .error .attributeError

/-- `unselected_subgroups`, `idsd.py:125-126` -/
def getUnselected (st : IDSDState) : Int := (st.visited : Int) - st.top.length

end IDSD
end Verif
