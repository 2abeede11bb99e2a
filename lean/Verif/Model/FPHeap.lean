import Verif.Model.SDMapStar
/-! The FP-tree of `src/subgroups/data_structures/fp_tree_for_sdmap.py` and `fp_tree_for_sdmapstar.py` with its node objects and
references, as the code has them: `_childs`, `_parent`, `_node_link`, and the first and last node of each entry of the header table.
(`Model/FPTree.lean` describes the same tree by the paths of its nodes; property C80 relates the two.)

`none` stands for a run that goes wrong: a `KeyError`, an `AttributeError` (a field of `None`), a `DuplicateFpTreeNodeError`, or a
`while` loop that has not ended after as many rounds as there are objects. Property C80 shows that this never happens. -/
namespace Verif

/-- an `FPTreeNode` object, `fp_tree_node.py:23-36`; a reference is a position in the list of the nodes of the tree -/
structure HNode (σ : Type) where
  sel : σ
  cnt : Cnt
  /-- the dictionary `_childs`, in insertion order -/
  childs : List (σ × Nat)
  parent : Option Nat
  /-- `_node_link` -/
  link : Option Nat
  deriving DecidableEq

/-- an `FPTreeForSDMap` object, `fp_tree_for_sdmap.py:24-37`: its nodes in order of creation (the root has reference 0), the header table
(selector ↦ summations, first and last node of the horizontal list) and the sorted header table. Simplification: the counters
`[-1, -1]` of the root, which no method reads or changes, are `(0, 0)` here; each tree has its own references (a node never moves
from a tree to another). -/
structure HTree (σ : Type) where
  heap : List (HNode σ)
  header : List (σ × (Cnt × Nat × Nat))
  sorted : List σ
  deriving DecidableEq

namespace HTree
variable {σ κ : Type} [DecidableEq σ] [DecidableEq κ]

/-- `FPTreeForSDMap()`, `fp_tree_for_sdmap.py:24-37`, with the selector of the root -/
def new (root : σ) : HTree σ := ⟨[⟨root, (0, 0), [], none, none⟩], [], []⟩

/-- `get_child_by_selector`, `fp_tree_node.py:125-136` -/
def getChild (h : HTree σ) (p : Nat) (s : σ) : Option Nat :=
  match h.heap[p]? with
  | some n => n.childs.lookup s
  | none => none

/-- `number_of_children`, `fp_tree_node.py:62-63` -/
def numberOfChildren (h : HTree σ) (p : Nat) : Nat :=
  match h.heap[p]? with
  | some n => n.childs.length
  | none => 0

/-- `is_empty`, `fp_tree_for_sdmap.py:52-57` -/
def isEmpty (h : HTree σ) : Bool := h.numberOfChildren 0 == 0

/-- the loop of `there_is_a_single_path`, `fp_tree_for_sdmap.py:66-71` -/
def singlePathLoop (h : HTree σ) : Nat → Nat → Option Bool
  | 0, _ => none
  | fuel + 1, r => match h.heap[r]? with
    | none => none
    | some n => match n.childs with
      | [] => some true
      | [c] => h.singlePathLoop fuel c.2
      | _ => some false

/-- `there_is_a_single_path`, `fp_tree_for_sdmap.py:59-71` -/
def singlePath (h : HTree σ) : Option Bool := h.singlePathLoop h.heap.length 0

/-- add to the counters of a node -/
def addCnt (h : HTree σ) (r tp fp : Nat) : HTree σ :=
  { h with heap := h.heap.modify r (fun n => { n with cnt := (n.cnt.1 + tp, n.cnt.2 + fp) }) }

/-- `self._header_table[selector][0][…] = … + …` -/
def addSum (h : HTree σ) (s : σ) (tp fp : Nat) : Option (HTree σ) :=
  match h.header.lookup s with
  | none => none
  | some _ => some { h with header := h.header.map (fun e => if e.1 = s then (e.1, ((e.2.1.1 + tp, e.2.1.2 + fp), e.2.2)) else e) }

/-- `FPTreeNode(selector, [tp, fp], None)` and `current_parent_node.add_child(new_fptreenode)`, `fp_tree_node.py:25-36`, `:79-90` -/
def addChild (h : HTree σ) (p : Nat) (s : σ) (tp fp : Nat) : Option (HTree σ) :=
  match h.heap[p]? with
  | none => none
  | some n =>
    if (n.childs.map (·.1)).contains s then none
    else some { h with heap := (h.heap.modify p (fun n => { n with childs := n.childs ++ [(s, h.heap.length)] })) ++ [⟨s, (tp, fp), [], some p, none⟩] }

/-- `self._header_table[selector][2]._node_link = new_fptreenode`, `fp_tree_for_sdmap.py:202`, `:219`, `:411` -/
def setLink (h : HTree σ) (s : σ) (c : Nat) : Option (HTree σ) :=
  match h.header.lookup s with
  | none => none
  | some e => some { h with heap := h.heap.modify e.2.2 (fun n => { n with link := some c }) }

/-- `self._header_table[selector][2] = new_fptreenode`, `fp_tree_for_sdmap.py:203`, `:220`, `:412` -/
def setLast (h : HTree σ) (s : σ) (c : Nat) : HTree σ :=
  { h with header := h.header.map (fun e => if e.1 = s then (e.1, (e.2.1, e.2.2.1, c)) else e) }

/-- the new node in the header table, `fp_tree_for_sdmap.py:199-207`, `:216-224`, `:408-416` -/
def register (h : HTree σ) (s : σ) (c tp fp : Nat) : Option (HTree σ) :=
  if (h.header.map (·.1)).contains s then
    match h.setLink s c with
    | none => none
    | some h1 => (h1.setLast s c).addSum s tp fp
  else some { h with header := h.header ++ [(s, ((tp, fp), c, c))] }

/-- `_insert_tree`, `fp_tree_for_sdmap.py:171-226`, from the node `p` -/
def insertTree (h : HTree σ) (p : Nat) (targetMatch : Bool) : List σ → Option (HTree σ)
  | [] => some h
  | s :: rest =>
    match targetMatch, h.getChild p s with
    | true, some c => match (h.addCnt c 1 0).addSum s 1 0 with
      | none => none
      | some h1 => h1.insertTree c targetMatch rest
    | false, some c => match (h.addCnt c 0 1).addSum s 0 1 with
      | none => none
      | some h1 => h1.insertTree c targetMatch rest
    | true, none => match h.addChild p s 1 0 with
      | none => none
      | some h1 => match h1.register s h.heap.length 1 0 with
        | none => none
        | some h2 => h2.insertTree h.heap.length targetMatch rest
    | false, none => match h.addChild p s 0 1 with
      | none => none
      | some h1 => match h1.register s h.heap.length 0 1 with
        | none => none
        | some h2 => h2.insertTree h.heap.length targetMatch rest

/-- `_insert_in_conditional_fp_tree`, `fp_tree_for_sdmap.py:381-418`, from the node `p` -/
def insertCond (h : HTree σ) (p : Nat) (tp fp : Nat) : List σ → Option (HTree σ)
  | [] => some h
  | s :: rest =>
    match h.getChild p s with
    | some c => match (h.addCnt c tp fp).addSum s tp fp with
      | none => none
      | some h1 => h1.insertCond c tp fp rest
    | none => match h.addChild p s tp fp with
      | none => none
      | some h1 => match h1.register s h.heap.length tp fp with
        | none => none
        | some h2 => h2.insertCond h.heap.length tp fp rest

/-- `n` of an entry of the header table -/
def headerN (h : HTree σ) (s : σ) : Nat :=
  match h.header.lookup s with
  | some e => e.1.1 + e.1.2
  | none => 0

/-- creation of the sorted header table, `fp_tree_for_sdmap.py:262-269` and `:369-377` -/
def sortHeader (h : HTree σ) : HTree σ :=
  { h with sorted := stableSort (fun a b => decide (h.headerN a ≤ h.headerN b)) (h.header.map (·.1)) }

/-- `build_tree`, `fp_tree_for_sdmap.py:228-269` -/
def buildTree (root : σ) (key : σ → κ) (d : FreqDict σ κ) (rows : List (List κ × Bool)) : Option (HTree σ) :=
  match rows.foldlM (fun h r => h.insertTree 0 r.2 (FPTree.sortRow key d (FPTree.validSelectors d r.1))) (new root) with
  | none => none
  | some h => some h.sortHeader

/-- the inner loop of `generate_conditional_fp_tree`, `fp_tree_for_sdmap.py:318-334`: up to the root, adding to the dictionary and
putting the selectors in front of the path -/
def upLoop (key : σ → κ) (h : HTree σ) (c : Cnt) : Nat → Option Nat → (FreqDict σ κ × Int) × List σ → Option ((FreqDict σ κ × Int) × List σ)
  | 0, _, _ => none
  | _ + 1, none, _ => none
  | fuel + 1, some r, st =>
    if r = 0 then some st
    else match h.heap[r]? with
      | none => none
      | some n => upLoop key h c fuel n.parent (FPTree.addToDict key st.1 n.sel c, n.sel :: st.2)

/-- the outer loop, `fp_tree_for_sdmap.py:313-340`: along the horizontal list, with the dictionary and the conditional pattern base -/
def chainLoop (key : σ → κ) (h : HTree σ) : Nat → Option Nat → (FreqDict σ κ × Int) × List (List σ × Cnt) →
    Option ((FreqDict σ κ × Int) × List (List σ × Cnt))
  | _, none, st => some st
  | 0, some _, _ => none
  | fuel + 1, some r, st =>
    match h.heap[r]? with
    | none => none
    | some n => match upLoop key h n.cnt (h.heap.length + 1) n.parent (st.1, []) with
      | none => none
      | some u => chainLoop key h fuel n.link (u.1, if u.2 ≠ [] then st.2 ++ [(u.2, n.cnt)] else st.2)

/-- steps 2 and 3, `fp_tree_for_sdmap.py:341-379`: the frequent selectors, and the tree of the conditional pattern base -/
def condFrom (root : σ) (key : σ → κ) (th : Thresholds) (all : FreqDict σ κ) (base : List (List σ × Cnt)) : Option (HTree σ) :=
  match base.foldlM (fun h b => h.insertCond 0 b.2.1 b.2.2
      (FPTree.sortRow key (all.filter (fun e => th.ok e.2.2.1)) (FPTree.validSelectors (all.filter (fun e => th.ok e.2.2.1)) (b.1.map key)))) (new root) with
  | none => none
  | some h => some h.sortHeader

/-- `generate_conditional_fp_tree`, `fp_tree_for_sdmap.py:271-379` -/
def condTree (root : σ) (key : σ → κ) (th : Thresholds) (h : HTree σ) (s : σ) : Option (HTree σ) :=
  match h.header.lookup s with
  | none => some (new root)
  | some e => match chainLoop key h h.heap.length (some e.2.1) (([], 0), []) with
    | none => none
    | some st => condFrom root key th st.1.1 st.2

/-- counters of the first selector of the sorted header table that is in `beta`, `sdmap.py:209-219` -/
def leastFrequentCnt (h : HTree σ) (beta : List σ) : Option Cnt :=
  match h.sorted.find? (fun s => beta.contains s) with
  | some s => match h.header.lookup s with
    | some e => some e.1
    | none => none
  | none => none

/-- the single-path branch, `sdmap.py:195-221` -/
def singlePathResults (h : HTree σ) (alpha : List σ) : Option (List (Emission σ)) :=
  ((allCombinations h.sorted).erase []).mapM (fun beta => match h.leastFrequentCnt beta with
    | some c => some (beta ++ alpha, c)
    | none => none)

/-- `SDMap._fpgrowth`, `sdmap.py:185-241`; the arguments of the successive calls of `_handle_individual_result`. `order`: the selectors
that the loop visits; the fuel bounds the depth of the recursion (see `FPTree.fpgrowth`). -/
def fpgrowth (order : HTree σ → List σ) (root : σ) (key : σ → κ) (th : Thresholds) : Nat → HTree σ → List σ → Option (List (Emission σ))
  | 0, _, _ => some []
  | fuel + 1, h, alpha =>
    match h.singlePath with
    | none => none
    | some true => h.singlePathResults alpha
    | some false => match (order h).mapM (fun a => match h.header.lookup a with
        | none => none
        | some e => match condTree root key th h a with
          | none => none
          | some c =>
            if c.isEmpty then some [(a :: alpha, e.1)]
            else match fpgrowth order root key th fuel c (a :: alpha) with
              | none => none
              | some rs => some ((a :: alpha, e.1) :: rs)) with
      | none => none
      | some ls => some ls.flatten

end HTree

/-- the selector of the root of every tree, `fp_tree_for_sdmap.py:26` -/
def rootSelector : Selector := ⟨c!"None", .equal, .str c!"None"⟩

/-- what `fit` does with the tree, `sdmap.py:257-274`: the descriptions handed to `_handle_individual_result` -/
def heapResults (order : HTree Selector → List Selector) (th : Thresholds) (df : Frame) (target : Str × Str) :
    Except PyErr (Option (Option (List (Emission Selector)) × Nat × Nat)) :=
  if !df.nominal then .error .datasetAttributeType
  else match targetMask df target with
    | .error e => .error e
    | .ok mask =>
      match HTree.buildTree rootSelector Selector.dictKey (frequentSelectors th df target.1 mask) (keyRows df target.1 mask) with
      | none => .ok none
      | some h =>
        if h.isEmpty then .ok (some (none, mask.count true, df.nrows - mask.count true))
        else match HTree.fpgrowth order rootSelector Selector.dictKey th h.heap.length h [] with
          | none => .ok none
          | some rs => .ok (some (some rs, mask.count true, df.nrows - mask.count true))

/-- `SDMap.fit`, `sdmap.py:243-274`, with the node objects; `none` when something goes wrong in a tree -/
def SDMapConfig.fitHeap (cfg : SDMapConfig) (st : SDMapState) (df : Frame) (target : Str × Str) : Except PyErr (Option SDMapState) :=
  match heapResults HTree.sorted cfg.th df target with
  | .error e => .error e
  | .ok none => .ok none
  | .ok (some (none, _, _)) => .ok (some st)
  | .ok (some (some rs, TP, FP)) =>
    match (rs.map (fun r => (Pattern.new r.1, r.2))).foldlM (cfg.handle target TP FP) { st with file := [] } with
    | .error e => .error e
    | .ok st => .ok (some st)

namespace SDMapStarConfig

/-- the outer loop of `generate_conditional_fp_tree_star`, `fp_tree_for_sdmapstar.py:79-120`: the nodes whose optimistic estimate is below
the bound are skipped and counted -/
def chainLoopStar (cfg : SDMapStarConfig) (TP FP : Nat) (bound : Rat) (h : HTree Selector) : Nat → Option Nat →
    (FreqDict Selector Str × Int) × List (List Selector × Cnt) → Nat →
    Except PyErr (Option (((FreqDict Selector Str × Int) × List (List Selector × Cnt)) × Nat))
  | _, none, st, k => .ok (some (st, k))
  | 0, some _, _, _ => .ok none
  | fuel + 1, some r, st, k =>
    match h.heap[r]? with
    | none => .ok none
    | some n => match cfg.oe TP FP n.cnt with
      | .error e => .error e
      | .ok o =>
        if o < bound then chainLoopStar cfg TP FP bound h fuel n.link st (k + 1)
        else match HTree.upLoop Selector.dictKey h n.cnt (h.heap.length + 1) n.parent (st.1, []) with
          | none => .ok none
          | some u => chainLoopStar cfg TP FP bound h fuel n.link (u.1, if u.2 ≠ [] then st.2 ++ [(u.2, n.cnt)] else st.2) k

/-- `generate_conditional_fp_tree_star`, `fp_tree_for_sdmapstar.py:37-160` -/
def condTreeStarHeap (cfg : SDMapStarConfig) (TP FP : Nat) (bound : Rat) (h : HTree Selector) (a : Selector) :
    Except PyErr (Option (HTree Selector × Nat)) :=
  match h.header.lookup a with
  | none => .ok (some (HTree.new rootSelector, 0))
  | some e => match cfg.chainLoopStar TP FP bound h h.heap.length (some e.2.1) (([], 0), []) 0 with
    | .error e => .error e
    | .ok none => .ok none
    | .ok (some (st, k)) => match HTree.condFrom rootSelector Selector.dictKey cfg.th st.1.1 st.2 with
      | none => .ok none
      | some c => .ok (some (c, k))

/-- the selectors of the header table by decreasing (optimistic estimate, selector), `sdmapstar.py:272-283` -/
def oeOrderHeap (cfg : SDMapStarConfig) (TP FP : Nat) (h : HTree Selector) : Except PyErr (List Selector) := do
  let l ← h.header.mapM (fun e => do let o ← cfg.oe TP FP e.2.1; return (o, e.1))
  return ((pySort (fun a b => decide (a.1 < b.1) || (a.1 == b.1 && a.2.lt b.2)) l.reverse).reverse).map (·.2)

/-- a Python loop whose body can raise an exception (`error`) or go wrong in a tree (`none`) -/
def loopHeap {α β : Type} (f : β → α → Except PyErr (Option β)) : List α → β → Except PyErr (Option β)
  | [], st => .ok (some st)
  | a :: l, st => match f st a with
    | .error e => .error e
    | .ok none => .ok none
    | .ok (some st) => loopHeap f l st

/-- `_fpgrowth` with `num_subgroups > 0`, `sdmapstar.py:221-324` -/
def fpgrowthStarHeap (cfg : SDMapStarConfig) (target : Str × Str) (TP FP : Nat) : Nat → StarState → HTree Selector → List Selector →
    Except PyErr (Option StarState)
  | 0, st, _, _ => .ok (some st)
  | fuel + 1, st, h, alpha =>
    match h.singlePath with
    | none => .ok none
    | some true => loopHeap (fun st beta => match h.leastFrequentCnt beta with
        | none => .ok none
        | some c => match cfg.visit target TP FP st (beta ++ alpha) c with
          | .error e => .error e
          | .ok r => .ok (some r.1)) ((allCombinations h.sorted).erase []) st
    | some false => match cfg.oeOrderHeap TP FP h with
      | .error e => .error e
      | .ok order => loopHeap (fun st a => match h.header.lookup a with
          | none => .ok none
          | some e => match cfg.visit target TP FP st (a :: alpha) e.1 with
            | .error e => .error e
            | .ok r =>
              if r.2 then match cfg.condTreeStarHeap TP FP (r.1.ks.headD 0) h a with
                | .error e => .error e
                | .ok none => .ok none
                | .ok (some c) =>
                  if c.1.isEmpty then .ok (some { r.1 with condPruned := r.1.condPruned + c.2 })
                  else fpgrowthStarHeap cfg target TP FP fuel { r.1 with condPruned := r.1.condPruned + c.2 } c.1 (a :: alpha)
              else .ok (some r.1)) order st

/-- `SDMapStar.fit`, `sdmapstar.py:352-382`, with the node objects; `none` when something goes wrong in a tree -/
def fitHeap (cfg : SDMapStarConfig) (st : StarState) (df : Frame) (target : Str × Str) : Except PyErr (Option StarState) :=
  if cfg.num = 0 then
    match heapResults (fun h => h.header.map (·.1)) cfg.th df target with
    | .error e => .error e
    | .ok none => .ok none
    | .ok (some (none, _, _)) => .ok (some st)
    | .ok (some (some rs, TP, FP)) =>
      match (rs.map (fun r => (Pattern.new r.1, r.2))).foldlM (cfg.toSDMapConfig.handle target TP FP) { st.base with file := [] } with
      | .error e => .error e
      | .ok b => .ok (some { st with base := b })
  else if !df.nominal then .error .datasetAttributeType
  else match targetMask df target with
    | .error e => .error e
    | .ok mask =>
      match HTree.buildTree rootSelector Selector.dictKey (frequentSelectors cfg.th df target.1 mask) (keyRows df target.1 mask) with
      | none => .ok none
      | some h =>
        if h.isEmpty then .ok (some st)
        else cfg.fpgrowthStarHeap target (mask.count true) (df.nrows - mask.count true) h.heap.length { st with base := { st.base with file := [] } } h []

end SDMapStarConfig
end Verif
