import Verif.Model.Py
/-! Model of `src/subgroups/data_structures/fp_tree_for_sdmap.py`. `σ` is the type of selectors (equality = equality as a
dictionary key), `κ` the type of the text keys `attribute_name + repr(value)`, given by `key : σ → κ`.

Representation: a node is identified by its path, the list of the selectors from the root (excluded) down to it. Since a
parent has at most one child per selector (property C51) the path determines the node. `nodes` lists the nodes in order
of creation, so the horizontal list of a selector (`node_link` chain, always extended at its end) is the sub-list of the nodes
whose path ends with that selector. `Model/FPHeap.lean` has the node objects with their references; property C80 shows that they do
the same. -/
namespace Verif

/-- the two counters `[tp, fp]` -/
abbrev Cnt := Nat × Nat

/-- thresholds: either `minimum_tp` and `minimum_fp`, or `minimum_n` -/
inductive Thresholds
  | tpFp (minTp minFp : Int)
  | n (minN : Int)
  deriving DecidableEq

/-- the test on the presence of the parameters, `fp_tree_for_sdmap.py:124,146,167` (also `:290-295`, `sdmap.py:92-110`) -/
def Thresholds.mk? (minTp minFp minN : Option Int) : Except PyErr Thresholds :=
  match minTp, minFp, minN with
  | some a, some b, none => .ok (.tpFp a b)
  | none, none, some c => .ok (.n c)
  | _, _, _ => .error .inconsistentParameters

/-- the frequency test, `fp_tree_for_sdmap.py:135`, `:157`, `:341`, `:345` -/
def Thresholds.ok (th : Thresholds) (c : Cnt) : Bool :=
  match th with
  | .tpFp a b => decide ((c.1 : Int) ≥ a) && decide ((c.2 : Int) ≥ b)
  | .n m => decide ((c.1 + c.2 : Int) ≥ m)

/-- `FPTreeForSDMap`, `fp_tree_for_sdmap.py:24-37` -/
structure FPTree (σ : Type) where
  nodes : List (List σ × Cnt)
  header : List (σ × Cnt)
  sorted : List σ

/-- the dictionary `set_of_frequent_selectors`: key ↦ (selector, [tp, fp], insertion order) -/
abbrev FreqDict (σ κ : Type) := List (κ × (σ × Cnt × Int))

/-- add to the counters stored under `a` -/
def bump {α : Type} [DecidableEq α] (l : List (α × Cnt)) (a : α) (tp fp : Nat) : List (α × Cnt) :=
  l.map (fun e => if e.1 = a then (e.1, (e.2.1 + tp, e.2.2 + fp)) else e)

namespace FPTree
variable {σ κ : Type} [DecidableEq σ] [DecidableEq κ]

def empty : FPTree σ := ⟨[], [], []⟩

/-- `node.get_child_by_selector(s) is not None`, for the node with path `p` -/
def hasChild (t : FPTree σ) (p : List σ) (s : σ) : Bool := (t.nodes.map (·.1)).contains (p ++ [s])

/-- the selectors of the children of the node with path `p` -/
def children (t : FPTree σ) (p : List σ) : List σ :=
  t.nodes.filterMap (fun e => match e.1.getLast? with
    | some s => if e.1 = p ++ [s] then some s else none
    | none => none)

/-- `is_empty`, `:52-57` -/
def isEmpty (t : FPTree σ) : Bool := (t.children []).length == 0

/-- the loop of `there_is_a_single_path`, `:66-71`; the fuel bounds the depth -/
def singlePathLoop (t : FPTree σ) : Nat → List σ → Bool
  | 0, _ => false
  | fuel + 1, p => match t.children p with
    | [] => true
    | [s] => t.singlePathLoop fuel (p ++ [s])
    | _ => false

/-- `there_is_a_single_path`, `:59-71` -/
def singlePath (t : FPTree σ) : Bool := t.singlePathLoop (t.nodes.length + 1) []

/-- `_insert_tree`, `:171-226`, from the node with path `p` -/
def insertTree (t : FPTree σ) (p : List σ) (targetMatch : Bool) : List σ → FPTree σ
  | [] => t
  | s :: rest =>
    if targetMatch && t.hasChild p s then
      insertTree { t with nodes := bump t.nodes (p ++ [s]) 1 0, header := bump t.header s 1 0 } (p ++ [s]) targetMatch rest
    else if !targetMatch && t.hasChild p s then
      insertTree { t with nodes := bump t.nodes (p ++ [s]) 0 1, header := bump t.header s 0 1 } (p ++ [s]) targetMatch rest
    else if targetMatch && !t.hasChild p s then
      insertTree { t with
        nodes := t.nodes ++ [(p ++ [s], (1, 0))]
        header := if (t.header.map (·.1)).contains s then bump t.header s 1 0 else t.header ++ [(s, (1, 0))] } (p ++ [s]) targetMatch rest
    else
      insertTree { t with
        nodes := t.nodes ++ [(p ++ [s], (0, 1))]
        header := if (t.header.map (·.1)).contains s then bump t.header s 0 1 else t.header ++ [(s, (0, 1))] } (p ++ [s]) targetMatch rest

/-- `_insert_in_conditional_fp_tree`, `:381-418`, from the node with path `p` -/
def insertCond (t : FPTree σ) (p : List σ) (tp fp : Nat) : List σ → FPTree σ
  | [] => t
  | s :: rest =>
    if t.hasChild p s then
      insertCond { t with nodes := bump t.nodes (p ++ [s]) tp fp, header := bump t.header s tp fp } (p ++ [s]) tp fp rest
    else
      insertCond { t with
        nodes := t.nodes ++ [(p ++ [s], (tp, fp))]
        header := if (t.header.map (·.1)).contains s then bump t.header s tp fp else t.header ++ [(s, (tp, fp))] } (p ++ [s]) tp fp rest

/-- `n` of an entry of the header table -/
def headerN (t : FPTree σ) (s : σ) : Nat :=
  match t.header.lookup s with
  | some c => c.1 + c.2
  | none => 0

/-- creation of the sorted header table, `:262-269` and `:369-377`: ascending by `n`, stable -/
def sortHeader (t : FPTree σ) : FPTree σ :=
  { t with sorted := stableSort (fun a b => decide (t.headerN a ≤ t.headerN b)) (t.header.map (·.1)) }

/-- insertion order and `n` recorded in the dictionary for a selector -/
def dictOrd (key : σ → κ) (d : FreqDict σ κ) (s : σ) : Int :=
  match d.lookup (key s) with
  | some e => e.2.2
  | none => 0

def dictN (key : σ → κ) (d : FreqDict σ κ) (s : σ) : Nat :=
  match d.lookup (key s) with
  | some e => e.2.1.1 + e.2.1.2
  | none => 0

/-- the two stable sorts of a row or path, `:257-258` and `:363-364`: by insertion order, then by `n` descending -/
def sortRow (key : σ → κ) (d : FreqDict σ κ) (l : List σ) : List σ :=
  stableSort (fun a b => decide (dictN key d b ≤ dictN key d a))
    (stableSort (fun a b => decide (dictOrd key d a ≤ dictOrd key d b)) l)

/-- the selectors of a row (as keys) that are in the dictionary, `:244-252` and `:351-359` -/
def validSelectors (d : FreqDict σ κ) (keys : List κ) : List σ :=
  keys.filterMap (fun k => (d.lookup k).map (·.1))

/-- `build_tree`, `:228-269`: each row is given by the keys of its cells and by whether the target matches -/
def buildTree (key : σ → κ) (d : FreqDict σ κ) (rows : List (List κ × Bool)) : FPTree σ :=
  (rows.foldl (fun t r => t.insertTree [] r.2 (sortRow key d (validSelectors d r.1))) empty).sortHeader

/-- one step of the walk up the tree, `:314-325`: add the counters of the node of the horizontal list under the key -/
def addToDict (key : σ → κ) (st : FreqDict σ κ × Int) (s : σ) (c : Cnt) : FreqDict σ κ × Int :=
  match st.1.lookup (key s) with
  | some _ => (st.1.map (fun e => if e.1 = key s then (e.1, (e.2.1, (e.2.2.1.1 + c.1, e.2.2.1.2 + c.2), e.2.2.2)) else e), st.2)
  | none => (st.1 ++ [(key s, (s, c, st.2))], st.2 - 1)

/-- the horizontal list of a selector: path of the parent and counters of each node -/
def horizontal (t : FPTree σ) (s : σ) : List (List σ × Cnt) :=
  t.nodes.filterMap (fun e => if e.1.getLast? = some s then some (e.1.dropLast, e.2) else none)

/-- steps 1-3 of the construction of a conditional tree from the nodes of a horizontal list, `:302-379` -/
def condOf (key : σ → κ) (th : Thresholds) (base : List (List σ × Cnt)) : FPTree σ :=
  let all := (base.foldl (fun st b => b.1.reverse.foldl (fun st s => addToDict key st s b.2) st) (([], 0) : FreqDict σ κ × Int)).1
  let freq := all.filter (fun e => th.ok e.2.2.1)
  ((base.filter (fun b => b.1 ≠ [])).foldl (fun t b =>
    t.insertCond [] b.2.1 b.2.2 (sortRow key freq (validSelectors freq (b.1.map key)))) empty).sortHeader

/-- `generate_conditional_fp_tree`, `:271-379`. Of the list of selectors only the first one, `s`, is used; a selector which
is not in the header table gives the empty tree (`:304-305`). -/
def condTree (key : σ → κ) (th : Thresholds) (t : FPTree σ) (s : σ) : FPTree σ :=
  if (t.header.map (·.1)).contains s then condOf key th (t.horizontal s) else empty

end FPTree
end Verif
