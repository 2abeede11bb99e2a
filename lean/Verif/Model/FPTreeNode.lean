import Verif.Model.Py
/-! Model of `src/subgroups/data_structures/fp_tree_node.py`: a heap of node objects. `σ` is the type of selectors, whose
equality is that of dictionary keys. `node_link` is not modelled. -/
namespace Verif

/-- a node object (`fp_tree_node.py:23-36`): selector, counters, children by selector, parent -/
structure FPNode (σ : Type) where
  sel : σ
  counters : List Nat
  /-- the dictionary `_childs`: selector and the reference of the child -/
  childs : List (σ × Nat)
  parent : Option Nat
  deriving DecidableEq

/-- all the node objects of a program; a reference is a position -/
abbrev NodeHeap (σ : Type) := List (FPNode σ)

namespace NodeHeap
variable {σ : Type} [DecidableEq σ]

/-- `FPTreeNode(selector, counters, None)`, `fp_tree_node.py:25-36` -/
def create (h : NodeHeap σ) (s : σ) (c : List Nat) : NodeHeap σ := h ++ [⟨s, c, [], none⟩]

/-- `add_child`, `fp_tree_node.py:79-90`. The result says whether `DuplicateFpTreeNodeError` was raised. -/
def addChild (h : NodeHeap σ) (p c : Nat) : NodeHeap σ × Bool :=
  match h[p]?, h[c]? with
  | some np, some nc =>
    if (np.childs.map (·.1)).contains nc.sel then (h, true)
    else ((h.modify c (fun n => { n with parent := some p })).modify p
      (fun n => { n with childs := n.childs ++ [(nc.sel, c)] }), false)
  | _, _ => (h, false)

/-- `delete_child_by_selector`, `fp_tree_node.py:92-103`. The result says whether `KeyError` was raised. -/
def deleteChild (h : NodeHeap σ) (p : Nat) (s : σ) : NodeHeap σ × Bool :=
  match h[p]? with
  | some np => match np.childs.lookup s with
    | some c => ((h.modify c (fun n => { n with parent := none })).modify p
        (fun n => { n with childs := n.childs.filter (fun e => e.1 ≠ s) }), false)
    | none => (h, true)
  | none => (h, false)

/-- `has_this_child`, `fp_tree_node.py:105-113` -/
def hasThisChild (h : NodeHeap σ) (p c : Nat) : Bool :=
  match h[p]?, h[c]? with
  | some np, some nc => np.childs.lookup nc.sel == some c
  | _, _ => false

/-- `is_child_of`, `fp_tree_node.py:115-123` -/
def isChildOf (h : NodeHeap σ) (c : Nat) (p : Option Nat) : Bool :=
  match h[c]? with
  | some nc => nc.parent == p
  | none => false

/-- `get_child_by_selector`, `fp_tree_node.py:125-136` -/
def getChild (h : NodeHeap σ) (p : Nat) (s : σ) : Option Nat :=
  match h[p]? with
  | some np => np.childs.lookup s
  | none => none

/-- a call made by a client -/
inductive Op (σ : Type)
  | create (s : σ) (c : List Nat)
  | addChild (p c : Nat)
  | deleteChild (p : Nat) (s : σ)

def step (h : NodeHeap σ) : Op σ → NodeHeap σ
  | .create s c => h.create s c
  | .addChild p c => (h.addChild p c).1
  | .deleteChild p s => (h.deleteChild p s).1

def run (h : NodeHeap σ) (ops : List (Op σ)) : NodeHeap σ := ops.foldl step h

end NodeHeap
end Verif
