import Verif.Model.FPHeap
/-! Specification of the references of an FP-tree: which object each field must point to, given the paths of the nodes. -/
namespace Verif
namespace Spec
variable {σ : Type} [DecidableEq σ]

/-- the paths of the nodes in order of creation: the root first -/
def allPaths (t : FPTree σ) : List (List σ) := [] :: t.nodes.map (·.1)

/-- the children of the node with path `p`: selector and reference -/
def childRefs (P : List (List σ)) (p : List σ) : List (σ × Nat) :=
  P.zipIdx.filterMap (fun x => match x.1.getLast? with
    | some s => if x.1 = p ++ [s] then some (s, x.2) else none
    | none => none)

/-- the references of the nodes with selector `s`, in order of creation -/
def refsOf (P : List (List σ)) (s : σ) : List Nat :=
  P.zipIdx.filterMap (fun x => if x.1.getLast? = some s then some x.2 else none)

/-- the reference of the parent: the node whose path lacks the last selector -/
def parentRef (P : List (List σ)) (p : List σ) : Option Nat :=
  if p = [] then none else some (P.idxOf p.dropLast)

/-- the node link: the next node with the same selector -/
def nextRef (P : List (List σ)) (i : Nat) (p : List σ) : Option Nat :=
  match p.getLast? with
  | none => none
  | some s => (refsOf P s).find? (fun j => decide (i < j))

/-- the object with reference `i`, for the node with path `p` and counters `c` -/
def nodeAt (root : σ) (P : List (List σ)) (i : Nat) (x : List σ × Cnt) : HNode σ :=
  ⟨x.1.getLastD root, x.2, childRefs P x.1, parentRef P x.1, nextRef P i x.1⟩

/-- the objects are those of the tree: each node once, with its selector, counters, children, parent and node link; each entry of the
header table with its summations and with the first and the last node of its selector; the same sorted header table -/
structure Represents (root : σ) (h : HTree σ) (t : FPTree σ) : Prop where
  heap : ∀ i : Nat, h.heap[i]? = ((([], (0, 0)) :: t.nodes)[i]?).map (nodeAt root (allPaths t) i)
  header : h.header = t.header.map (fun e => (e.1, (e.2, (refsOf (allPaths t) e.1).headD 0, (refsOf (allPaths t) e.1).getLastD 0)))
  sorted : h.sorted = t.sorted

end Spec
end Verif
