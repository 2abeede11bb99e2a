import Verif.Model.FPHeap
import Verif.Model.VerticalList
/-! The printed forms of the data structures: `FPTreeNode.__str__`, `FPTreeNode.tree_as_str`, `FPTreeForSDMap.tree_as_str`,
`FPTreeForSDMap.header_table_as_str`, and `__str__` of the two vertical lists. -/
namespace Verif

namespace HTree
variable {σ : Type} [DecidableEq σ]

/-- `str(counters)` of a list of two integers -/
def cntStr (c : Cnt) : Str := c!"[" ++ natStr c.1 ++ c!", " ++ natStr c.2 ++ c!"]"

/-- `str(self._counters)` of a node; those of the root are `[-1, -1]` (`fp_tree_for_sdmap.py:26`, see `HTree`) -/
def countersStr (r : Nat) (c : Cnt) : Str := if r = 0 then c!"[-1, -1]" else cntStr c

/-- `FPTreeNode.__str__`, `fp_tree_node.py:138-142`. `ident`: the texts of the addresses that `id` gives; `str`: the texts of the selectors;
`none` when there is no such object. -/
def nodeStr (ident : Nat → Str) (str : σ → Str) (h : HTree σ) (r : Nat) : Option Str :=
  match h.heap[r]? with
  | none => none
  | some n => match n.link with
    | none => some (c!"{id: " ++ ident r ++ c!", selector: " ++ str n.sel ++ c!", counters: " ++ countersStr r n.cnt ++ c!", node_link_id: None}")
    | some l => some (c!"{id: " ++ ident r ++ c!", selector: " ++ str n.sel ++ c!", counters: " ++ countersStr r n.cnt ++ c!", node_link_id: " ++
        ident l ++ c!"}")

/-- the beginning of a line, `fp_tree_node.py:152-153`: `"    "*(current_depth-1) + "|--- "` -/
def indent (d : Nat) : Str := if d > 0 then (List.replicate (d - 1) c!"    ").flatten ++ c!"|--- " else []

/-- `FPTreeNode.tree_as_str`, `fp_tree_node.py:144-158`; the fuel bounds the depth of the recursion -/
def nodeTreeStr (ident : Nat → Str) (str : σ → Str) (h : HTree σ) : Nat → Nat → Nat → Option Str
  | 0, _, _ => none
  | fuel + 1, r, d => match h.heap[r]? with
    | none => none
    | some n => match nodeStr ident str h r with
      | none => none
      | some s => n.childs.foldlM (fun acc e => match n.childs.lookup e.1 with
          | none => none
          | some c => match nodeTreeStr ident str h fuel c (d + 1) with
            | none => none
            | some x => some (acc ++ x)) (indent d ++ s ++ c!"\n")

/-- `FPTreeForSDMap.tree_as_str`, `fp_tree_for_sdmap.py:73-78` -/
def treeStr (ident : Nat → Str) (str : σ → Str) (h : HTree σ) : Option Str := h.nodeTreeStr ident str h.heap.length 0 0

/-- the loop over the node links in `header_table_as_str`, `fp_tree_for_sdmap.py:94-97`; `str(None)` is `"None"` -/
def linksStr (ident : Nat → Str) (str : σ → Str) (h : HTree σ) : Nat → Option Nat → Str → Option Str
  | _, none, acc => some acc
  | 0, some _, _ => none
  | fuel + 1, some r, acc => match h.heap[r]? with
    | none => none
    | some n => match n.link with
      | none => linksStr ident str h fuel none (acc ++ c!" -> " ++ c!"None")
      | some l => match nodeStr ident str h l with
        | none => none
        | some s => linksStr ident str h fuel (some l) (acc ++ c!" -> " ++ s)

/-- the text of an entry, `fp_tree_for_sdmap.py:90-98` -/
def entryStr (ident : Nat → Str) (str : σ → Str) (h : HTree σ) (follow : Bool) (key : σ) (acc : Str) : Option Str :=
  match h.header.lookup key with
  | none => none
  | some e => match nodeStr ident str h e.2.1 with
    | none => none
    | some s =>
      if follow then
        match linksStr ident str h h.heap.length (some e.2.1)
            (acc ++ c!"{selector: " ++ str key ++ c!", " ++ c!"summations: " ++ cntStr e.1 ++ c!"} -> " ++ s) with
        | none => none
        | some x => some (x ++ c!"\n")
      else some (acc ++ c!"{selector: " ++ str key ++ c!", " ++ c!"summations: " ++ cntStr e.1 ++ c!"} -> " ++ s ++ c!"\n")

/-- `FPTreeForSDMap.header_table_as_str`, `fp_tree_for_sdmap.py:80-99` -/
def headerStr (ident : Nat → Str) (str : σ → Str) (h : HTree σ) (follow : Bool) : Option Str :=
  (h.header.map (·.1)).foldlM (fun acc key => h.entryStr ident str follow key acc) []

end HTree

/-- the list of the selectors in `__str__`, `vertical_list_with_bitsets.py:141-148`, `vertical_list_with_sets.py:124-131` -/
def selsStr {σ : Type} (str : σ → Str) (sels : List σ) : Str :=
  if sels.length = 0 then sels.foldl (fun acc e => acc ++ str e ++ c!", ") c!"[" ++ c!"]"
  else (sels.foldl (fun acc e => acc ++ str e ++ c!", ") c!"[").dropLast.dropLast ++ c!"]"

/-- the end of a sequence, `vertical_list_with_bitsets.py:156-160`, `:168-172`, `vertical_list_with_sets.py:138-142`, `:149-153` -/
def closeSeq (acc : Str) : Str :=
  if acc.getLast? = some ' ' ∧ acc.dropLast.getLast? = some ',' then acc.dropLast.dropLast ++ c!"]" else acc ++ c!"]"

/-- the parts put together, `vertical_list_with_bitsets.py:174-177`, `vertical_list_with_sets.py:155-158` -/
def vlistText {σ : Type} (str : σ → Str) (qstr : Rat → Str) (sels : List σ) (tp fp : Str) (q : Rat) : Str :=
  c!"List of selectors: " ++ selsStr str sels ++ c!", Sequence of instances (tp): " ++ tp ++ c!", Sequence of instances (fp): " ++ fp ++
    c!", Quality value: " ++ qstr q

namespace VListBits

/-- the loop over the bits with its index, `vertical_list_with_bitsets.py:150-155`, `:162-167` -/
def seqStr (b : Bits) : Str :=
  closeSeq (b.foldl (fun (st : Str × Nat) bit => (if bit then st.1 ++ natStr st.2 ++ c!", " else st.1, st.2 + 1)) (c!"[", 0)).1

/-- `VerticalListWithBitsets.__str__`, `vertical_list_with_bitsets.py:139-177`; `qstr`: the text of a quality value -/
def str {σ : Type} (sstr : σ → Str) (qstr : Rat → Str) (v : VList σ Bits) : Str :=
  vlistText sstr qstr v.sels (seqStr v.tpSeq) (seqStr v.fpSeq) v.quality

end VListBits

namespace VListSet

/-- the sorted list of a set, and the loop over it, `vertical_list_with_sets.py:133-137`, `:144-148` -/
def seqStr (l : List Nat) : Str :=
  closeSeq ((stableSort (fun a b => decide (a ≤ b)) l).foldl (fun acc x => acc ++ natStr x ++ c!", ") c!"[")

/-- `VerticalListWithSets.__str__`, `vertical_list_with_sets.py:122-158` -/
def str {σ : Type} (sstr : σ → Str) (qstr : Rat → Str) (v : VList σ (List Nat)) : Str :=
  vlistText sstr qstr v.sels (seqStr v.tpSeq) (seqStr v.fpSeq) v.quality

end VListSet
end Verif
