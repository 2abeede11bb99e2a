import Verif.Model.Printing
import Verif.Props.FPHeap
import Verif.Props.VerticalList
import Verif.Lemmas.Sort
import Verif.Lemmas.Str
/-! Properties C81 and C82: the printed forms of FP-trees and vertical lists. -/
set_option linter.unusedSectionVars false
namespace Verif
open Spec FPHeap

/-! ## specification -/
namespace Spec
variable {σ : Type} [DecidableEq σ]

/-- depth-first visit of the trees below these nodes: each node, then what is below it (its children in order), then the next one -/
inductive Visit (h : HTree σ) : List Nat → List Nat → Prop
  | nil : Visit h [] []
  | node {r rs n l l'} : h.heap[r]? = some n → Visit h (n.childs.map (·.2)) l → Visit h rs l' → Visit h (r :: rs) (r :: l ++ l')

/-- the text of a node: its address, selector, counters, and the address of the next node with its selector -/
def nodeText (ident : Nat → Str) (str : σ → Str) (r : Nat) (n : HNode σ) : Str :=
  c!"{id: " ++ ident r ++ c!", selector: " ++ str n.sel ++ c!", counters: " ++
    (if r = 0 then c!"[-1, -1]" else c!"[" ++ natStr n.cnt.1 ++ c!", " ++ natStr n.cnt.2 ++ c!"]") ++ c!", node_link_id: " ++
    (match n.link with | none => c!"None" | some l => ident l) ++ c!"}"

/-- the line of a node at this depth: nothing before the root; three levels of depth give eight blanks and `|--- ` -/
def nodeLine (ident : Nat → Str) (str : σ → Str) (depth r : Nat) (n : HNode σ) : Str :=
  (match depth with | 0 => [] | d + 1 => List.replicate (4 * d) ' ' ++ c!"|--- ") ++ nodeText ident str r n ++ c!"\n"

/-- the line of an entry of the header table with these nodes (in this order, with these texts) -/
def entryLine (sel : Str) (c : Cnt) (nodes : List Str) : Str :=
  c!"{selector: " ++ sel ++ c!", summations: [" ++ natStr c.1 ++ c!", " ++ natStr c.2 ++ c!"]}" ++ (nodes.map (fun x => c!" -> " ++ x)).flatten ++ c!"\n"

/-- texts between brackets, separated by a comma and a blank -/
def bracket (l : List Str) : Str := c!"[" ++ List.intercalate c!", " l ++ c!"]"

end Spec

/-! ## proofs -/
section
variable {σ κ : Type} [DecidableEq σ] [DecidableEq κ]

theorem indent_eq (d : Nat) : HTree.indent d = (match d with | 0 => [] | d + 1 => List.replicate (4 * d) ' ' ++ c!"|--- ") := by
  cases d with
  | zero => rfl
  | succ d =>
    simp only [HTree.indent, Nat.zero_lt_succ, gt_iff_lt, if_true, Nat.add_sub_cancel]
    congr 1
    induction d with
    | zero => rfl
    | succ d ih =>
      rw [List.replicate_succ, List.flatten_cons, ih, show 4 * (d + 1) = 4 + 4 * d by omega, List.replicate_add]
      rfl

theorem nodeStr_eq (ident : Nat → Str) (str : σ → Str) {h : HTree σ} {r : Nat} {n : HNode σ} (hn : h.heap[r]? = some n) :
    HTree.nodeStr ident str h r = some (nodeText ident str r n) := by
  unfold HTree.nodeStr nodeText
  rw [hn]
  have a : (c!", node_link_id: None}") = c!", node_link_id: " ++ (c!"None" ++ c!"}") := rfl
  cases hl : n.link with
  | none => simp only [hl]; rw [a]; simp only [HTree.countersStr, HTree.cntStr, List.append_assoc]
  | some l => simp only [hl]; simp only [HTree.countersStr, HTree.cntStr, List.append_assoc]

theorem Visit.append {h : HTree σ} {a b x y : List Nat} (hx : Visit h a x) (hy : Visit h b y) : Visit h (a ++ b) (x ++ y) := by
  induction hx with
  | nil => exact hy
  | node hn hv _ _ ih2 =>
    have := Visit.node hn hv ih2
    simpa using this

/-- the result for the tree below a node -/
structure Printed (ident : Nat → Str) (str : σ → Str) (h : HTree σ) (t : FPTree σ) (p : List σ) (rs : List Nat) (text : Str) : Prop where
  ex : ∃ order lines, Visit h rs order ∧ text = List.flatten lines ∧ order.Nodup ∧
    List.Forall₂ (fun r line => ∃ n q, h.heap[r]? = some n ∧ (allPaths t)[r]? = some q ∧ line = nodeLine ident str q.length r n) order lines ∧
    (∀ r, r ∈ order ↔ ∃ c ∈ rs, ∃ pc q, (allPaths t)[c]? = some pc ∧ (allPaths t)[r]? = some q ∧ pc <+: q)

theorem nodeTreeStr_eq (ident : Nat → Str) (str : σ → Str) {root : σ} {h : HTree σ} {t : FPTree σ} (hr : Represents root h t) (hw : Wf t) :
    ∀ (fuel r : Nat) (p : List σ), (allPaths t)[r]? = some p → (allPaths t).length ≤ fuel + p.length →
      ∃ text, h.nodeTreeStr ident str fuel r p.length = some text ∧ Printed ident str h t p [r] text := by
  intro fuel
  induction fuel with
  | zero =>
    intro r p hp hf
    have := path_length hw p (List.mem_of_getElem? hp)
    omega
  | succ fuel ih =>
    intro r p hp hf
    obtain ⟨c, -, hn⟩ := node_of_path hr hp
    have hch : (nodeAt root (allPaths t) r (p, c)).childs = childRefs (allPaths t) p := rfl
    unfold HTree.nodeTreeStr
    rw [hn]
    simp only [nodeStr_eq ident str hn, hch]
    -- the children, one after the other
    have key : ∀ (cs : List (σ × Nat)), (∀ e ∈ cs, e ∈ childRefs (allPaths t) p) → (cs.map (·.1)).Nodup → ∀ acc : Str,
        ∃ text, cs.foldlM (fun (acc : Str) e => match (childRefs (allPaths t) p).lookup e.1 with
          | none => none
          | some c => match h.nodeTreeStr ident str fuel c (p.length + 1) with
            | none => none
            | some x => some (acc ++ x)) acc = some (acc ++ text) ∧ Printed ident str h t p (cs.map (·.2)) text := by
      intro cs
      induction cs with
      | nil =>
        intro _ _ acc
        exact ⟨[], by simp, ⟨[], [], .nil, rfl, List.nodup_nil, .nil, by simp⟩⟩
      | cons e cs ihc =>
        intro hm hnd acc
        obtain ⟨s, j⟩ := e
        have hj : (s, j) ∈ childRefs (allPaths t) p := hm _ (by simp)
        have hl : (childRefs (allPaths t) p).lookup s = some j := lookup_of_mem_nodup (childRefs_nodup hw.nodup p) hj
        have hpj := mem_childRefs.1 hj
        obtain ⟨x, hx, ⟨o1, l1, v1, t1, n1, f1, m1⟩⟩ := ih j (p ++ [s]) hpj (by simp; omega)
        obtain ⟨y, hy, ⟨o2, l2, v2, t2, n2, f2, m2⟩⟩ := ihc (fun e he => hm e (by simp [he])) (by simp at hnd; exact hnd.2) (acc ++ x)
        refine ⟨x ++ y, ?_, ⟨o1 ++ o2, l1 ++ l2, ?_, by simp [t1, t2], ?_, List.rel_append f1 f2, ?_⟩⟩
        · rw [List.foldlM_cons, hl]
          rw [List.length_append, List.length_singleton] at hx
          simp only [hx]
          rw [← List.append_assoc]
          exact hy
        · exact Visit.append v1 v2
        · refine List.nodup_append.2 ⟨n1, n2, ?_⟩
          rintro a ha b hb rfl
          obtain ⟨c1, hc1, p1, q1, e1, e2, e3⟩ := (m1 a).1 ha
          obtain ⟨c2, hc2, p2, q2, e4, e5, e6⟩ := (m2 a).1 hb
          simp only [List.mem_singleton] at hc1
          subst hc1
          obtain ⟨⟨s', c2'⟩, hc', rfl⟩ := List.mem_map.1 hc2
          have h2 := mem_childRefs.1 (hm (s', c2') (by simp [hc']))
          have ep1 : p1 = p ++ [s] := by rw [hpj] at e1; exact (Option.some.inj e1).symm
          have ep2 : p2 = p ++ [s'] := by rw [h2] at e4; exact (Option.some.inj e4).symm
          have eq : q1 = q2 := by rw [e2] at e5; exact Option.some.inj e5
          subst eq ep1 ep2
          have hpre := List.prefix_of_prefix_length_le e3 e6 (by simp)
          have hss : s = s' := by
            have := hpre.eq_of_length (by simp)
            simpa using this
          subst hss
          simp only [List.map_cons, List.nodup_cons] at hnd
          exact hnd.1 (List.mem_map.2 ⟨(s, c2'), hc', rfl⟩)
        · intro a
          rw [List.mem_append, m1, m2]
          simp only [List.map_cons, List.mem_cons, List.not_mem_nil, or_false]
          constructor
          · rintro (⟨c, hc, hh⟩ | ⟨c, hc, hh⟩)
            · exact ⟨c, .inl hc, hh⟩
            · exact ⟨c, .inr hc, hh⟩
          · rintro ⟨c, hc | hc, hh⟩
            · exact .inl ⟨c, hc, hh⟩
            · exact .inr ⟨c, hc, hh⟩
    obtain ⟨text, ht, ⟨o, l, v, e, nd, f, m⟩⟩ := key (childRefs (allPaths t) p) (fun _ h => h) (childRefs_nodup hw.nodup p)
      (HTree.indent p.length ++ nodeText ident str r (nodeAt root (allPaths t) r (p, c)) ++ c!"\n")
    refine ⟨_, ht, ⟨r :: o, nodeLine ident str p.length r (nodeAt root (allPaths t) r (p, c)) :: l, ?_, ?_, ?_, ?_, ?_⟩⟩
    · have := Visit.node (rs := []) (l' := []) hn (by rw [hch]; exact v) .nil
      simpa using this
    · rw [List.flatten_cons, ← e, indent_eq]; rfl
    · refine List.nodup_cons.2 ⟨?_, nd⟩
      rw [m]
      rintro ⟨c', hc', pc, q, e1, e2, e3⟩
      obtain ⟨⟨s, c''⟩, h', rfl⟩ := List.mem_map.1 hc'
      have h2 := mem_childRefs.1 h'
      rw [h2] at e1
      rw [hp] at e2
      rw [← Option.some.inj e1, ← Option.some.inj e2] at e3
      have := e3.length_le
      simp at this
    · exact .cons ⟨_, p, hn, hp, rfl⟩ f
    · intro a
      rw [List.mem_cons, m]
      constructor
      · rintro (rfl | ⟨c', hc', pc, q, e1, e2, e3⟩)
        · exact ⟨a, by simp, p, p, hp, hp, List.prefix_rfl⟩
        · obtain ⟨⟨s, c''⟩, h', rfl⟩ := List.mem_map.1 hc'
          have h2 := mem_childRefs.1 h'
          rw [h2] at e1
          rw [← Option.some.inj e1] at e3
          exact ⟨r, by simp, p, q, hp, e2, (List.prefix_append p [s]).trans e3⟩
      · rintro ⟨c', hc', pc, q, e1, e2, e3⟩
        simp only [List.mem_singleton] at hc'
        subst hc'
        rw [hp] at e1
        cases e1
        obtain ⟨w, rfl⟩ := e3
        cases w with
        | nil =>
          left
          rw [List.append_nil] at e2
          exact (List.getElem?_inj (List.getElem?_eq_some_iff.1 e2).1 hw.nodup).1 (e2.trans hp.symm)
        | cons s w =>
          right
          have hmem : p ++ [s] ∈ allPaths t := by
            have hq : (p ++ [s]) ++ w ∈ allPaths t := by
              have := List.mem_of_getElem? e2
              simpa using this
            clear e2
            induction w using List.reverseRecOn with
            | nil => simpa using hq
            | append_singleton w x ih =>
              rw [← List.append_assoc] at hq
              exact ih (hw.closed _ _ hq)
          obtain ⟨j, hj⟩ := List.mem_iff_getElem?.1 hmem
          exact ⟨j, List.mem_map.2 ⟨(s, j), mem_childRefs.2 hj, rfl⟩, p ++ [s], _, hj, e2, ⟨w, by simp⟩⟩

theorem tree_printed (ident : Nat → Str) (str : σ → Str) {root : σ} {h : HTree σ} {t : FPTree σ} (hs : Shadow root h t) :
    ∃ order lines, h.treeStr ident str = some (List.flatten lines) ∧ Visit h [0] order ∧ order.Perm (List.range h.heap.length) ∧
      List.Forall₂ (fun r line => ∃ n p, h.heap[r]? = some n ∧ PathTo h r p ∧ line = nodeLine ident str p.length r n) order lines := by
  obtain ⟨hr, hw, -, -⟩ := hs
  obtain ⟨text, ht, ⟨o, l, v, e, nd, f, m⟩⟩ := nodeTreeStr_eq ident str hr hw h.heap.length 0 [] (root_path t) (by rw [heap_length hr]; simp)
  refine ⟨o, l, by rw [← e]; exact ht, v, ?_, ?_⟩
  · refine (List.perm_ext_iff_of_nodup nd List.nodup_range).2 ?_
    intro a
    rw [m, List.mem_range, heap_length hr]
    constructor
    · rintro ⟨c, -, pc, q, -, e2, -⟩
      exact (List.getElem?_eq_some_iff.1 e2).1
    · intro ha
      exact ⟨0, by simp, [], _, root_path t, List.getElem?_eq_getElem ha, List.nil_prefix⟩
  · refine f.imp ?_
    rintro r line ⟨n, q, e1, e2, e3⟩
    exact ⟨n, q, e1, pathTo_of hr hw q r e2, e3⟩

theorem linksStr_eq (ident : Nat → Str) (str : σ → Str) {h : HTree σ} {r : Nat} {rs : List Nat} (hc : Chain h (some r) (r :: rs)) :
    ∀ (fuel : Nat), rs.length + 1 ≤ fuel → ∀ acc : Str,
    ∃ ts, List.Forall₂ (fun r x => ∃ n, h.heap[r]? = some n ∧ x = nodeText ident str r n) rs ts ∧
      h.linksStr ident str fuel (some r) acc = some (acc ++ ((ts ++ [c!"None"]).map (fun x => c!" -> " ++ x)).flatten) := by
  induction rs generalizing r with
  | nil =>
    intro fuel hf acc
    obtain ⟨fuel, rfl⟩ : ∃ k, fuel = k + 1 := ⟨fuel - 1, by omega⟩
    refine ⟨[], .nil, ?_⟩
    cases hc with
    | go hn hc =>
      rename_i n
      unfold HTree.linksStr
      rw [hn]
      cases hl : n.link with
      | none => simp [hl, HTree.linksStr]
      | some x => rw [hl] at hc; cases hc
  | cons x rs ih =>
    intro fuel hf acc
    obtain ⟨fuel, rfl⟩ : ∃ k, fuel = k + 1 := ⟨fuel - 1, by omega⟩
    cases hc with
    | go hn hc =>
      rename_i n
      unfold HTree.linksStr
      rw [hn]
      cases hl : n.link with
      | none => rw [hl] at hc; cases hc
      | some y =>
        rw [hl] at hc
        have hxy : y = x := by cases hc; rfl
        subst hxy
        have hnx : ∃ m, h.heap[y]? = some m := by cases hc with | go hm _ => exact ⟨_, hm⟩
        obtain ⟨m, hm⟩ := hnx
        simp only [hl, nodeStr_eq ident str hm]
        obtain ⟨ts, f, e⟩ := ih hc fuel (by simpa using hf) (acc ++ c!" -> " ++ nodeText ident str y m)
        refine ⟨nodeText ident str y m :: ts, .cons ⟨m, hm, rfl⟩ f, ?_⟩
        rw [e]
        simp

theorem header_printed (ident : Nat → Str) (str : σ → Str) {h : HTree σ} (hl : Linked h) (follow : Bool) :
    ∃ lines, h.headerStr ident str follow = some (List.flatten lines) ∧
      List.Forall₂ (fun e line => ∃ rs ts, Chain h (some e.2.2.1) rs ∧ (∀ r, r ∈ rs ↔ r ≠ 0 ∧ ∃ n, h.heap[r]? = some n ∧ n.sel = e.1) ∧
        List.Forall₂ (fun r x => ∃ n, h.heap[r]? = some n ∧ x = nodeText ident str r n) rs ts ∧
        line = entryLine (str e.1) e.2.1 (if follow then ts ++ [c!"None"] else ts.take 1)) h.header lines := by
  have key : ∀ es : List (σ × (Cnt × Nat × Nat)), (∀ e ∈ es, e ∈ h.header) → ∀ acc : Str, ∃ lines,
      (es.map (·.1)).foldlM (fun acc key => h.entryStr ident str follow key acc) acc = some (acc ++ List.flatten lines) ∧
      List.Forall₂ (fun e line => ∃ rs ts, Chain h (some e.2.2.1) rs ∧ (∀ r, r ∈ rs ↔ r ≠ 0 ∧ ∃ n, h.heap[r]? = some n ∧ n.sel = e.1) ∧
        List.Forall₂ (fun r x => ∃ n, h.heap[r]? = some n ∧ x = nodeText ident str r n) rs ts ∧
        line = entryLine (str e.1) e.2.1 (if follow then ts ++ [c!"None"] else ts.take 1)) es lines := by
    intro es
    induction es with
    | nil => intro _ acc; exact ⟨[], by simp, .nil⟩
    | cons e es ih =>
      intro hm acc
      obtain ⟨s, c, f, l⟩ := e
      have he : (s, (c, f, l)) ∈ h.header := hm _ (by simp)
      have hlk := lookup_of_mem_nodup hl.entries he
      obtain ⟨rs, h1, h2, -, h4, -⟩ := hl.links s c f l he
      obtain ⟨rs', rfl⟩ : ∃ rs', rs = f :: rs' := by cases h1; exact ⟨_, rfl⟩
      obtain ⟨n, hn⟩ : ∃ n, h.heap[f]? = some n := by cases h1; exact ⟨_, by assumption⟩
      have hlen : rs'.length + 1 ≤ h.heap.length := by
        have hnd : (f :: rs').Nodup := h2.imp (fun h => Nat.ne_of_lt h)
        have hsub : (f :: rs') ⊆ List.range h.heap.length := by
          intro x hx
          obtain ⟨-, m, hm, -⟩ := (h4 x).1 hx
          exact List.mem_range.2 (List.getElem?_eq_some_iff.1 hm).1
        have := (List.subperm_of_subset hnd hsub).length_le
        simpa using this
      have a1 : (c!", summations: [") = c!", " ++ (c!"summations: " ++ c!"[") := rfl
      have a2 : (c!"]}") = c!"]" ++ c!"}" := rfl
      have a3 : (c!"} -> ") = c!"}" ++ c!" -> " := rfl
      have hstep : ∀ acc : Str, ∃ ts, List.Forall₂ (fun r x => ∃ n, h.heap[r]? = some n ∧ x = nodeText ident str r n) (f :: rs') ts ∧
          h.entryStr ident str follow s acc = some (acc ++ entryLine (str s) c (if follow then ts ++ [c!"None"] else ts.take 1)) := by
        intro acc
        unfold HTree.entryStr
        rw [hlk]
        simp only [nodeStr_eq ident str hn]
        obtain ⟨ts, g1, g2⟩ := linksStr_eq ident str h1 h.heap.length hlen
          (acc ++ c!"{selector: " ++ str s ++ c!", " ++ c!"summations: " ++ HTree.cntStr c ++ c!"} -> " ++ nodeText ident str f n)
        refine ⟨nodeText ident str f n :: ts, .cons ⟨n, hn, rfl⟩ g1, ?_⟩
        cases follow with
        | true =>
          simp only [if_true]
          rw [g2]
          unfold entryLine HTree.cntStr
          rw [a1, a2, a3]
          simp only [List.cons_append, List.map_cons, List.flatten_cons, List.append_assoc]
        | false =>
          simp only [Bool.false_eq_true, if_false, List.take_succ_cons, List.take_zero]
          unfold entryLine HTree.cntStr
          rw [a1, a2, a3]
          simp only [List.map_cons, List.flatten_cons, List.append_assoc, List.map_nil, List.flatten_nil, List.append_nil]
      obtain ⟨ts, g1, g2⟩ := hstep acc
      obtain ⟨lines, k1, k2⟩ := ih (fun e he => hm e (by simp [he])) (acc ++ entryLine (str s) c (if follow then ts ++ [c!"None"] else ts.take 1))
      refine ⟨entryLine (str s) c (if follow then ts ++ [c!"None"] else ts.take 1) :: lines, ?_, .cons ⟨_, ts, h1, h4, g1, rfl⟩ k2⟩
      rw [List.map_cons, List.foldlM_cons, g2]
      simp only [List.flatten_cons, ← List.append_assoc]
      exact k1
  obtain ⟨lines, k1, k2⟩ := key h.header (fun _ h => h) []
  exact ⟨lines, by unfold HTree.headerStr; simpa using k1, k2⟩

/-! ## C81 -/

/-- C81: `tree_as_str` of any tree that a client can have prints every node on exactly one line, in depth-first order (children in the order
of insertion), at the depth that is the length of its path. -/
theorem C81_tree (ident : Nat → Str) (str : σ → Str) (root : σ) (key : σ → κ) (h : HTree σ) (hc : ClientTree root key h) :
    ∃ order lines, h.treeStr ident str = some (List.flatten lines) ∧ Visit h [0] order ∧ order.Perm (List.range h.heap.length) ∧
      List.Forall₂ (fun r line => ∃ n p, h.heap[r]? = some n ∧ PathTo h r p ∧ line = nodeLine ident str p.length r n) order lines := by
  obtain ⟨t, ht⟩ := client_shadow hc
  exact tree_printed ident str ht

/-- C81: `header_table_as_str` prints one line per entry, with its selector, its summations, and (when it follows the node links) exactly
the nodes with this selector, in the order of the node links, and `None`; otherwise the first of them only. -/
theorem C81_header (ident : Nat → Str) (str : σ → Str) (root : σ) (key : σ → κ) (h : HTree σ) (hc : ClientTree root key h) (follow : Bool) :
    ∃ lines, h.headerStr ident str follow = some (List.flatten lines) ∧
      List.Forall₂ (fun e line => ∃ rs ts, Chain h (some e.2.2.1) rs ∧ (∀ r, r ∈ rs ↔ r ≠ 0 ∧ ∃ n, h.heap[r]? = some n ∧ n.sel = e.1) ∧
        List.Forall₂ (fun r x => ∃ n, h.heap[r]? = some n ∧ x = nodeText ident str r n) rs ts ∧
        line = entryLine (str e.1) e.2.1 (if follow then ts ++ [c!"None"] else ts.take 1)) h.header lines :=
  header_printed ident str (C80_linked root key h hc) follow
end

/-- C81: the same for the conditional trees of SDMapStar. -/
theorem C81_star (ident : Nat → Str) (str : Selector → Str) (h : HTree Selector) (hc : StarTree h) :
    (∃ order lines, h.treeStr ident str = some (List.flatten lines) ∧ Visit h [0] order ∧ order.Perm (List.range h.heap.length) ∧
      List.Forall₂ (fun r line => ∃ n p, h.heap[r]? = some n ∧ PathTo h r p ∧ line = nodeLine ident str p.length r n) order lines) ∧
    ∀ follow : Bool, ∃ lines, h.headerStr ident str follow = some (List.flatten lines) ∧
      List.Forall₂ (fun e line => ∃ rs ts, Chain h (some e.2.2.1) rs ∧ (∀ r, r ∈ rs ↔ r ≠ 0 ∧ ∃ n, h.heap[r]? = some n ∧ n.sel = e.1) ∧
        List.Forall₂ (fun r x => ∃ n, h.heap[r]? = some n ∧ x = nodeText ident str r n) rs ts ∧
        line = entryLine (str e.1) e.2.1 (if follow then ts ++ [c!"None"] else ts.take 1)) h.header lines := by
  obtain ⟨t, ht⟩ := star_shadow hc
  exact ⟨tree_printed ident str ht, fun follow => header_printed ident str (C80_star h hc).1 follow⟩

/-! ## C82 -/

theorem foldl_texts (l : List Str) (acc : Str) :
    l.foldl (fun acc x => acc ++ x ++ c!", ") acc = acc ++ (l.map (fun x => x ++ c!", ")).flatten := by
  induction l generalizing acc with
  | nil => simp
  | cons x l ih => rw [List.foldl_cons, ih]; simp

theorem texts_ne {l : List Str} (h : l ≠ []) : (l.map (fun x => x ++ c!", ")).flatten = List.intercalate c!", " l ++ c!", " := by
  induction l with
  | nil => exact absurd rfl h
  | cons x l ih =>
    cases l with
    | nil => simp [List.intercalate]
    | cons y l =>
      rw [List.map_cons, List.flatten_cons, ih (by simp)]
      simp [List.intercalate]

theorem cut_two (a : Str) (x y : Char) : (a ++ [x, y]).dropLast.dropLast = a := by
  rw [show a ++ [x, y] = (a ++ [x]) ++ [y] by simp, List.dropLast_concat, List.dropLast_concat]

theorem close_texts (l : List Str) : closeSeq (l.foldl (fun acc x => acc ++ x ++ c!", ") c!"[") = bracket l := by
  rw [foldl_texts]
  cases l with
  | nil => rfl
  | cons x l =>
    rw [texts_ne (by simp), ← List.append_assoc]
    unfold closeSeq bracket
    rw [if_pos ?_, cut_two]
    have e : ∀ a : Str, a ++ c!", " = (a ++ [',']) ++ [' '] := fun a => by simp
    rw [e, List.dropLast_concat]
    exact ⟨List.getLast?_concat, List.getLast?_concat⟩

theorem selsStr_eq {σ : Type} (str : σ → Str) (sels : List σ) : selsStr str sels = bracket (sels.map str) := by
  unfold selsStr
  have hf : sels.foldl (fun acc e => acc ++ str e ++ c!", ") c!"[" = (sels.map str).foldl (fun acc x => acc ++ x ++ c!", ") c!"[" := by
    rw [List.foldl_map]
  rw [hf, foldl_texts]
  cases sels with
  | nil => rfl
  | cons x l =>
    rw [if_neg (by simp), texts_ne (by simp), ← List.append_assoc]
    unfold bracket
    rw [cut_two]

/-- the rows of a bitarray, ascending -/
def rowsFrom (k : Nat) : Bits → List Nat
  | [] => []
  | b :: bs => if b then k :: rowsFrom (k + 1) bs else rowsFrom (k + 1) bs

theorem rowsFrom_fold (b : Bits) (k : Nat) (acc : Str) :
    (b.foldl (fun (st : Str × Nat) bit => (if bit then st.1 ++ natStr st.2 ++ c!", " else st.1, st.2 + 1)) (acc, k)).1 =
      ((rowsFrom k b).map natStr).foldl (fun acc x => acc ++ x ++ c!", ") acc := by
  induction b generalizing k acc with
  | nil => rfl
  | cons x b ih =>
    rw [List.foldl_cons]
    cases x <;> simp only [rowsFrom, Bool.false_eq_true, if_false, if_true, ih, List.map_cons, List.foldl_cons]

theorem mem_rowsFrom (b : Bits) (k i : Nat) : i ∈ rowsFrom k b ↔ k ≤ i ∧ b.get (i - k) = true := by
  induction b generalizing k with
  | nil => simp [rowsFrom, Bits.get]
  | cons x b ih =>
    have hg : ∀ j, Bits.get (x :: b) (j + 1) = Bits.get b j := fun j => by simp [Bits.get]
    have h0 : Bits.get (x :: b) 0 = x := by simp [Bits.get]
    rcases Nat.lt_trichotomy i k with h | rfl | h
    · have hh : ¬ k ≤ i := by omega
      have h1 : i ∉ rowsFrom (k + 1) b := by rw [ih]; omega
      have : i ≠ k := by omega
      cases x <;> simp [rowsFrom, h1, hh, this]
    · have h1 : i ∉ rowsFrom (i + 1) b := by rw [ih]; omega
      rw [Nat.sub_self, h0]
      cases x <;> simp [rowsFrom, h1]
    · have hk : i - k = (i - (k + 1)) + 1 := by omega
      rw [hk, hg]
      have hne : i ≠ k := by omega
      have hle : k ≤ i := by omega
      have hle' : k + 1 ≤ i := h
      cases x <;> simp [rowsFrom, ih, hne, hle, hle']

theorem rowsFrom_sorted (b : Bits) (k : Nat) : (rowsFrom k b).Pairwise (· < ·) := by
  induction b generalizing k with
  | nil => exact .nil
  | cons x b ih =>
    cases x with
    | false => exact ih (k + 1)
    | true =>
      refine List.pairwise_cons.2 ⟨fun i hi => ?_, ih (k + 1)⟩
      have := ((mem_rowsFrom b (k + 1) i).1 hi).1
      omega

theorem bits_seqStr (b : Bits) : ∃ l : List Nat, l.Pairwise (· < ·) ∧ (∀ i, i ∈ l ↔ b.get i = true) ∧ VListBits.seqStr b = bracket (l.map natStr) := by
  refine ⟨rowsFrom 0 b, rowsFrom_sorted b 0, fun i => by rw [mem_rowsFrom]; simp, ?_⟩
  unfold VListBits.seqStr
  rw [rowsFrom_fold, close_texts]

theorem set_seqStr (l : List Nat) (hn : l.Nodup) :
    ∃ s : List Nat, s.Pairwise (· < ·) ∧ (∀ i, i ∈ s ↔ i ∈ l) ∧ VListSet.seqStr l = bracket (s.map natStr) := by
  refine ⟨stableSort (fun a b => decide (a ≤ b)) l, ?_, fun i => (stableSort_perm l).mem_iff, ?_⟩
  · have h1 : (stableSort (fun a b => decide (a ≤ b)) l).Pairwise (fun a b => decide (a ≤ b) = true) :=
      pairwise_stableSort (fun a b c h1 h2 => by simp at *; omega) (fun a b => by simp; omega) l
    have h2 : (stableSort (fun a b => decide (a ≤ b)) l).Nodup := (stableSort_perm l).nodup_iff.2 hn
    refine (h1.and h2).imp ?_
    rintro a b ⟨h, h'⟩
    simp only [decide_eq_true_eq] at h
    omega
  · unfold VListSet.seqStr
    rw [← close_texts, List.foldl_map]

namespace Spec
/-- the text of a vertical list with these selectors, rows and quality value -/
def vlistLine (sels : List Str) (pos neg : List Nat) (q : Str) : Str :=
  c!"List of selectors: " ++ bracket sels ++ c!", Sequence of instances (tp): " ++ bracket (pos.map natStr) ++
    c!", Sequence of instances (fp): " ++ bracket (neg.map natStr) ++ c!", Quality value: " ++ q
end Spec

/-- C82: the text of a vertical list with sets lists its selectors in order, and, ascending and each once, exactly the positive and the
negative rows that all vertical lists it was made from have in common. -/
theorem C82_sets {σ : Type} (str : σ → Str) (qstr : Rat → Str) (quality : Params → Except PyErr Rat) (d : Params) (z : Bool) (e : JExpr σ)
    (hv : JExpr.Valid e) (x : VList σ (List Nat)) (hx : e.eval VListSet.new (VListSet.join quality d z) = .ok (some x)) :
    ∃ pos neg : List Nat, pos.Pairwise (· < ·) ∧ neg.Pairwise (· < ·) ∧ (∀ i, i ∈ pos ↔ JExpr.Pos e i) ∧ (∀ i, i ∈ neg ↔ JExpr.Neg e i) ∧
      VListSet.str str qstr x = vlistLine ((JExpr.names e).map str) pos neg (qstr x.quality) := by
  obtain ⟨a1, a2, -, -, a5, a6, a7, -⟩ := C20_exact_sets quality d z e hv x hx
  obtain ⟨p, p1, p2, p3⟩ := set_seqStr x.tpSeq a1
  obtain ⟨n, n1, n2, n3⟩ := set_seqStr x.fpSeq a2
  refine ⟨p, n, p1, n1, fun i => (p2 i).trans (a5 i), fun i => (n2 i).trans (a6 i), ?_⟩
  unfold VListSet.str vlistText vlistLine
  rw [selsStr_eq, p3, n3, a7]

/-- C82: the same for bitsets. -/
theorem C82_bits {σ : Type} (str : σ → Str) (qstr : Rat → Str) (quality : Params → Except PyErr Rat) (d : Params) (z : Bool) (e : JExpr σ)
    (hv : JExpr.Valid e) (x : VList σ Bits) (hx : e.eval VListBits.new (VListBits.join quality d z) = .ok (some x)) :
    ∃ pos neg : List Nat, pos.Pairwise (· < ·) ∧ neg.Pairwise (· < ·) ∧ (∀ i, i ∈ pos ↔ JExpr.Pos e i) ∧ (∀ i, i ∈ neg ↔ JExpr.Neg e i) ∧
      VListBits.str str qstr x = vlistLine ((JExpr.names e).map str) pos neg (qstr x.quality) := by
  obtain ⟨-, -, -, -, a5, a6, a7, -⟩ := C20_exact_bits quality d z e hv x hx
  obtain ⟨p, p1, p2, p3⟩ := bits_seqStr x.tpSeq
  obtain ⟨n, n1, n2, n3⟩ := bits_seqStr x.fpSeq
  refine ⟨p, n, p1, n1, fun i => (p2 i).trans (a5 i), fun i => (n2 i).trans (a6 i), ?_⟩
  unfold VListBits.str vlistText vlistLine
  rw [selsStr_eq, p3, n3, a7]

theorem sorted_unique {a b : List Nat} (ha : a.Pairwise (· < ·)) (hb : b.Pairwise (· < ·)) (h : ∀ i, i ∈ a ↔ i ∈ b) : a = b := by
  have na : a.Nodup := ha.imp (fun h => Nat.ne_of_lt h)
  have nb : b.Nodup := hb.imp (fun h => Nat.ne_of_lt h)
  exact List.Perm.eq_of_pairwise (le := (· < ·)) (fun x y _ _ h1 h2 => absurd h1 (by omega)) ha hb ((List.perm_ext_iff_of_nodup na nb).2 h)

/-- C82: the same program prints the same text with either implementation. -/
theorem C82_agree {σ : Type} (str : σ → Str) (qstr : Rat → Str) (quality : Params → Except PyErr Rat) (d : Params) (z : Bool) (e : JExpr σ)
    (hv : JExpr.Valid e) (x : VList σ (List Nat)) (y : VList σ Bits) (hx : e.eval VListSet.new (VListSet.join quality d z) = .ok (some x))
    (hy : e.eval VListBits.new (VListBits.join quality d z) = .ok (some y)) : VListSet.str str qstr x = VListBits.str str qstr y := by
  obtain ⟨p, n, p1, n1, p2, n2, h1⟩ := C82_sets str qstr quality d z e hv x hx
  obtain ⟨p', n', p1', n1', p2', n2', h2⟩ := C82_bits str qstr quality d z e hv y hy
  have hq : x.quality = y.quality := by
    have := C20_agree quality d z e hv
    rw [hx, hy] at this
    exact this.quality
  rw [h1, h2, sorted_unique p1 p1' (fun i => (p2 i).trans (p2' i).symm), sorted_unique n1 n1' (fun i => (n2 i).trans (n2' i).symm), hq]

theorem digits_end {a b : Str} {x y : Char} {X Y : Str} (ha : ∀ c ∈ a, IsDigit c) (hb : ∀ c ∈ b, IsDigit c) (hx : ¬ IsDigit x) (hy : ¬ IsDigit y)
    (h : a ++ x :: X = b ++ y :: Y) : a = b ∧ x = y ∧ X = Y := by
  induction a generalizing b with
  | nil =>
    cases b with
    | nil => simpa using h
    | cons c b =>
      simp only [List.nil_append, List.cons_append, List.cons.injEq] at h
      exact absurd (h.1 ▸ hb c (by simp)) hx
  | cons c a ih =>
    cases b with
    | nil =>
      simp only [List.nil_append, List.cons_append, List.cons.injEq] at h
      exact absurd (h.1 ▸ ha c (by simp)) hy
    | cons d b =>
      simp only [List.cons_append, List.cons.injEq] at h
      obtain ⟨e1, e2⟩ := ih (fun c hc => ha c (by simp [hc])) (fun c hc => hb c (by simp [hc])) h.2
      exact ⟨by rw [h.1, e1], e2⟩

theorem printed_inj {a b : Nat} (h : natStr a = natStr b) : a = b := by
  have := congrArg parseNat h
  rw [parseNat_natStr, parseNat_natStr] at this
  exact Option.some.inj this

theorem comma_not_digit : ¬ IsDigit ',' := by
  rintro ⟨d, hd, h⟩
  have : ∀ d : Fin 10, (',' : Char) ≠ digitChar d.val := by decide
  exact this ⟨d, hd⟩ h

theorem close_not_digit : ¬ IsDigit ']' := by
  rintro ⟨d, hd, h⟩
  have : ∀ d : Fin 10, (']' : Char) ≠ digitChar d.val := by decide
  exact this ⟨d, hd⟩ h

theorem rows_inj (l l' : List Nat) (X Y : Str)
    (h : List.intercalate c!", " (l.map natStr) ++ ']' :: X = List.intercalate c!", " (l'.map natStr) ++ ']' :: Y) : l = l' ∧ X = Y := by
  have one : ∀ x, List.intercalate c!", " [natStr x] = natStr x := fun x => by simp [List.intercalate]
  have more : ∀ x y (l : List Nat), List.intercalate c!", " (natStr x :: natStr y :: l.map natStr) =
      natStr x ++ ',' :: ' ' :: List.intercalate c!", " (natStr y :: l.map natStr) := fun x y l => by simp [List.intercalate]
  have first : ∀ x (l : List Nat) (Z : Str), ∃ c R, IsDigit c ∧ List.intercalate c!", " (natStr x :: l.map natStr) ++ Z = c :: R := by
    intro x l Z
    obtain ⟨c, R, hc⟩ := List.exists_cons_of_ne_nil (natStr_ne_nil x)
    have hd : IsDigit c := natStr_digits x c (by rw [hc]; simp)
    cases l with
    | nil => exact ⟨c, R ++ Z, hd, by rw [List.map_nil, one, hc]; rfl⟩
    | cons y l => exact ⟨c, _, hd, by rw [List.map_cons, more, hc]; rfl⟩
  induction l generalizing l' with
  | nil =>
    cases l' with
    | nil => simpa [List.intercalate] using h
    | cons x l' =>
      obtain ⟨c, R, hc, e⟩ := first x l' (']' :: Y)
      rw [List.map_cons, e] at h
      simp only [List.map_nil, List.intercalate_nil, List.nil_append, List.cons.injEq] at h
      exact absurd (h.1 ▸ hc) close_not_digit
  | cons x l ih =>
    cases l' with
    | nil =>
      obtain ⟨c, R, hc, e⟩ := first x l (']' :: X)
      rw [List.map_cons, e] at h
      simp only [List.map_nil, List.intercalate_nil, List.nil_append, List.cons.injEq] at h
      exact absurd (h.1 ▸ hc) close_not_digit
    | cons y l' =>
      cases l with
      | nil =>
        cases l' with
        | nil =>
          simp only [List.map_cons, List.map_nil, one] at h
          obtain ⟨e1, -, e2⟩ := digits_end (natStr_digits x) (natStr_digits y) close_not_digit close_not_digit h
          exact ⟨by rw [printed_inj e1], e2⟩
        | cons z l' =>
          simp only [List.map_cons, List.map_nil, one, more, List.append_assoc, List.cons_append] at h
          obtain ⟨-, e, -⟩ := digits_end (natStr_digits x) (natStr_digits y) close_not_digit comma_not_digit h
          exact absurd e (by decide)
      | cons w l =>
        cases l' with
        | nil =>
          simp only [List.map_cons, List.map_nil, one, more, List.append_assoc, List.cons_append] at h
          obtain ⟨-, e, -⟩ := digits_end (natStr_digits x) (natStr_digits y) comma_not_digit close_not_digit h
          exact absurd e (by decide)
        | cons z l' =>
          simp only [List.map_cons, more, List.append_assoc, List.cons_append] at h
          obtain ⟨e1, -, e2⟩ := digits_end (natStr_digits x) (natStr_digits y) comma_not_digit comma_not_digit h
          obtain ⟨e3, e4⟩ := ih (z :: l') (by simpa using e2)
          exact ⟨by rw [printed_inj e1, e3], e4⟩

/-- C82: the text tells the rows: two vertical lists with the same selectors and the same text have the same rows and the same text of the
quality value. -/
theorem C82_rows (s : List Str) (q q' : Str) (pos neg pos' neg' : List Nat) (h : vlistLine s pos neg q = vlistLine s pos' neg' q') :
    pos = pos' ∧ neg = neg' ∧ q = q' := by
  have a1 : (c!"[" : Str) = ['['] := rfl
  unfold vlistLine bracket at h
  simp only [List.append_assoc, List.append_cancel_left_eq] at h
  obtain ⟨e1, e2⟩ := rows_inj pos pos' _ _ (by simpa using h)
  obtain ⟨e3, e4⟩ := rows_inj neg neg' _ _ (by simpa using e2)
  exact ⟨e1, e3, by simpa using e4⟩

/-! ## examples -/
namespace PrintingDemo

/-- addresses -/
def ident (r : Nat) : Str := c!"0x" ++ natStr r

example : (LinkedDemo.tree.bind (fun h => h.treeStr ident natStr)) = some (c!"{id: 0x0, selector: 0, counters: [-1, -1], node_link_id: None}\n" ++
    c!"|--- {id: 0x1, selector: 1, counters: [2, 1], node_link_id: None}\n" ++
    c!"    |--- {id: 0x2, selector: 2, counters: [1, 0], node_link_id: 0x4}\n" ++
    c!"    |--- {id: 0x3, selector: 3, counters: [1, 1], node_link_id: None}\n" ++
    c!"|--- {id: 0x4, selector: 2, counters: [0, 1], node_link_id: None}\n") := by decide +kernel

example : (LinkedDemo.tree.bind (fun h => h.headerStr ident natStr true)) = some (
    c!"{selector: 1, summations: [2, 1]} -> {id: 0x1, selector: 1, counters: [2, 1], node_link_id: None} -> None\n" ++
    c!"{selector: 2, summations: [1, 1]} -> {id: 0x2, selector: 2, counters: [1, 0], node_link_id: 0x4} -> {id: 0x4, selector: 2, counters: [0, 1], node_link_id: None} -> None\n" ++
    c!"{selector: 3, summations: [1, 1]} -> {id: 0x3, selector: 3, counters: [1, 1], node_link_id: None} -> None\n") := by decide +kernel

/-- a program: the join of two vertical lists -/
def prog : JExpr Nat := .join (.new [7] [4, 2, 12] [1] 20 0) (.new [8] [12, 2, 3] [] 20 0)

example : JExpr.Valid prog := by simp [prog, JExpr.Valid]

example : (prog.eval VListSet.new (VListSet.join (fun _ => .ok 1) [] false)).map (Option.map (VListSet.str natStr (fun _ => c!"q"))) =
    .ok (some c!"List of selectors: [7, 8], Sequence of instances (tp): [2, 12], Sequence of instances (fp): [], Quality value: q") := by decide +kernel

example : (prog.eval VListBits.new (VListBits.join (fun _ => .ok 1) [] false)).map (Option.map (VListBits.str natStr (fun _ => c!"q"))) =
    .ok (some c!"List of selectors: [7, 8], Sequence of instances (tp): [2, 12], Sequence of instances (fp): [], Quality value: q") := by decide +kernel

end PrintingDemo
end Verif
