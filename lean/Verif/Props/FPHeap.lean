import Verif.Lemmas.FPHeap
import Verif.Lemmas.SDMapStar
import Verif.Props.SDMap
/-! Property C80: the node objects of an FP-tree (children, parents, node links, header table). -/
set_option linter.unusedSectionVars false
namespace Verif
open Spec FPHeap

/-! ## specification -/
namespace Spec
variable {σ κ : Type} [DecidableEq σ] [DecidableEq κ]

/-- following the node links from a reference gives these nodes, and then `None` -/
inductive Chain (h : HTree σ) : Option Nat → List Nat → Prop
  | stop : Chain h none []
  | go {r n rs} : h.heap[r]? = some n → Chain h n.link rs → Chain h (some r) (r :: rs)

/-- going up from a node through the parents leads to the root, reading this path (from the root down) -/
inductive PathTo (h : HTree σ) : Nat → List σ → Prop
  | root : PathTo h 0 []
  | up {r n q p} : r ≠ 0 → h.heap[r]? = some n → n.parent = some q → PathTo h q p → PathTo h r (p ++ [n.sel])

/-- the trees that a client can have: `FPTreeForSDMap()`, `build_tree` with any dictionary and rows, and the conditional trees of a
tree (with or without the pruning of SDMapStar), for any thresholds and selectors -/
inductive ClientTree (root : σ) (key : σ → κ) : HTree σ → Prop
  | new : ClientTree root key (HTree.new root)
  | build {d rows h} : HTree.buildTree root key d rows = some h → ClientTree root key h
  | cond {th h s h'} : ClientTree root key h → HTree.condTree root key th h s = some h' → ClientTree root key h'

/-- the same for the trees of SDMapStar -/
inductive StarTree : HTree Selector → Prop
  | client {h} : ClientTree rootSelector Selector.dictKey h → StarTree h
  | cond {h h'} {cfg : SDMapStarConfig} {TP FP : Nat} {bound : Rat} {a : Selector} {k : Nat} :
      StarTree h → cfg.condTreeStarHeap TP FP bound h a = .ok (some (h', k)) → StarTree h'

/-- what is right about the references of a tree -/
structure Linked (h : HTree σ) : Prop where
  /-- one entry of the header table per selector -/
  entries : (h.header.map (·.1)).Nodup
  /-- the node links from the first node of an entry visit, in order of creation, exactly the nodes with its selector, each once, and end
  at the last node of the entry; the summations are the sums of the counters of these nodes -/
  links : ∀ s c f l, (s, (c, f, l)) ∈ h.header → ∃ rs, Chain h (some f) rs ∧ rs.Pairwise (· < ·) ∧ rs.getLast? = some l ∧
    (∀ r, r ∈ rs ↔ r ≠ 0 ∧ ∃ n, h.heap[r]? = some n ∧ n.sel = s) ∧ c = (rs.map (fun r => ((h.heap[r]?).map (·.cnt)).getD 0)).sum
  /-- every node but the root is in a horizontal list -/
  listed : ∀ r n, r ≠ 0 → h.heap[r]? = some n → n.sel ∈ h.header.map (·.1)
  /-- every node is below the root, and no two nodes have the same path -/
  paths : ∀ r, r < h.heap.length → ∃ p, PathTo h r p
  distinct : ∀ r r' p, PathTo h r p → PathTo h r' p → r = r'
  /-- children and parents: a node is in the dictionary of exactly its parent, under its selector -/
  childs : ∀ (r : Nat) n, h.heap[r]? = some n → (n.childs.map (·.1)).Nodup ∧
    ∀ s (c : Nat), (s, c) ∈ n.childs ↔ c ≠ 0 ∧ ∃ m, h.heap[c]? = some m ∧ m.sel = s ∧ m.parent = some r

end Spec

/-! ## proofs -/
section
variable {σ κ : Type} [DecidableEq σ] [DecidableEq κ]

/-- a tree by paths that a tree with references represents, with its invariants -/
structure Shadow (root : σ) (h : HTree σ) (t : FPTree σ) : Prop where
  rep : Represents root h t
  wf : Wf t
  holds : ∃ D : FPTree.DB σ, FPTree.Holds t D
  sorted : t.sorted = t.sortHeader.sorted

theorem empty_holds : FPTree.Holds (FPTree.empty : FPTree σ) [] := ⟨rfl, rfl⟩

theorem condOf_holds (key : σ → κ) (th : Thresholds) (base : List (List σ × Cnt)) : ∃ D : FPTree.DB σ, FPTree.Holds (FPTree.condOf key th base) D := by
  unfold FPTree.condOf
  simp only
  generalize ((base.foldl (fun st b => b.1.reverse.foldl (fun st s => FPTree.addToDict key st s b.2) st) (([], 0) : FreqDict σ κ × Int)).1) = all
  refine ⟨(base.filter (fun b => b.1 ≠ [])).map (fun b => (FPTree.sortRow key (all.filter (fun e => th.ok e.2.2.1))
    (FPTree.validSelectors (all.filter (fun e => th.ok e.2.2.1)) (b.1.map key)), b.2)), ?_⟩
  apply FPTree.holds_sortHeader
  have := FPTree.holds_fold ((base.filter (fun b => b.1 ≠ [])).map (fun b => (FPTree.sortRow key (all.filter (fun e => th.ok e.2.2.1))
    (FPTree.validSelectors (all.filter (fun e => th.ok e.2.2.1)) (b.1.map key)), b.2)))
  rw [List.foldl_map] at this
  exact this

theorem build_holds_db (key : σ → κ) (d : FreqDict σ κ) (rows : List (List κ × Bool)) : ∃ D : FPTree.DB σ, FPTree.Holds (FPTree.buildTree key d rows) D := by
  unfold FPTree.buildTree
  simp only [FPTree.insertTree_eq]
  refine ⟨rows.map (fun r => (FPTree.sortRow key d (FPTree.validSelectors d r.1), (if r.2 then 1 else 0, if r.2 then 0 else 1))), ?_⟩
  apply FPTree.holds_sortHeader
  have := FPTree.holds_fold (rows.map (fun r => (FPTree.sortRow key d (FPTree.validSelectors d r.1), (if r.2 then 1 else 0, if r.2 then 0 else 1))))
  rw [List.foldl_map] at this
  exact this

theorem cond_shadow {root : σ} {key : σ → κ} {th : Thresholds} {h h' : HTree σ} {t : FPTree σ} {s : σ} (hs : Shadow root h t)
    (hc : HTree.condTree root key th h s = some h') : ∃ t', Shadow root h' t' := by
  obtain ⟨h1, e, r, w⟩ := condTree_repr (key := key) (th := th) hs.rep hs.wf s
  rw [hc] at e
  cases e
  refine ⟨_, r, w, ?_, condTree_sorted key th t s⟩
  unfold FPTree.condTree
  split
  · exact condOf_holds key th _
  · exact ⟨[], empty_holds⟩

theorem client_shadow {root : σ} {key : σ → κ} {h : HTree σ} (hc : ClientTree root key h) : ∃ t, Shadow root h t := by
  induction hc with
  | new => exact ⟨_, new_repr root, new_wf, ⟨[], empty_holds⟩, rfl⟩
  | @build d rows h e =>
    obtain ⟨h1, e1, r, w⟩ := buildTree_repr root key d rows
    rw [e] at e1
    cases e1
    exact ⟨_, r, w, build_holds_db key d rows, rfl⟩
  | cond _ e ih =>
    obtain ⟨t, ht⟩ := ih
    exact cond_shadow ht e

theorem star_shadow {h : HTree Selector} (hc : StarTree h) : ∃ t, Shadow rootSelector h t := by
  induction hc with
  | client h => exact client_shadow h
  | @cond h h' cfg TP FP bound a k _ e ih =>
    obtain ⟨t, ht⟩ := ih
    obtain ⟨c1, c2⟩ := condTreeStar_eq (cfg := cfg) (TP := TP) (FP := FP) (bound := bound) ht.rep ht.wf a
    cases hct : cfg.condTreeStar TP FP bound t a with
    | error er => rw [c1 er hct] at e; cases e
    | ok c =>
      obtain ⟨h1, e1, r, w, s⟩ := c2 c hct
      rw [e1] at e
      cases e
      refine ⟨_, r, w, ?_, s⟩
      unfold SDMapStarConfig.condTreeStar at hct
      split at hct
      · cases hp : cfg.pruneBase TP FP bound (t.horizontal a) with
        | error e => rw [hp] at hct; cases hct
        | ok b =>
          rw [hp] at hct
          cases hct
          exact condOf_holds Selector.dictKey cfg.th _
      · cases hct
        exact ⟨[], empty_holds⟩

theorem chain_of {root : σ} {h : HTree σ} {t : FPTree σ} (hr : Represents root h t) (s : σ) (post pre : List Nat)
    (hp : refsOf (allPaths t) s = pre ++ post) : Chain h post.head? post := by
  induction post generalizing pre with
  | nil => exact .stop
  | cons i post ih =>
    obtain ⟨q, hq⟩ := mem_refsOf.1 (show i ∈ refsOf (allPaths t) s by rw [hp]; simp)
    obtain ⟨c, -, hn⟩ := node_of_path hr hq
    have hlink : (nodeAt root (allPaths t) i (q ++ [s], c)).link = post.head? := by
      simp only [nodeAt, nextRef, List.getLast?_append, List.getLast?_singleton, Option.some_or]
      exact find_next (refsOf_sorted _ s) hp
    exact .go hn (by rw [hlink]; exact ih (pre ++ [i]) (by rw [hp]; simp))

theorem pathTo_of {root : σ} {h : HTree σ} {t : FPTree σ} (hr : Represents root h t) (hw : Wf t) (p : List σ) (r : Nat)
    (hp : (allPaths t)[r]? = some p) : PathTo h r p := by
  induction p using List.reverseRecOn generalizing r with
  | nil =>
    have h0 : r = 0 := (List.getElem?_inj (List.getElem?_eq_some_iff.1 hp).1 hw.nodup).1 (hp.trans (root_path t).symm)
    rw [h0]
    exact .root
  | append_singleton q s ih =>
    obtain ⟨c, -, hn⟩ := node_of_path hr hp
    obtain ⟨j, hj, hpj⟩ := nodeAt_parent (root := root) (c := c) hw hp
    have h0 : r ≠ 0 := by
      rintro rfl
      rw [root_path] at hp
      have := Option.some.inj hp
      simp at this
    have := PathTo.up h0 hn hj (ih j hpj)
    simpa [nodeAt] using this

theorem path_of {root : σ} {h : HTree σ} {t : FPTree σ} (hr : Represents root h t) (hw : Wf t) {p : List σ} {r : Nat}
    (hp : PathTo h r p) : (allPaths t)[r]? = some p := by
  induction hp with
  | root => exact root_path t
  | @up r n q p h0 hn hpar hq ih =>
    have hlt : r < (allPaths t).length := by rw [← heap_length hr]; exact (List.getElem?_eq_some_iff.1 hn).1
    obtain ⟨p', hp'⟩ : ∃ p', (allPaths t)[r]? = some p' := ⟨_, List.getElem?_eq_getElem hlt⟩
    rcases List.eq_nil_or_concat' p' with rfl | ⟨q', s, rfl⟩
    · exact absurd ((List.getElem?_inj hlt hw.nodup).1 (hp'.trans (root_path t).symm)) h0
    · obtain ⟨c, -, hn'⟩ := node_of_path hr hp'
      rw [hn] at hn'
      obtain ⟨j, hj, hpj⟩ := nodeAt_parent (root := root) (c := c) hw hp'
      rw [← Option.some.inj hn', hpar] at hj
      rw [← Option.some.inj hj, ih] at hpj
      rw [hp', Option.some.inj hn', ← Option.some.inj hpj]
      simp [nodeAt]

section
open Classical
theorem sums_prefixes (s : σ) (c : Cnt) (p l : List σ) :
    wsum ((FPTree.prefixes p l).map (fun q => (q, c))) (fun q => q.getLast? = some s) = wsum (l.map (fun q => (q, c))) (· = s) := by
  induction l generalizing p with
  | nil => rfl
  | cons a l ih =>
    simp only [FPTree.prefixes, List.map_cons, wsum_cons, ih, List.getLast?_append, List.getLast?_singleton, Option.some_or, Option.some.injEq]

theorem sums_eq (D : FPTree.DB σ) (s : σ) : wsum (FPTree.nodeItems D) (fun q => q.getLast? = some s) = wsum (FPTree.headItems D) (· = s) := by
  unfold FPTree.nodeItems FPTree.headItems
  rw [wsum_flatMap, wsum_flatMap]
  congr 1
  apply List.map_congr_left
  intro e _
  exact sums_prefixes s e.2 [] e.1

theorem wsum_horizontal_snd (t : FPTree σ) (s : σ) : wsum t.nodes (fun q => q.getLast? = some s) = ((t.horizontal s).map (·.2)).sum := by
  unfold FPTree.horizontal
  induction t.nodes with
  | nil => rfl
  | cons e l ih =>
    rw [wsum_cons, ih, List.filterMap_cons]
    by_cases h : e.1.getLast? = some s
    · rw [if_pos h]; simp [h]
    · rw [if_neg h]; simp [h]

theorem holds_sums {t : FPTree σ} {D : FPTree.DB σ} (hh : FPTree.Holds t D) {s : σ} {c : Cnt} (hc : t.header.lookup s = some c) :
    c = ((t.horizontal s).map (·.2)).sum := by
  rw [← wsum_horizontal_snd, hh.nodes, wsum_accum, sums_eq]
  rw [hh.header, lookup_accum] at hc
  split at hc
  · exact (Option.some.inj hc).symm
  · cases hc
end

theorem refs_cnt {root : σ} {h : HTree σ} {t : FPTree σ} (hr : Represents root h t) (rs : List Nat) (hrs : ∀ r ∈ rs, r < (allPaths t).length) :
    rs.map (fun r => ((h.heap[r]?).map (·.cnt)).getD 0) =
      (rs.filterMap (fun i => ((([], (0, 0)) :: t.nodes)[i]?).map (fun x => (x.1.dropLast, x.2)))).map (·.2) := by
  induction rs with
  | nil => rfl
  | cons r rs ih =>
    have hlt := hrs r (by simp)
    obtain ⟨p, hp⟩ : ∃ p', (allPaths t)[r]? = some p' := ⟨_, List.getElem?_eq_getElem hlt⟩
    obtain ⟨c, hQ, hn⟩ := node_of_path hr hp
    rw [List.map_cons, ih (fun r' h' => hrs r' (by simp [h'])), List.filterMap_cons, hQ, hn]
    simp [nodeAt]

theorem linked_of {root : σ} {h : HTree σ} {t : FPTree σ} (hs : Shadow root h t) : Linked h := by
  obtain ⟨hr, hw, ⟨D, hD⟩, -⟩ := hs
  have hhk := order_header root h t hr
  have hlen := heap_length hr
  have hsel : ∀ (r : Nat) n, h.heap[r]? = some n → r ≠ 0 → ∃ q c, (allPaths t)[r]? = some (q ++ [n.sel]) ∧ n = nodeAt root (allPaths t) r (q ++ [n.sel], c) := by
    intro r n hn h0
    have hlt : r < (allPaths t).length := by rw [← hlen]; exact (List.getElem?_eq_some_iff.1 hn).1
    obtain ⟨p', hp'⟩ : ∃ p', (allPaths t)[r]? = some p' := ⟨_, List.getElem?_eq_getElem hlt⟩
    rcases List.eq_nil_or_concat' p' with rfl | ⟨q', s, rfl⟩
    · exact absurd ((List.getElem?_inj hlt hw.nodup).1 (hp'.trans (root_path t).symm)) h0
    · obtain ⟨c, -, hn'⟩ := node_of_path hr hp'
      rw [hn] at hn'
      have he := Option.some.inj hn'
      have hse : n.sel = s := by rw [he]; simp [nodeAt]
      exact ⟨q', c, by rw [hse]; exact hp', by rw [hse]; exact he⟩
  refine ⟨by rw [hhk]; exact hw.keysNodup, ?_, ?_, ?_, ?_, ?_⟩
  · intro s c f l hm
    have hmk : s ∈ t.header.map (·.1) := by rw [← hhk]; exact List.mem_map.2 ⟨_, hm, rfl⟩
    have hlk := lookup_of_mem_nodup (by rw [hhk]; exact hw.keysNodup) hm
    rcases header_entry hr hw s with ⟨h1, -⟩ | ⟨c', h1, h2, -, h4⟩
    · rw [h1] at hlk; cases hlk
    · rw [h1] at hlk
      have he := Option.some.inj hlk
      have hc : c' = c := congrArg (·.1) he
      have hf : (refsOf (allPaths t) s).headD 0 = f := congrArg (·.2.1) he
      have hl : (refsOf (allPaths t) s).getLastD 0 = l := congrArg (·.2.2) he
      have hne : refsOf (allPaths t) s ≠ [] := by
        intro e; rw [e] at h4; cases h4
      refine ⟨refsOf (allPaths t) s, ?_, refsOf_sorted _ _, ?_, ?_, ?_⟩
      · have := chain_of hr s (refsOf (allPaths t) s) [] rfl
        rw [h4, hf] at this
        exact this
      · rw [← hl, List.getLastD_eq_getLast?]
        cases hg : (refsOf (allPaths t) s).getLast? with
        | none => exact absurd (List.getLast?_eq_none_iff.1 hg) hne
        | some z => rfl
      · intro r
        rw [mem_refsOf]
        constructor
        · rintro ⟨q, hq⟩
          obtain ⟨c'', -, hn⟩ := node_of_path hr hq
          refine ⟨?_, _, hn, by simp [nodeAt]⟩
          rintro rfl
          rw [root_path] at hq
          have := Option.some.inj hq
          simp at this
        · rintro ⟨h0, n, hn, rfl⟩
          obtain ⟨q, c'', hq, -⟩ := hsel r n hn h0
          exact ⟨q, hq⟩
      · rw [refs_cnt hr _ (fun r hrr => by
          obtain ⟨q, hq⟩ := mem_refsOf.1 hrr
          exact (List.getElem?_eq_some_iff.1 hq).1), ← horizontal_eq, ← hc]
        exact holds_sums hD h2
  · intro r n h0 hn
    obtain ⟨q, c, hq, -⟩ := hsel r n hn h0
    rw [hhk]
    exact (hw.keys n.sel).1 ⟨q, List.mem_of_getElem? hq⟩
  · intro r hlt
    rw [hlen] at hlt
    exact ⟨_, pathTo_of hr hw _ r (List.getElem?_eq_getElem hlt)⟩
  · intro r r' p h1 h2
    have e1 := path_of hr hw h1
    have e2 := path_of hr hw h2
    exact (List.getElem?_inj (List.getElem?_eq_some_iff.1 e1).1 hw.nodup).1 (e1.trans e2.symm)
  · intro r n hn
    have hlt : r < (allPaths t).length := by rw [← hlen]; exact (List.getElem?_eq_some_iff.1 hn).1
    obtain ⟨p, hp⟩ : ∃ p', (allPaths t)[r]? = some p' := ⟨_, List.getElem?_eq_getElem hlt⟩
    obtain ⟨c0, -, hn'⟩ := node_of_path hr hp
    rw [hn] at hn'
    have hch : n.childs = childRefs (allPaths t) p := by rw [Option.some.inj hn']; rfl
    rw [hch]
    refine ⟨childRefs_nodup hw.nodup p, ?_⟩
    intro s c
    rw [mem_childRefs]
    constructor
    · intro hc
      obtain ⟨c1, -, hn1⟩ := node_of_path hr hc
      obtain ⟨j, hj, hpj⟩ := nodeAt_parent (root := root) (c := c1) hw hc
      refine ⟨?_, _, hn1, by simp [nodeAt], ?_⟩
      · rintro rfl
        rw [root_path] at hc
        have := Option.some.inj hc
        simp at this
      · rw [hj, (List.getElem?_inj (List.getElem?_eq_some_iff.1 hpj).1 hw.nodup).1 (hpj.trans hp.symm)]
    · rintro ⟨h0, m, hm, rfl, hpar⟩
      obtain ⟨q, c1, hq, he⟩ := hsel c m hm h0
      obtain ⟨j, hj, hpj⟩ := nodeAt_parent (root := root) (c := c1) hw hq
      rw [← he, hpar] at hj
      rw [← Option.some.inj hj, hp] at hpj
      rw [hq, Option.some.inj hpj]

/-! ## C80 -/

/-- C80: building a tree and conditioning it never goes wrong, with any dictionary, rows, thresholds, selectors, and key function. -/
theorem C80_never_wrong (root : σ) (key : σ → κ) :
    (∀ d rows, (HTree.buildTree root key d rows).isSome) ∧
    (∀ h, ClientTree root key h → ∀ th s, (HTree.condTree root key th h s).isSome) := by
  refine ⟨fun d rows => ?_, fun h hc th s => ?_⟩
  · obtain ⟨h, e, -⟩ := buildTree_repr root key d rows
    rw [e]; rfl
  · obtain ⟨t, ht⟩ := client_shadow hc
    obtain ⟨h', e, -⟩ := condTree_repr (key := key) (th := th) ht.rep ht.wf s
    rw [e]; rfl

/-- C80: in every tree that a client can have, children, parents, node links and header table agree. -/
theorem C80_linked (root : σ) (key : σ → κ) (h : HTree σ) (hc : ClientTree root key h) : Linked h := by
  obtain ⟨t, ht⟩ := client_shadow hc
  exact linked_of ht

end

/-- C80: the same for the pruned conditional trees of SDMapStar, which never go wrong either. -/
theorem C80_star (h : HTree Selector) (hc : StarTree h) :
    Linked h ∧ ∀ (cfg : SDMapStarConfig) (TP FP : Nat) (bound : Rat) (a : Selector), cfg.condTreeStarHeap TP FP bound h a ≠ .ok none := by
  obtain ⟨t, ht⟩ := star_shadow hc
  refine ⟨linked_of ht, fun cfg TP FP bound a => ?_⟩
  obtain ⟨c1, c2⟩ := condTreeStar_eq (cfg := cfg) (TP := TP) (FP := FP) (bound := bound) ht.rep ht.wf a
  cases hct : cfg.condTreeStar TP FP bound t a with
  | error er => rw [c1 er hct]; simp
  | ok c =>
    obtain ⟨h1, e1, -⟩ := c2 c hct
    rw [e1]; simp

/-- C80: `SDMap.fit` with the node objects does what the model by paths does (so all properties of SDMap hold for it). -/
theorem C80_sdmap_fit (cfg : SDMapConfig) (st : SDMapState) (df : Frame) (target : Str × Str) :
    cfg.fitHeap st df target = (cfg.fit st df target).map some := fitHeap_eq cfg st df target

/-- C80: the same for `SDMapStar.fit`. -/
theorem C80_sdmapstar_fit (cfg : SDMapStarConfig) (st : StarState) (df : Frame) (target : Str × Str) :
    cfg.fitHeap st df target = (cfg.fit st df target).map some := by
  unfold SDMapStarConfig.fitHeap SDMapStarConfig.fit
  by_cases hn : cfg.num = 0
  · rw [if_pos hn, if_pos hn]
    rw [heapResults_eq (order := fun t => t.header.map (·.1)) (order_header rootSelector) (fun t _ a ha => ha)]
    cases nominalResults (fun t => t.header.map (·.1)) cfg.th df target with
    | error e => rfl
    | ok x =>
      obtain ⟨rs, TP, FP⟩ := x
      cases rs with
      | none => rfl
      | some rs =>
        simp only [Except.map]
        cases (rs.map (fun r => (Pattern.new r.1, r.2))).foldlM (cfg.toSDMapConfig.handle target TP FP) { st.base with file := [] } <;> rfl
  · rw [if_neg hn, if_neg hn]
    cases df.nominal with
    | false => rfl
    | true =>
      simp only [Bool.not_true, Bool.false_eq_true, if_false]
      cases targetMask df target with
      | error e => rfl
      | ok mask =>
        simp only
        obtain ⟨h, e, r, w⟩ := buildTree_repr rootSelector Selector.dictKey (frequentSelectors cfg.th df target.1 mask) (keyRows df target.1 mask)
        rw [e]
        simp only
        rw [childs_length r]
        cases he : (FPTree.buildTree Selector.dictKey (frequentSelectors cfg.th df target.1 mask) (keyRows df target.1 mask)).isEmpty with
        | true => rfl
        | false =>
          simp only [Bool.false_eq_true, if_false]
          rw [fpgrowthStarHeap_eq _ _ h _ r w rfl [] (fun t _ l hl a ha => (SDMapStarConfig.oeOrder_perm hl).mem_iff.1 ha), heap_length r]
          simp [allPaths]

/-! ## a tree -/
namespace LinkedDemo

/-- keys = the selectors themselves; the second component is the insertion order -/
def dict : FreqDict Nat Nat := [(1, (1, (2, 1), 0)), (2, (2, (1, 1), 1)), (3, (3, (2, 0), 2))]

def tree : Option (HTree Nat) := HTree.buildTree 0 id dict [([1, 2], true), ([3, 1], true), ([2], false), ([1, 3], false), ([], true)]

example : tree = some ⟨[⟨0, (0, 0), [(1, 1), (2, 4)], none, none⟩, ⟨1, (2, 1), [(2, 2), (3, 3)], some 0, none⟩, ⟨2, (1, 0), [], some 1, some 4⟩,
    ⟨3, (1, 1), [], some 1, none⟩, ⟨2, (0, 1), [], some 0, none⟩],
    [(1, ((2, 1), 1, 1)), (2, ((1, 1), 2, 4)), (3, ((1, 1), 3, 3))], [2, 3, 1]⟩ := by decide +kernel

example : ∃ h, tree = some h ∧ ClientTree 0 (id : Nat → Nat) h ∧ Linked h := by
  have hs : tree.isSome := by decide +kernel
  obtain ⟨h, hh⟩ := Option.isSome_iff_exists.1 hs
  exact ⟨h, hh, .build hh, C80_linked 0 id h (.build hh)⟩

/-- the horizontal list of the selector 2 has two nodes, in different branches -/
example : ∃ h, tree = some h ∧ Chain h (some 2) [2, 4] := by
  refine ⟨_, rfl, ?_⟩
  exact .go (n := ⟨2, (1, 0), [], some 1, some 4⟩) (by decide +kernel) (.go (n := ⟨2, (0, 1), [], some 0, none⟩) (by decide +kernel) .stop)

/-- the conditional tree of the selector 3 -/
example : (tree.bind (fun h => HTree.condTree 0 id (.n 1) h 3)).map (·.heap.length) = some 2 := by decide +kernel

end LinkedDemo
end Verif
