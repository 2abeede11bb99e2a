import Verif.Lemmas.SDMap
import Verif.Props.SDMap
/-! Properties C18 and C19: the FP-tree and its conditional trees hold exact counters. -/
namespace Verif
open Spec FPTree
section
open Classical

/-! ## specification -/

/-- a selector `attribute = 'text'` on a non-target column that occurs in the data and meets the thresholds -/
def Spec.FrequentSel (th : Thresholds) (df : Frame) (target : Str × Str) (s : Selector) : Prop :=
  Describes target [s] ∧ OccursIn df [s] ∧ Frequent th (tpOf df target [s]) (fpOf df target [s])

/-- the tree that `generate_set_of_frequent_selectors` and `build_tree` give for a data set -/
def Spec.rootTree (th : Thresholds) (df : Frame) (target : Str × Str) : Except PyErr (FPTree Selector) :=
  match targetMask df target with
  | .ok mask => .ok (FPTree.buildTree Selector.dictKey (frequentSelectors th df target.1 mask) (keyRows df target.1 mask))
  | .error e => .error e

/-- the trees that a run of FP-growth can reach by calls of `generate_conditional_fp_tree`, with the selectors chosen so far -/
inductive Spec.Reaches (th : Thresholds) (root : FPTree Selector) : List Selector → FPTree Selector → Prop
  | root : Reaches th root [] root
  | cond {ctx t a} : Reaches th root ctx t → a ∈ t.header.map (·.1) → Reaches th root (a :: ctx) (t.condTree Selector.dictKey th a)

/-! ## C18 -/

theorem describes_single {target : Str × Str} {s : Selector} :
    Describes target [s] ↔ (s.attr ≠ target.1 ∧ s.op = .equal ∧ ∃ v, s.val = .str v) := by
  simp [Describes]

theorem rootTree_ok {th : Thresholds} {df : Frame} {target : Str × Str} (hf : NominalFrame df target) (hk : KeysFaithful df target) :
    ∃ mask, mask.length = df.nrows ∧ (∀ i, mask[i]? = some true ↔ MatchesAt df (targetSel target) i) ∧
      rootTree th df target = .ok (FPTree.buildTree Selector.dictKey (frequentSelectors th df target.1 mask) (keyRows df target.1 mask)) ∧
      Good (InData df target) th (rel Selector.dictKey (frequentSelectors th df target.1 mask))
        (FPTree.buildTree Selector.dictKey (frequentSelectors th df target.1 mask) (keyRows df target.1 mask)) (rootDB th df target.1 mask) := by
  obtain ⟨mask, h1, hl, hm⟩ := targetMask_ok hf
  refine ⟨mask, hl, hm, ?_, root_good hf hk th hl hm⟩
  unfold rootTree; rw [h1]

theorem frequentSel_iff {th : Thresholds} {df : Frame} {target : Str × Str} (hf : NominalFrame df target) (hk : KeysFaithful df target)
    {mask : List Bool} (hl : mask.length = df.nrows) (hm : ∀ i, mask[i]? = some true ↔ MatchesAt df (targetSel target) i) (s : Selector) :
    s ∈ (frequentSelectors th df target.1 mask).map (·.2.1) ↔ FrequentSel th df target s := by
  rw [mem_rootDict_iff hf hk th hl hm, ok_iff_frequent]
  unfold FrequentSel
  rw [describes_single]

theorem mem_rootDB_iff {th : Thresholds} {df : Frame} {target : Str × Str} (hf : NominalFrame df target) (hk : KeysFaithful df target)
    {mask : List Bool} (hl : mask.length = df.nrows) (hm : ∀ i, mask[i]? = some true ↔ MatchesAt df (targetSel target) i)
    {X : List Selector} (hX : X ≠ []) : (∃ r ∈ rootDB th df target.1 mask, ∀ x ∈ X, x ∈ r.1) ↔
      (∀ x ∈ X, FrequentSel th df target x) ∧ OccursIn df X := by
  constructor
  · rintro ⟨r, hr, hx⟩
    obtain ⟨i, hi, rfl⟩ := List.mem_map.1 hr
    have h1 : ∀ x ∈ X, FrequentSel th df target x := fun x hxx => (frequentSel_iff hf hk hl hm x).1 ((mem_rootRow hf hk th mask i x).1 (hx x hxx)).2
    refine ⟨h1, i, List.mem_range.1 hi, ?_⟩
    intro x hxx
    obtain ⟨a, b, c⟩ := describes_single.1 (h1 x hxx).1
    rw [← mem_rowSels_iff hf a b c]
    exact ((mem_rootRow hf hk th mask i x).1 (hx x hxx)).1
  · rintro ⟨h1, i, hi, hc⟩
    refine ⟨_, List.mem_map.2 ⟨i, List.mem_range.2 hi, rfl⟩, ?_⟩
    intro x hx
    obtain ⟨a, b, c⟩ := describes_single.1 (h1 x hx).1
    rw [mem_rootRow hf hk, mem_rowSels_iff hf a b c]
    exact ⟨hc x hx, (frequentSel_iff hf hk hl hm x).2 (h1 x hx)⟩

/-- C18: the header table holds exactly the frequent selectors, each with its counts in the data. -/
theorem C18_header (th : Thresholds) (df : Frame) (target : Str × Str) (hf : NominalFrame df target) (hk : KeysFaithful df target) :
    ∃ t, rootTree th df target = .ok t ∧ (t.header.map (·.1)).Nodup ∧ t.sorted.Perm (t.header.map (·.1)) ∧
      ∀ s c, (s, c) ∈ t.header ↔ FrequentSel th df target s ∧ c = (tpOf df target [s], fpOf df target [s]) := by
  obtain ⟨mask, hl, hm, ht, g⟩ := rootTree_ok (th := th) hf hk
  refine ⟨_, ht, nodup_header g.holds, sorted_perm g.sorted, ?_⟩
  intro s c
  have hmem := mem_header g.holds s
  have hiff := mem_rootDB_iff (th := th) hf hk hl hm (X := [s]) (by simp)
  simp only [List.mem_singleton, forall_eq] at hiff
  rw [hiff] at hmem
  have hcnt : FrequentSel th df target s → wsum (rootDB th df target.1 mask) (fun l => s ∈ l) = (tpOf df target [s], fpOf df target [s]) := by
    intro hs
    rw [← supp_rootDB hf hk th hm [s] (by simpa using (frequentSel_iff hf hk hl hm s).2 hs)]
    apply wsum_congr; intro e _; simp
  constructor
  · intro h
    have hs := (hmem.1 (List.mem_map_of_mem (f := fun e : Selector × Cnt => e.1) h)).1
    refine ⟨hs, ?_⟩
    have h1 := lookup_of_mem_nodup (nodup_header g.holds) h
    rw [header_lookup g.holds g.nodup, if_pos (by rw [← mem_header g.holds]; exact hmem.2 ⟨hs, hs.2.1⟩)] at h1
    rw [← hcnt hs]
    exact (Option.some.inj h1).symm
  · rintro ⟨hs, rfl⟩
    apply mem_of_lookup
    rw [header_lookup g.holds g.nodup, if_pos (by rw [← mem_header g.holds]; exact hmem.2 ⟨hs, hs.2.1⟩), hcnt hs]

/-- C18: the dictionary of `generate_set_of_frequent_selectors` holds exactly the frequent selectors with their counts, with different
insertion orders. -/
theorem C18_frequent_selectors (th : Thresholds) (df : Frame) (target : Str × Str) (hf : NominalFrame df target) (hk : KeysFaithful df target) :
    ∃ mask, targetMask df target = .ok mask ∧
      ((frequentSelectors th df target.1 mask).map (·.1)).Nodup ∧ ((frequentSelectors th df target.1 mask).map (·.2.2.2)).Nodup ∧
      ∀ s c, (∃ e ∈ frequentSelectors th df target.1 mask, e.2.1 = s ∧ e.2.2.1 = c) ↔
        FrequentSel th df target s ∧ c = (tpOf df target [s], fpOf df target [s]) := by
  obtain ⟨mask, h1, hl, hm⟩ := targetMask_ok hf
  refine ⟨mask, h1, (rootDict_ok hf hk th mask).1.keys_nodup (injOn_dictKey hk), (rootDict_ok hf hk th mask).1.ord, ?_⟩
  intro s c
  have hproj : (∃ e ∈ frequentSelectors th df target.1 mask, e.2.1 = s ∧ e.2.2.1 = c) ↔ (s, c) ∈ rootItems th df target.1 mask := by
    rw [← (rootDict_ok hf hk th mask).2]
    simp only [proj, List.mem_map, Prod.mk.injEq]
  rw [hproj]
  simp only [rootItems, List.mem_flatMap, List.mem_map, List.mem_filter, mem_groupKeys, mem_otherCols, Prod.mk.injEq]
  constructor
  · rintro ⟨cl, ⟨a1, a2⟩, v, ⟨a3, a4⟩, a5, a6⟩
    have hs : s ∈ (frequentSelectors th df target.1 mask).map (·.2.1) := by
      rw [mem_rootDict hf hk]
      exact ⟨cl, a1, a2, by rw [← a5], by rw [← a5], by rw [← a5]; exact a3, by rw [← a5]; exact a4⟩
    refine ⟨(frequentSel_iff hf hk hl hm s).1 hs, ?_⟩
    obtain ⟨x, rfl⟩ := hf.texts cl a1 v a3
    rw [← a6, groupCnt_eq hf hl hm a1, a5]
  · rintro ⟨hs, rfl⟩
    have := (frequentSel_iff hf hk hl hm s).2 hs
    rw [mem_rootDict hf hk] at this
    obtain ⟨cl, a1, a2, a3, a4, a5, a6⟩ := this
    refine ⟨cl, ⟨a1, a2⟩, s.val, ⟨a5, a6⟩, by rw [← a3, ← a4], ?_⟩
    obtain ⟨x, hx⟩ := hf.texts cl a1 _ a5
    rw [hx, groupCnt_eq hf hl hm a1, ← a3, ← hx, ← a4]

/-- C18: there is a list of the frequent selectors of each row, all in one order with the more frequent selectors first, such that
the nodes of the tree are the non-empty prefixes of these lists, and each counts exactly the rows whose list starts with its path. -/
theorem C18_nodes (th : Thresholds) (df : Frame) (target : Str × Str) (hf : NominalFrame df target) (hk : KeysFaithful df target) :
    ∃ t, rootTree th df target = .ok t ∧ (t.nodes.map (·.1)).Nodup ∧
      ∃ (rowPath : Nat → List Selector) (R : Selector → Selector → Prop),
        (∀ a b, R a b → ¬ R b a) ∧
        (∀ a b, FrequentSel th df target a → FrequentSel th df target b → R a b →
          tpOf df target [b] + fpOf df target [b] ≤ tpOf df target [a] + fpOf df target [a]) ∧
        (∀ i, (rowPath i).Pairwise R ∧ ∀ s, s ∈ rowPath i ↔ FrequentSel th df target s ∧ MatchesAt df s i) ∧
        ∀ p c, (p, c) ∈ t.nodes ↔ p ≠ [] ∧ (∃ i < df.nrows, p <+: rowPath i) ∧
          c = (((List.range df.nrows).filter (fun i => decide (p <+: rowPath i ∧ MatchesAt df (targetSel target) i))).length,
               ((List.range df.nrows).filter (fun i => decide (p <+: rowPath i ∧ ¬ MatchesAt df (targetSel target) i))).length) := by
  obtain ⟨mask, hl, hm, ht, g⟩ := rootTree_ok (th := th) hf hk
  refine ⟨_, ht, nodup_nodes g.holds, fun i => sortRow Selector.dictKey (frequentSelectors th df target.1 mask)
      (validSelectors (frequentSelectors th df target.1 mask) (rowKeys df target.1 i)), _, g.asymm, ?_, ?_, ?_⟩
  · intro a b ha hb hr
    have hn : ∀ s, FrequentSel th df target s → dictN Selector.dictKey (frequentSelectors th df target.1 mask) s = tpOf df target [s] + fpOf df target [s] := by
      intro s hs
      obtain ⟨e, he, rfl⟩ := List.mem_map.1 ((frequentSel_iff hf hk hl hm s).2 hs)
      have hd := (rootDict_ok hf hk th mask).1
      unfold dictN
      rw [hd.lookup (injOn_dictKey hk) he]
      obtain ⟨mask', h1', _, _, h2⟩ := C18_frequent_selectors th df target hf hk
      obtain ⟨mask'', h1'', hl'', hm''⟩ := targetMask_ok hf
      have hmm : mask' = mask := by
        have : mask' = mask'' := by rw [h1'] at h1''; exact Except.ok.inj h1''
        rw [this]
        apply List.ext_getElem?
        intro i
        by_cases hi : i < df.nrows
        · have e1 := List.getElem?_eq_getElem (l := mask) (by rw [hl]; exact hi)
          have e2 := List.getElem?_eq_getElem (l := mask'') (by rw [hl'']; exact hi)
          have := (hm i).trans (hm'' i).symm
          rw [e1, e2] at this ⊢
          generalize mask[i]'(by rw [hl]; exact hi) = x at *
          generalize mask''[i]'(by rw [hl'']; exact hi) = y at *
          cases x <;> cases y <;> simp_all
        · rw [List.getElem?_eq_none (by omega), List.getElem?_eq_none (by omega)]
      rw [hmm] at h2
      have := ((h2 e.2.1 e.2.2.1).1 ⟨e, he, rfl, rfl⟩).2
      simp only [this]
    rcases hr with hr | ⟨hr, _⟩
    · rw [hn a ha, hn b hb] at hr; omega
    · rw [hn a ha, hn b hb] at hr; omega
  · intro i
    constructor
    · apply sortRow_pairwise (rootDict_ok hf hk th mask).1 (injOn_dictKey hk)
      · intro s hs
        rw [rowKeys_eq, validSelectors_eq (rootDict_ok hf hk th mask).1 (injOn_dictKey hk) inData_rowSels] at hs
        simpa using (List.mem_filter.1 hs).2
      · rw [rowKeys_eq, validSelectors_eq (rootDict_ok hf hk th mask).1 (injOn_dictKey hk) inData_rowSels]
        exact (nodup_rowSels hf i).filter _
    · intro s
      rw [mem_rootRow hf hk, frequentSel_iff hf hk hl hm, and_comm]
      apply and_congr_right
      intro hs
      obtain ⟨a, b, c⟩ := describes_single.1 hs.1
      exact mem_rowSels_iff hf a b c i
  · intro p c
    have hmask : ∀ i, (mask[i]?.getD false) = true ↔ MatchesAt df (targetSel target) i := by
      intro i
      rw [← hm i]
      cases h : mask[i]? <;> simp
    have hex : (∃ r ∈ rootDB th df target.1 mask, p <+: r.1) ↔ ∃ i < df.nrows, p <+: sortRow Selector.dictKey (frequentSelectors th df target.1 mask)
      (validSelectors (frequentSelectors th df target.1 mask) (rowKeys df target.1 i)) := by
      simp only [rootDB, List.mem_map, List.mem_range]
      constructor
      · rintro ⟨r, ⟨i, hi, rfl⟩, h⟩; exact ⟨i, hi, h⟩
      · rintro ⟨i, hi, h⟩; exact ⟨_, ⟨i, hi, rfl⟩, h⟩
    have hw := wsum_range df.nrows (fun i => sortRow Selector.dictKey (frequentSelectors th df target.1 mask)
      (validSelectors (frequentSelectors th df target.1 mask) (rowKeys df target.1 i))) (fun i => mask[i]?.getD false) (fun l => p <+: l)
    have hw' : wsum (rootDB th df target.1 mask) (fun l => p <+: l) = _ := hw
    simp only [hmask] at hw'
    have hlk := node_lookup g.holds p
    rw [hw'] at hlk
    constructor
    · intro h
      have h1 := lookup_of_mem_nodup (nodup_nodes g.holds) h
      rw [hlk] at h1
      by_cases hc : p ≠ [] ∧ ∃ r ∈ rootDB th df target.1 mask, p <+: r.1
      · rw [if_pos hc] at h1
        exact ⟨hc.1, hex.1 hc.2, by rw [← Option.some.inj h1]⟩
      · rw [if_neg hc] at h1; cases h1
    · rintro ⟨h1, h2, h3⟩
      apply mem_of_lookup
      rw [hlk, if_pos ⟨h1, hex.2 h2⟩, h3]

/-- C18: each entry of the header table is the sum of the counters of the nodes of its selector. -/
theorem C18_sums (th : Thresholds) (df : Frame) (target : Str × Str) (hf : NominalFrame df target) (hk : KeysFaithful df target) :
    ∃ t, rootTree th df target = .ok t ∧ ∀ s c, (s, c) ∈ t.header →
      c = (((t.nodes.filter (fun e => decide (e.1.getLast? = some s))).map (·.2.1)).sum,
           ((t.nodes.filter (fun e => decide (e.1.getLast? = some s))).map (·.2.2)).sum) := by
  obtain ⟨mask, hl, hm, ht, g⟩ := rootTree_ok (th := th) hf hk
  refine ⟨_, ht, ?_⟩
  intro s c h
  have h1 := lookup_of_mem_nodup (nodup_header g.holds) h
  rw [header_lookup g.holds g.nodup] at h1
  by_cases hs : ∃ r ∈ rootDB th df target.1 mask, s ∈ r.1
  · rw [if_pos hs] at h1
    rw [← Option.some.inj h1]
    have h2 := wsum_horizontal g.holds g.nodup s (fun _ => True)
    simp only [and_true] at h2
    rw [← h2]
    generalize (buildTree Selector.dictKey (frequentSelectors th df target.1 mask) (keyRows df target.1 mask)) = t
    unfold horizontal
    induction t.nodes with
    | nil => rfl
    | cons e L ih =>
      by_cases he : e.1.getLast? = some s
      · rw [List.filterMap_cons_some (b := (e.1.dropLast, e.2)) (by rw [if_pos he]), wsum_cons, ih,
          List.filter_cons_of_pos (by simpa using he), if_pos trivial]
        rfl
      · rw [List.filterMap_cons_none (by rw [if_neg he]), ih, List.filter_cons_of_neg (by simpa using he)]
  · rw [if_neg hs] at h1; cases h1

/-! ## C19 -/

theorem reaches_inv {th : Thresholds} {df : Frame} {target : Str × Str} (hf : NominalFrame df target) (hk : KeysFaithful df target)
    {root : FPTree Selector} (hroot : rootTree th df target = .ok root) {ctx : List Selector} {t : FPTree Selector}
    (h : Reaches th root ctx t) :
    ∃ R D, Good (InData df target) th R t D ∧
      (∀ X, X ≠ [] → (∃ r ∈ D, ∀ x ∈ X, x ∈ r.1) → supp D X = (tpOf df target (X ++ ctx), fpOf df target (X ++ ctx)) ∧
        OccursIn df (X ++ ctx)) ∧
      (∀ X, X ≠ [] → (∀ x ∈ X, x ∈ t.header.map (·.1)) → OccursIn df (X ++ ctx) →
        Frequent th (tpOf df target (X ++ ctx)) (fpOf df target (X ++ ctx)) → ∃ r ∈ D, ∀ x ∈ X, x ∈ r.1) := by
  induction h with
  | root =>
    obtain ⟨mask, hl, hm, ht, g⟩ := rootTree_ok (th := th) hf hk
    rw [hroot] at ht
    cases ht
    refine ⟨_, _, g, ?_, ?_⟩
    · intro X hX hr
      have := (mem_rootDB_iff hf hk hl hm hX).1 hr
      simp only [List.append_nil]
      exact ⟨supp_rootDB hf hk th hm X (fun x hx => (frequentSel_iff hf hk hl hm x).2 (this.1 x hx)), this.2⟩
    · intro X hX hx hocc _
      simp only [List.append_nil] at hocc
      rw [mem_rootDB_iff hf hk hl hm hX]
      refine ⟨fun x hxx => ?_, hocc⟩
      have := (mem_header g.holds x).1 (hx x hxx)
      have := (mem_rootDB_iff hf hk hl hm (X := [x]) (by simp)).1 (by simpa using this)
      exact this.1 x (by simp)
  | cond h1 ha ih =>
    rename_i ctx t a
    obtain ⟨R, D, g, i1, i2⟩ := ih
    obtain ⟨R', D', g', c1, c2, c3⟩ := cond_good (th := th) (injOn_dictKey hk) g ha
    have hperm : ∀ X : List Selector, ∀ s, s ∈ a :: X ++ ctx ↔ s ∈ X ++ a :: ctx := by
      intro X s; simp; tauto
    have hcnt : ∀ X, tpOf df target (a :: X ++ ctx) = tpOf df target (X ++ a :: ctx) ∧ fpOf df target (a :: X ++ ctx) = fpOf df target (X ++ a :: ctx) :=
      fun X => ⟨tpOf_congr (hperm X), fpOf_congr (hperm X)⟩
    have hocc : ∀ X, OccursIn df (a :: X ++ ctx) ↔ OccursIn df (X ++ a :: ctx) := by
      intro X
      constructor
      · rintro ⟨i, hi, hc⟩; exact ⟨i, hi, (covers_congr (hperm X) i).1 hc⟩
      · rintro ⟨i, hi, hc⟩; exact ⟨i, hi, (covers_congr (hperm X) i).2 hc⟩
    refine ⟨R', D', g', ?_, ?_⟩
    · intro X hX hr
      obtain ⟨e1, e2, e3⟩ := c2 X hX hr
      obtain ⟨f1, f2⟩ := i1 (a :: X) (by simp) e2
      rw [e1, f1, (hcnt X).1, (hcnt X).2]
      exact ⟨rfl, (hocc X).1 f2⟩
    · intro X hX hx ho hfr
      have hx' : ∀ x ∈ X, x ∈ t.header.map (·.1) ∧ R x a := by
        intro x hxx
        have h2 := (mem_header g'.holds x).1 (hx x hxx)
        obtain ⟨_, ⟨r, hr, h3⟩, h4⟩ := c2 [x] (by simp) (by simpa using h2)
        exact ⟨(mem_header g.holds x).2 ⟨r, hr, h3 x (by simp)⟩, h4 x (by simp)⟩
      have hex := i2 (a :: X) (by simp) (by
        intro x hxx
        rcases List.mem_cons.1 hxx with rfl | hxx
        · exact ha
        · exact (hx' x hxx).1) ((hocc X).2 ho) (by rw [(hcnt X).1, (hcnt X).2]; exact hfr)
      apply c3 X hX (fun x hxx => (hx' x hxx).2) hex
      rw [(i1 (a :: X) (by simp) hex).1, (hcnt X).1, (hcnt X).2]
      exact (ok_iff_frequent th _ _).2 hfr

/-- C19: in every conditional tree reached by FP-growth the entry of a selector is the count of the selector together with
the selectors chosen so far, and this count meets the thresholds. -/
theorem C19_counts (th : Thresholds) (df : Frame) (target : Str × Str) (hf : NominalFrame df target) (hk : KeysFaithful df target)
    (root : FPTree Selector) (hroot : rootTree th df target = .ok root) (ctx : List Selector) (t : FPTree Selector)
    (h : Reaches th root ctx t) (s : Selector) (c : Cnt) (hs : (s, c) ∈ t.header) :
    c = (tpOf df target (s :: ctx), fpOf df target (s :: ctx)) ∧ OccursIn df (s :: ctx) ∧ Frequent th c.1 c.2 := by
  obtain ⟨R, D, g, i1, i2⟩ := reaches_inv hf hk hroot h
  have h1 := lookup_of_mem_nodup (nodup_header g.holds) hs
  rw [header_lookup g.holds g.nodup] at h1
  by_cases hr : ∃ r ∈ D, s ∈ r.1
  · rw [if_pos hr] at h1
    obtain ⟨e1, e2⟩ := i1 [s] (by simp) (by simpa using hr)
    have h2 : wsum D (fun l => s ∈ l) = supp D [s] := by apply wsum_congr; intro e _; simp
    have hc := Option.some.inj h1
    have hfr := g.freq s hr
    refine ⟨by rw [← hc, h2, e1]; rfl, e2, ?_⟩
    rw [hc] at hfr
    exact (ok_iff_frequent th c.1 c.2).1 hfr
  · rw [if_neg hr] at h1; cases h1

/-- C19: of two different selectors of a tree, one remains in the conditional tree of the other exactly when the two, together
with the selectors chosen so far, occur and meet the thresholds; never each in the tree of the other; and nothing else is in
a conditional tree. -/
theorem C19_remaining (th : Thresholds) (df : Frame) (target : Str × Str) (hf : NominalFrame df target) (hk : KeysFaithful df target)
    (root : FPTree Selector) (hroot : rootTree th df target = .ok root) (ctx : List Selector) (t : FPTree Selector)
    (h : Reaches th root ctx t) (a b : Selector) (ha : a ∈ t.header.map (·.1)) (hb : b ∈ t.header.map (·.1)) (hab : a ≠ b) :
    ((b ∈ (t.condTree Selector.dictKey th a).header.map (·.1) ∨ a ∈ (t.condTree Selector.dictKey th b).header.map (·.1)) ↔
      OccursIn df (a :: b :: ctx) ∧ Frequent th (tpOf df target (a :: b :: ctx)) (fpOf df target (a :: b :: ctx))) ∧
    ¬ (b ∈ (t.condTree Selector.dictKey th a).header.map (·.1) ∧ a ∈ (t.condTree Selector.dictKey th b).header.map (·.1)) ∧
    ∀ s ∈ (t.condTree Selector.dictKey th a).header.map (·.1), s ∈ t.header.map (·.1) ∧ s ≠ a := by
  obtain ⟨R, D, g, i1, i2⟩ := reaches_inv hf hk hroot h
  have key : ∀ a ∈ t.header.map (·.1), ∀ b, b ∈ (t.condTree Selector.dictKey th a).header.map (·.1) ↔
      R b a ∧ (∃ r ∈ D, a ∈ r.1 ∧ b ∈ r.1) ∧ Frequent th (tpOf df target (a :: b :: ctx)) (fpOf df target (a :: b :: ctx)) := by
    intro a ha b
    obtain ⟨R', D', g', c1, c2, c3⟩ := cond_good (th := th) (injOn_dictKey hk) g ha
    rw [mem_header g'.holds]
    constructor
    · intro hr
      obtain ⟨e1, e2, e3⟩ := c2 [b] (by simp) (by simpa using hr)
      refine ⟨e3 b (by simp), by simpa using e2, ?_⟩
      have hfr := g'.freq b hr
      have h2 : wsum D' (fun l => b ∈ l) = supp D' [b] := by apply wsum_congr; intro e _; simp
      rw [h2, e1, (i1 [a, b] (by simp) e2).1] at hfr
      exact (ok_iff_frequent th _ _).1 hfr
    · rintro ⟨e1, e2, e3⟩
      have hex : ∃ r ∈ D, ∀ x ∈ a :: [b], x ∈ r.1 := by simpa using e2
      have := c3 [b] (by simp) (by simpa using e1) hex (by
        rw [(i1 [a, b] (by simp) hex).1]
        exact (ok_iff_frequent th _ _).2 e3)
      simpa using this
  have hsym : ∀ s, s ∈ b :: a :: ctx ↔ s ∈ a :: b :: ctx := by intro s; simp; tauto
  refine ⟨?_, ?_, ?_⟩
  · constructor
    · rintro (hh | hh)
      · obtain ⟨e1, e2, e3⟩ := (key a ha b).1 hh
        exact ⟨(i1 [a, b] (by simp) (by simpa using e2)).2, e3⟩
      · obtain ⟨e1, ⟨r, hr, e2, e2'⟩, e3⟩ := (key b hb a).1 hh
        rw [tpOf_congr hsym, fpOf_congr hsym] at e3
        exact ⟨(i1 [a, b] (by simp) ⟨r, hr, by simp [e2, e2']⟩).2, e3⟩
    · rintro ⟨ho, hfr⟩
      obtain ⟨r, hr, hx⟩ := i2 [a, b] (by simp) (by simp only [List.mem_cons, List.not_mem_nil, or_false]; rintro x (rfl | rfl) <;> assumption) ho hfr
      have h1 : a ∈ r.1 := hx a (by simp)
      have h2 : b ∈ r.1 := hx b (by simp)
      rcases sublist_or h1 h2 hab with h3 | h3
      · right
        rw [key b hb a, tpOf_congr hsym, fpOf_congr hsym]
        exact ⟨List.pairwise_iff_forall_sublist.1 (g.ordered r hr) h3, ⟨r, hr, h2, h1⟩, hfr⟩
      · left
        rw [key a ha b]
        exact ⟨List.pairwise_iff_forall_sublist.1 (g.ordered r hr) h3, ⟨r, hr, h1, h2⟩, hfr⟩
  · rintro ⟨h1, h2⟩
    exact g.asymm _ _ ((key a ha b).1 h1).1 ((key b hb a).1 h2).1
  · intro s hs
    obtain ⟨e1, ⟨r, hr, _, e2⟩, _⟩ := (key a ha s).1 hs
    refine ⟨(mem_header g.holds s).2 ⟨r, hr, e2⟩, ?_⟩
    rintro rfl
    exact g.asymm _ _ e1 e1

end

/-- C56: `there_is_a_single_path` tells exactly whether all nodes are on one path from the root, in the tree of the data and in every
conditional tree. -/
theorem C56_single_path (th : Thresholds) (df : Frame) (target : Str × Str) (hf : NominalFrame df target) (hk : KeysFaithful df target)
    (root : FPTree Selector) (hroot : rootTree th df target = .ok root) (ctx : List Selector) (t : FPTree Selector)
    (h : Reaches th root ctx t) :
    t.singlePath = true ↔ ∀ p ∈ t.nodes.map (·.1), ∀ q ∈ t.nodes.map (·.1), p <+: q ∨ q <+: p := by
  obtain ⟨R, D, g, _⟩ := reaches_inv hf hk hroot h
  exact singlePath_iff g.holds

/-- C56: `is_empty` tells exactly whether the tree has no node, which is the case exactly when its header table is empty. -/
theorem C56_is_empty (th : Thresholds) (df : Frame) (target : Str × Str) (hf : NominalFrame df target) (hk : KeysFaithful df target)
    (root : FPTree Selector) (hroot : rootTree th df target = .ok root) (ctx : List Selector) (t : FPTree Selector)
    (h : Reaches th root ctx t) : (t.isEmpty = true ↔ t.nodes = []) ∧ (t.isEmpty = true ↔ t.header = []) := by
  obtain ⟨R, D, g, _⟩ := reaches_inv hf hk hroot h
  rw [isEmpty_iff g.holds]
  constructor
  · constructor
    · intro h0
      rw [← List.map_eq_nil_iff (f := fun e : List Selector × Cnt => e.1), List.eq_nil_iff_forall_not_mem]
      intro p hp
      rw [mem_nodes g.holds] at hp
      obtain ⟨h1, r, hr, h2⟩ := hp
      rw [h0 r hr] at h2
      exact h1 (by simpa using h2)
    · intro h0 r hr
      by_contra hne
      have := (mem_nodes g.holds r.1).2 ⟨hne, r, hr, List.prefix_rfl⟩
      rw [h0] at this; simp at this
  · constructor
    · intro h0
      rw [← List.map_eq_nil_iff (f := fun e : Selector × Cnt => e.1), List.eq_nil_iff_forall_not_mem]
      intro s hs
      obtain ⟨r, hr, h2⟩ := (mem_header g.holds s).1 hs
      rw [h0 r hr] at h2
      simp at h2
    · intro h0 r hr
      by_contra hne
      obtain ⟨s, hs⟩ := List.exists_mem_of_ne_nil _ hne
      have := (mem_header g.holds s).2 ⟨r, hr, hs⟩
      rw [h0] at this; simp at this

/-! ## the key collision -/

/-- C18: the hypothesis on the keys holds whenever no column name contains a quote. -/
theorem C18_no_quotes (df : Frame) (target : Str × Str) (hf : NominalFrame df target)
    (h : ∀ c ∈ df.cols, '\'' ∉ c.1 ∧ '"' ∉ c.1) : KeysFaithful df target := keysFaithful_of_no_quotes hf h

/-- a data set in which the cells `a = x'y"` and `a'x\ = y"` have the same dictionary key -/
def Spec.collisionFrame : Frame :=
  ⟨2, [(c!"a", [.str c!"x'y\"", .str c!"z"]), (c!"a'x\\", [.str c!"w", .str c!"y\""]), (c!"t", [.str c!"yes", .str c!"no"])]⟩

/-- Without the hypothesis on the keys the claim is false: the second selector overwrites the first one in the dictionary and the
header table gives it the counts (1, 1) although it covers only one row, a negative one. -/
theorem C18_fails : NominalFrame collisionFrame (c!"t", c!"yes") ∧
    (match rootTree (.tpFp 0 0) collisionFrame (c!"t", c!"yes") with
      | .ok t => t.header.lookup ⟨c!"a'x\\", .equal, .str c!"y\""⟩
      | .error _ => none) = some (1, 1) ∧
    tpOf collisionFrame (c!"t", c!"yes") [⟨c!"a'x\\", .equal, .str c!"y\""⟩] = 0 := by
  have hf : NominalFrame collisionFrame (c!"t", c!"yes") := by
    refine ⟨?_, by decide +kernel, ?_, by decide +kernel⟩
    · intro c hc; simp [collisionFrame] at hc; rcases hc with rfl | rfl | rfl <;> rfl
    · intro c hc; simp [collisionFrame] at hc
      rcases hc with rfl | rfl | rfl <;> simp
  refine ⟨hf, by decide +kernel, ?_⟩
  unfold tpOf
  rw [List.length_eq_zero_iff, List.filter_eq_nil_iff]
  intro i hi
  have hi' : i < 2 := List.mem_range.1 hi
  simp only [decide_eq_true_eq, not_and]
  intro hc ht
  have h1 := hc _ (List.mem_singleton.2 rfl)
  rw [matchesAt_iff hf] at h1
  obtain ⟨c1, hc1, hn1, hv1⟩ := h1
  unfold targetSel at ht
  rw [matchesAt_iff hf] at ht
  obtain ⟨c2, hc2, hn2, hv2⟩ := ht
  simp [collisionFrame] at hc1 hc2
  have : i = 0 ∨ i = 1 := by omega
  rcases this with rfl | rfl <;> rcases hc1 with rfl | rfl | rfl <;> rcases hc2 with rfl | rfl | rfl <;> simp_all

/-- non-vacuity: the tree of the demonstration data set has nodes in two branches and reaches a conditional tree -/
example : (match rootTree (.tpFp 1 0) demoFrame (c!"t", c!"yes") with
    | .ok t => some (t.nodes.map (fun e => e.2), t.header.map (fun e => e.2), t.header.map (fun e => (t.condTree Selector.dictKey (.tpFp 1 0) e.1).header.length))
    | .error _ => none) = some ([(1, 2), (1, 1), (1, 0), (1, 0)], [(1, 2), (2, 1), (1, 0)], [0, 1, 1]) := by decide +kernel

end Verif
