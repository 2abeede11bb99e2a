import Mathlib.Data.Finset.Powerset
import Mathlib.Data.Finset.Prod
import Verif.Spec.WorkBound
import Verif.Props.SDMap
import Verif.Props.FPTree
import Verif.Props.SDMapStar
import Verif.Props.VLSD
import Verif.Props.BSD
import Verif.Props.IDSD
import Verif.Props.QFinder
/-! Property C104: how many descriptions the searches evaluate. -/
namespace Verif
open Spec
section
open Classical

namespace WorkBound

/-- a selector of a description has the value that its column has in a covered row -/
theorem sel_unique {df : Frame} {target : Str × Str} {X Y : List Selector} (hX : Describes target X) (hY : Describes target Y) {i : Nat}
    (cX : Covers df X i) (cY : Covers df Y i) {s t : Selector} (hs : s ∈ X) (ht : t ∈ Y) (ha : s.attr = t.attr) : s = t := by
  obtain ⟨_, so, sv, hsv⟩ := hX.2 s hs
  obtain ⟨_, t_o, tv, htv⟩ := hY.2 t ht
  obtain ⟨c, v, h1, h2, h3⟩ := cX s hs
  obtain ⟨c', v', h1', h2', h3'⟩ := cY t ht
  rw [ha, h1'] at h1
  cases h1
  rw [h2'] at h2
  cases h2
  rw [so, hsv] at h3
  rw [t_o, htv] at h3'
  have key : ∀ w, Op.equal.evaluate v (.str w) = .ok true → v = .str w := by
    intro w h
    cases v <;> simp_all [Op.evaluate, Val.eq]
  have e := (key _ h3).symm.trans (key _ h3')
  cases s; cases t
  simp only at ha so t_o hsv htv
  rw [ha, so, t_o, hsv, htv, e]

theorem sum_choose_le {α : Type} [DecidableEq α] (S : Finset α) (d : Nat) :
    (S.powerset.filter (fun A => A ≠ ∅ ∧ A.card ≤ d)).card ≤ columnSets S.card d := by
  induction d with
  | zero =>
    rw [Finset.card_eq_zero.2]
    · exact Nat.zero_le _
    · rw [Finset.filter_eq_empty_iff]
      rintro A _ ⟨h1, h2⟩
      exact h1 (Finset.card_eq_zero.1 (by omega))
  | succ d ih =>
    have hc : columnSets S.card (d + 1) = columnSets S.card d + S.card.choose (d + 1) := by
      unfold columnSets
      rw [List.range_succ, List.map_append, List.sum_append]
      simp
    rw [hc, ← Finset.card_powersetCard]
    refine (Finset.card_le_card (t := _ ∪ Finset.powersetCard (d + 1) S) ?_).trans ((Finset.card_union_le _ _).trans (Nat.add_le_add_right ih _))
    intro A hA
    rw [Finset.mem_filter, Finset.mem_powerset] at hA
    rw [Finset.mem_union, Finset.mem_filter, Finset.mem_powerset, Finset.mem_powersetCard]
    by_cases h : A.card ≤ d
    · exact .inl ⟨hA.1, hA.2.1, h⟩
    · exact .inr ⟨hA.1, by have := hA.2.2; omega⟩

theorem columnSets_mono {m m' : Nat} (h : m ≤ m') (d : Nat) : columnSets m d ≤ columnSets m' d := by
  unfold columnSets
  induction List.range d with
  | nil => simp
  | cons j l ih => simp only [List.map_cons, List.sum_cons]; exact Nat.add_le_add (Nat.choose_le_choose _ h) ih

/-- different descriptions that occur in the data are at most as many as rows times sets of columns -/
theorem bound {df : Frame} {target : Str × Str} (hf : NominalFrame df target) (d : Nat) (L : List (List Selector))
    (hd : L.Pairwise (fun X Y => ¬ ∀ s, s ∈ X ↔ s ∈ Y)) (hL : ∀ X ∈ L, Describes target X ∧ OccursIn df X ∧ X.length ≤ d) :
    L.length ≤ workBound df.nrows (df.cols.length - 1) d := by
  let S : Finset Str := ((df.cols.map (·.1)).erase target.1).toFinset
  have hS : S.card ≤ df.cols.length - 1 := by
    refine (List.toFinset_card_le _).trans ?_
    rw [List.length_erase_of_mem hf.target, List.length_map]
  let f : List Selector → Nat × Finset Str := fun X => (if h : OccursIn df X then h.choose else 0, (X.map (·.attr)).toFinset)
  have hn : (L.map f).Nodup := by
    rw [List.Nodup, List.pairwise_map]
    refine hd.imp_of_mem ?_
    intro X Y hX hY hne he
    apply hne
    obtain ⟨a1, a2, _⟩ := hL X hX
    obtain ⟨b1, b2, _⟩ := hL Y hY
    have e := Prod.ext_iff.1 he
    simp only [f, dif_pos a2, dif_pos b2] at e
    obtain ⟨e1, e2⟩ := e
    have cX := a2.choose_spec.2
    have cY := b2.choose_spec.2
    rw [e1] at cX
    intro s
    constructor
    · intro hs
      have : s.attr ∈ (Y.map (·.attr)).toFinset := by rw [← e2, List.mem_toFinset]; exact List.mem_map_of_mem hs
      obtain ⟨t, ht, ha⟩ := List.mem_map.1 (List.mem_toFinset.1 this)
      rw [sel_unique a1 b1 cX cY hs ht ha.symm]; exact ht
    · intro hs
      have : s.attr ∈ (X.map (·.attr)).toFinset := by rw [e2, List.mem_toFinset]; exact List.mem_map_of_mem hs
      obtain ⟨t, ht, ha⟩ := List.mem_map.1 (List.mem_toFinset.1 this)
      rw [sel_unique b1 a1 cY cX hs ht ha.symm]; exact ht
  have hsub : (L.map f).toFinset ⊆ Finset.range df.nrows ×ˢ S.powerset.filter (fun A => A ≠ ∅ ∧ A.card ≤ d) := by
    intro p hp
    obtain ⟨X, hX, rfl⟩ := List.mem_map.1 (List.mem_toFinset.1 hp)
    obtain ⟨a1, a2, a3⟩ := hL X hX
    rw [Finset.mem_product, Finset.mem_filter, Finset.mem_range, Finset.mem_powerset]
    simp only [f, dif_pos a2]
    refine ⟨a2.choose_spec.1, ?_, ?_, ?_⟩
    · intro a ha
      obtain ⟨s, hs, rfl⟩ := List.mem_map.1 (List.mem_toFinset.1 ha)
      obtain ⟨c, v, hl, _⟩ := a2.choose_spec.2 s hs
      rw [List.mem_toFinset]
      refine (List.mem_erase_of_ne (a1.2 s hs).1).2 (List.mem_map.2 ⟨(s.attr, c), ?_, rfl⟩)
      exact mem_of_lookup hl
    · intro he
      obtain ⟨s, l, hsl⟩ := List.exists_cons_of_ne_nil a1.1
      rw [hsl] at he
      simp at he
    · exact (List.toFinset_card_le _).trans (by rw [List.length_map]; exact a3)
  rw [← List.length_map f, ← List.toFinset_card_of_nodup hn]
  refine (Finset.card_le_card hsub).trans ?_
  rw [Finset.card_product, Finset.card_range]
  exact Nat.mul_le_mul_left _ ((sum_choose_le S d).trans (columnSets_mono hS d))

/-- a description that occurs and has no selector twice has at most one selector per column -/
theorem length_le {df : Frame} {target : Str × Str} (hf : NominalFrame df target) {X : List Selector} (hX : Describes target X) (hn : X.Nodup)
    (ho : OccursIn df X) : X.length ≤ df.cols.length - 1 := by
  obtain ⟨i, _, hc⟩ := ho
  rw [← List.length_map (f := fun s : Selector => s.attr), ← List.length_map (as := df.cols) (f := fun c => c.1), ← List.length_erase_of_mem hf.target]
  have hnd : (X.map (fun s => s.attr)).Nodup := by
    rw [List.Nodup, List.pairwise_map]
    refine hn.imp_of_mem ?_
    intro s t hs ht hne he
    exact hne (sel_unique hX hX hc hc hs ht he)
  refine (List.Nodup.subperm hnd ?_).length_le
  intro a ha
  obtain ⟨s, hs, rfl⟩ := List.mem_map.1 ha
  obtain ⟨c, v, hl, _⟩ := hc s hs
  exact (List.mem_erase_of_ne (hX.2 s hs).1).2 (List.mem_map.2 ⟨(s.attr, c), mem_of_lookup hl, rfl⟩)

end WorkBound

/-- C104: what the bound is without a limit on the size of descriptions -/
theorem C104_all (rows m : Nat) : workBound rows m m = rows * (2 ^ m - 1) := by
  unfold workBound columnSets
  congr 1
  have h := Nat.sum_range_choose m
  rw [Finset.sum_range_succ', Nat.choose_zero_right] at h
  have : ((List.range m).map (fun j => m.choose (j + 1))).sum = ∑ j ∈ Finset.range m, m.choose (j + 1) := by
    rw [Finset.sum, Finset.range_val]; rfl
  omega

/-- the same for patterns -/
theorem WorkBound.patterns {df : Frame} {target : Str × Str} (hf : NominalFrame df target) (d : Nat) (L : List Pattern) (hd : L.Nodup)
    (hL : ∀ p ∈ L, Describes target p.sels ∧ Pattern.Sorted p.sels ∧ OccursIn df p.sels ∧ p.sels.length ≤ d) :
    L.length ≤ workBound df.nrows (df.cols.length - 1) d := by
  have := WorkBound.bound hf d (L.map (·.sels)) ?_ ?_
  · rwa [List.length_map] at this
  · rw [List.pairwise_map]
    refine hd.imp_of_mem ?_
    intro p q hp hq hne he
    obtain ⟨a1, a2, _⟩ := hL p hp
    obtain ⟨_, b2, _⟩ := hL q hq
    have := sorted_ext a2 b2 (textEq_of_describes a1) he
    cases p; cases q
    exact hne (by simpa using this)
  · intro X hX
    obtain ⟨p, hp, rfl⟩ := List.mem_map.1 hX
    obtain ⟨a1, _, a3, a4⟩ := hL p hp
    exact ⟨a1, a3, a4⟩

/-- patterns of unlimited size -/
theorem WorkBound.patterns_all {df : Frame} {target : Str × Str} (hf : NominalFrame df target) (L : List Pattern) (hd : L.Nodup)
    (hL : ∀ p ∈ L, Describes target p.sels ∧ Pattern.Sorted p.sels ∧ OccursIn df p.sels) :
    L.length ≤ df.nrows * (2 ^ (df.cols.length - 1) - 1) := by
  rw [← C104_all]
  refine WorkBound.patterns hf _ L hd (fun p hp => ?_)
  obtain ⟨a1, a2, a3⟩ := hL p hp
  exact ⟨a1, a2, a3, WorkBound.length_le hf a1 (nodup_of_sorted a2) a3⟩

/-- C104 for SDMap, an object with any history: `selected_subgroups + unselected_subgroups` grows by at most rows times `2^columns - 1`. -/
theorem C104_sdmap {cfg : SDMapConfig} {df : Frame} {target : Str × Str} (hf : NominalFrame df target) (hk : KeysFaithful df target)
    {st st' : SDMapState} (h : cfg.fit st df target = .ok st') :
    st'.selected + st'.unselected ≤ st.selected + st.unselected + df.nrows * (2 ^ (df.cols.length - 1) - 1) := by
  obtain ⟨calls, h1, _, h3, _⟩ := fit_spec hf hk h
  rw [h3]
  have := WorkBound.patterns_all hf (calls.map (·.1)) h1.distinct (fun p hp => by
    obtain ⟨r, hr, rfl⟩ := List.mem_map.1 hp
    have a := (h1.sound r hr).1
    exact ⟨a.1, (sorted_iff_lt (textEq_of_describes a.1)).1 a.2.1, a.2.2.1⟩)
  rw [List.length_map] at this
  omega

/-- C104 for SDMapStar, with and without a limit on the number of subgroups. -/
theorem C104_sdmapstar {cfg : SDMapStarConfig} {df : Frame} {target : Str × Str} (hf : NominalFrame df target) (hk : KeysFaithful df target)
    {st st' : StarState} (h : cfg.fit st df target = .ok st') :
    st'.base.selected + st'.base.unselected ≤ st.base.selected + st.base.unselected + df.nrows * (2 ^ (df.cols.length - 1) - 1) := by
  by_cases h0 : cfg.num = 0
  · obtain ⟨c1, c2⟩ := C26 cfg h0 df target hf hk st
    obtain ⟨sd, hsd⟩ := c1.1 ⟨st', h⟩
    obtain ⟨_, _, _, e1, e2⟩ := c2 st' sd h hsd
    rw [e1, e2]
    exact C104_sdmap hf hk hsd
  · obtain ⟨us, h1, h2, h3, _⟩ := star_fit (by omega) hf hk h
    have hb : us.length ≤ df.nrows * (2 ^ (df.cols.length - 1) - 1) := by
      have := WorkBound.bound hf (df.cols.length - 1) (us.map (·.1.1)) ?_ ?_
      · rwa [List.length_map, C104_all] at this
      · rw [List.pairwise_map] at h3 ⊢; exact h3
      · intro X hX
        obtain ⟨u, hu, rfl⟩ := List.mem_map.1 hX
        obtain ⟨a1, a2, a3, _⟩ := h2 u hu
        exact ⟨a1, a3, WorkBound.length_le hf a1 a2 a3⟩
    rcases h1 with ⟨_, rfl⟩ | h1
    · omega
    · have e := (foldlM_handle _ _ _ h1.base.1).2.1
      have l : (us.filter (fun v => v.2)).length ≤ us.length := List.length_filter_le _ _
      simp only [List.length_map] at e
      rw [e]
      omega

/-- C104 for one `fit` of VLSD (the runs of C29). -/
theorem C104_vlsd {Seq : Type} {has : Seq → Nat → Prop} {cfg : VLSDConfig} {df : Frame} {target : Str × Str} (hf : NominalFrame df target)
    {st st' : VLState Seq} {calls : List (VList Selector Seq)} (h : VLSDRun has cfg df target st st' calls) :
    st'.selected + st'.unselected ≤ st.selected + st.unselected + df.nrows * (2 ^ (df.cols.length - 1) - 1) := by
  rw [h.visited, ← C104_all]
  have := WorkBound.bound hf (df.cols.length - 1) (calls.map (·.sels)) ?_ ?_
  · rw [List.length_map] at this; omega
  · rw [List.pairwise_map]; exact h.once
  · intro X hX
    obtain ⟨v, hv, rfl⟩ := List.mem_map.1 hX
    have a := h.exact v hv
    exact ⟨a.describes, a.occurs, WorkBound.length_le hf a.describes a.nodup a.occurs⟩

/-- C104 for BSD, CBSD and CPBSD: `visited_subgroups` of a new object, descriptions of at most `max_depth + 1` selectors. -/
theorem C104_bsd {cfg : BSDConfig} {df : Frame} {target : Str × Str} (hn : 0 < cfg.num) (ha : BSDAbove cfg df target) (hf : NominalFrame df target)
    (ht : TextsFaithful df target) {st' : BSDState} (h : cfg.fit .fresh df target = .ok st') :
    st'.visited ≤ workBound df.nrows (df.cols.length - 1) (cfg.maxDepth + 1) := by
  obtain ⟨F, es, st1, _, hS, hR, rfl⟩ := fit_fresh hn ha hf ht h
  have hv : st1.visited = es.length := by have := hR.visited; simpa [BSDState.fresh] using this
  simp only [hv]
  have := WorkBound.patterns hf (cfg.maxDepth + 1) (es.map (·.pat)) ?_ ?_
  · rwa [List.length_map] at this
  · rw [List.Nodup, List.pairwise_map]
    exact hS.nodup.imp (fun hne he => hne (by rw [he]))
  · intro p hp
    obtain ⟨e, he, rfl⟩ := List.mem_map.1 hp
    have a := hS.exact e he
    refine ⟨a.describes, (sorted_iff_lt (textEq_of_describes a.describes)).1 a.sorted, a.occurs, ?_⟩
    have := (hS.length e he).2
    simpa using this

/-- C104 for IDSD: the patterns whose credibility is computed. -/
theorem C104_idsd {cfg : IDSDConfig} {df : Frame} {target : Str × Str} (hf : NominalFrame df target) (ht : OccursIn df [targetSel target]) (hnum : 0 < cfg.num)
    {st' : IDSDState} (h : IDSD.fit cfg .init df target = .ok st') : st'.calls.length ≤ workBound df.nrows (df.cols.length - 1) (maxSelectors cfg df) := by
  obtain ⟨st1, h1, h2, h3, _⟩ := C39_idsd (cfg := cfg) hf ht hnum
  rw [h1] at h
  cases h
  have hf' : NominalFrame (searched cfg df target) target := IDSD.reduce_nominal hf (ties := cfg.ties) cfg.cats
  have hr : (searched cfg df target).nrows = df.nrows := IDSD.reduce_nrows _ _ _ _
  have hc : (searched cfg df target).cols.length = df.cols.length := by
    have := congrArg List.length (IDSD.reduce_names cfg.ties cfg.cats df target.1)
    simpa using this
  have := WorkBound.patterns hf' (maxSelectors cfg df) st'.calls h2 ?_
  · rwa [hr, hc] at this
  · intro p hp
    obtain ⟨X, rfl, a1, a2, a3⟩ := h3 p hp
    obtain ⟨n1, n2⟩ := new_text (textEq_of_describes a1)
    refine ⟨⟨?_, fun s hs => a1.2 s ((n2 s).1 hs)⟩, n1, ?_, a3⟩
    · intro he
      obtain ⟨s, l, hsl⟩ := List.exists_cons_of_ne_nil a1.1
      have := (n2 s).2 (by rw [hsl]; simp)
      rw [he] at this; simp at this
    · obtain ⟨i, hi, hcv⟩ := a2
      exact ⟨i, hi, fun s hs => hcv s ((n2 s).1 hs)⟩

/-- C104 for QFinder: the patterns whose credibility is computed. -/
theorem C104_qfinder {cfg : QFConfig} {df : Frame} {target : Str × Str} (hf : NominalFrame df target) (hs : SafeTexts df target) {st st' : QFState}
    (h : QFinder.fit cfg st df target = .ok st') : st'.cands.length ≤ workBound df.nrows (df.cols.length - 1) (qfMaxSelectors cfg df) := by
  obtain ⟨h2, K, _, h3⟩ := C39_qfinder hf hs h
  refine WorkBound.patterns hf _ st'.cands h2 (fun p hp => ?_)
  obtain ⟨X, rfl, a1, a2, a3, _⟩ := (h3 p).1 hp
  obtain ⟨n1, n2⟩ := new_text (textEq_of_describes a1)
  refine ⟨⟨?_, fun s hs => a1.2 s ((n2 s).1 hs)⟩, n1, ?_, a3⟩
  · intro he
    obtain ⟨s, l, hsl⟩ := List.exists_cons_of_ne_nil a1.1
    have := (n2 s).2 (by rw [hsl]; simp)
    rw [he] at this; simp at this
  · obtain ⟨i, hi, hcv⟩ := a2
    exact ⟨i, hi, fun s hs => hcv s ((n2 s).1 hs)⟩

end
end Verif

namespace Verif
open Spec
namespace WorkBound
variable {σ κ : Type} [DecidableEq σ] [DecidableEq κ]

theorem insertTree_size (b : Bool) (l : List σ) (t : FPTree σ) (p : List σ) : (t.insertTree p b l).nodes.length ≤ t.nodes.length + l.length := by
  induction l generalizing t p with
  | nil => simp [FPTree.insertTree]
  | cons s l ih =>
    unfold FPTree.insertTree
    split
    · refine (ih _ _).trans ?_; simp [bump]; all_goals omega
    · split
      · refine (ih _ _).trans ?_; simp [bump]; all_goals omega
      · split
        · refine (ih _ _).trans ?_; simp; all_goals omega
        · refine (ih _ _).trans ?_; simp; all_goals omega

theorem insertCond_size (tp fp : Nat) (l : List σ) (t : FPTree σ) (p : List σ) : (t.insertCond p tp fp l).nodes.length ≤ t.nodes.length + l.length := by
  induction l generalizing t p with
  | nil => simp [FPTree.insertCond]
  | cons s l ih =>
    unfold FPTree.insertCond
    split
    · refine (ih _ _).trans ?_; simp [bump]; all_goals omega
    · refine (ih _ _).trans ?_; simp; all_goals omega

theorem sortRow_size (key : σ → κ) (d : FreqDict σ κ) (l : List σ) : (FPTree.sortRow key d l).length = l.length := by
  unfold FPTree.sortRow
  rw [(stableSort_perm _).length_eq, (stableSort_perm _).length_eq]

theorem row_size (key : σ → κ) (d : FreqDict σ κ) (keys : List κ) : (FPTree.sortRow key d (FPTree.validSelectors d keys)).length ≤ keys.length := by
  rw [sortRow_size]
  exact List.length_filterMap_le _ _

theorem fold_size {α : Type} (f : FPTree σ → α → FPTree σ) (g : α → Nat) (hf : ∀ t a, (f t a).nodes.length ≤ t.nodes.length + g a) (l : List α) (t : FPTree σ) :
    (l.foldl f t).nodes.length ≤ t.nodes.length + (l.map g).sum := by
  induction l generalizing t with
  | nil => simp
  | cons a l ih =>
    rw [List.foldl_cons, List.map_cons, List.sum_cons]
    have := ih (f t a)
    have := hf t a
    omega

theorem filter_sum {α : Type} (p : α → Bool) (g : α → Nat) (l : List α) : ((l.filter p).map g).sum ≤ (l.map g).sum := by
  induction l with
  | nil => simp
  | cons a l ih =>
    rw [List.filter_cons]
    split <;> simp <;> omega

end WorkBound

/-- C104: the FP-tree of SDMap and SDMapStar has at most as many nodes (the root not counted) as the data have cells outside the target column. -/
theorem C104_tree (th : Thresholds) (df : Frame) (target : Str × Str) (hf : NominalFrame df target) (hk : KeysFaithful df target) :
    ∃ t, rootTree th df target = .ok t ∧ t.nodes.length ≤ df.nrows * (df.cols.length - 1) := by
  obtain ⟨mask, hl, hm, ht, g⟩ := rootTree_ok (th := th) hf hk
  refine ⟨_, ht, ?_⟩
  unfold FPTree.buildTree FPTree.sortHeader
  simp only
  refine (WorkBound.fold_size _ (fun r => r.1.length) (fun t r => (WorkBound.insertTree_size _ _ _ _).trans (Nat.add_le_add_left (WorkBound.row_size _ _ _) _)) _ _).trans ?_
  unfold keyRows
  rw [List.map_map]
  simp only [FPTree.empty, List.length_nil, Nat.zero_add]
  have hrow : ∀ i, (rowKeys df target.1 i).length ≤ df.cols.length - 1 := by
    intro i
    unfold rowKeys
    refine (List.length_filterMap_le _ _).trans ?_
    rw [otherCols_length hf]
  have : ∀ l : List Nat, (l.map ((fun r : List Str × Bool => r.1.length) ∘ fun i => (rowKeys df target.1 i, mask[i]?.getD false))).sum ≤ l.length * (df.cols.length - 1) := by
    intro l
    induction l with
    | nil => simp
    | cons i l ih =>
      rw [List.map_cons, List.sum_cons, List.length_cons, Nat.add_mul, Nat.one_mul, Nat.add_comm]
      exact Nat.add_le_add ih (hrow i)
  have h := this (List.range df.nrows)
  rwa [List.length_range] at h

/-- C104: a conditional FP-tree has at most as many nodes as the nodes of the selector have proper ancestors (the root not counted). -/
theorem C104_conditional {σ κ : Type} [DecidableEq σ] [DecidableEq κ] (key : σ → κ) (th : Thresholds) (t : FPTree σ) (s : σ) :
    (FPTree.condTree key th t s).nodes.length ≤ ((t.horizontal s).map (fun e => e.1.length)).sum := by
  unfold FPTree.condTree
  split
  · unfold FPTree.condOf FPTree.sortHeader
    simp only
    refine (WorkBound.fold_size _ (fun b : List σ × Cnt => b.1.length) (fun t r => (WorkBound.insertCond_size _ _ _ _ _).trans ?_) _ _).trans ?_
    · refine Nat.add_le_add_left ((WorkBound.row_size _ _ _).trans (by rw [List.length_map])) _
    · simp only [FPTree.empty, List.length_nil, Nat.zero_add]
      exact WorkBound.filter_sum _ _ _
  · simp [FPTree.empty]

/-- one row: the bound is reached -/
def Spec.oneRow : Frame := ⟨1, [(c!"a", [.str c!"x"]), (c!"b", [.str c!"p"]), (c!"c", [.str c!"u"]), (c!"t", [.str c!"yes"])]⟩

example : NominalFrame oneRow (c!"t", c!"yes") := by
  refine ⟨?_, by decide +kernel, ?_, by decide +kernel⟩
  · intro c hc; simp [oneRow] at hc; rcases hc with rfl | rfl | rfl | rfl <;> rfl
  · intro c hc; simp [oneRow] at hc
    rcases hc with rfl | rfl | rfl | rfl <;> simp

/-- C104: the bound is reached: SDMap on one row with three columns besides the target evaluates `1 * (2^3 - 1)` descriptions. -/
theorem C104_reached : (match (SDMapConfig.new Quality.wracc 0 (some 1) (some 0) none []) with
    | .ok cfg => (match cfg.fit ⟨0, 0, [], []⟩ oneRow (c!"t", c!"yes") with | .ok st => some (st.selected + st.unselected) | .error _ => none)
    | .error _ => none) = some (1 * (2 ^ 3 - 1)) ∧ workBound 1 3 3 = 7 ∧ workBound 10 5 2 = 150 := by decide +kernel

end Verif
