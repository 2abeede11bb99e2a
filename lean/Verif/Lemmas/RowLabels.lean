import Verif.Lemmas.SDMap
import Verif.Model.RowLabels
/-! The FP-tree of a data frame with row labels. -/
set_option linter.unusedSectionVars false
namespace Verif
open Classical Spec FPTree

/-- row `i` is the only one with its label -/
def Spec.Alone {ι : Type} (labels : List ι) (i : Nat) : Prop := ∀ j, labels[j]? = labels[i]? → j = i

section
variable {ι : Type} [DecidableEq ι]

theorem count_one_iff {labels : List ι} {i : Nat} {l : ι} (h : labels[i]? = some l) : labels.count l = 1 ↔ Alone labels i := by
  have hi : i < labels.length := by
    by_contra hh
    rw [List.getElem?_eq_none (by omega)] at h
    cases h
  have hc : labels.count l = ((List.range labels.length).filter (fun j => decide (labels[j]? = some l))).length := by
    rw [List.count_eq_countP, countP_range]
    congr 1
    apply List.filter_congr
    intro j _
    rw [decide_eq_decide]
    constructor
    · rintro ⟨x, h1, h2⟩
      rw [h1]; simpa using h2
    · intro h1
      exact ⟨l, h1, by simp⟩
  set L := (List.range labels.length).filter (fun j => decide (labels[j]? = some l)) with hL
  have hn : L.Nodup := List.nodup_range.filter _
  have hm : ∀ j, j ∈ L ↔ labels[j]? = some l := by
    intro j
    rw [hL, List.mem_filter, List.mem_range, decide_eq_true_eq]
    refine ⟨fun hh => hh.2, fun hh => ⟨?_, hh⟩⟩
    by_contra hlt
    rw [List.getElem?_eq_none (by omega)] at hh
    cases hh
  rw [hc]
  constructor
  · intro h1 j hj
    obtain ⟨a, ha⟩ := List.length_eq_one_iff.1 h1
    have h2 := (hm i).2 h
    have h3 := (hm j).2 (hj.trans h)
    rw [ha, List.mem_singleton] at h2 h3
    rw [h2, h3]
  · intro hA
    have h2 := (hm i).2 h
    have hall : ∀ j ∈ L, j = i := fun j hj => hA j (((hm j).1 hj).trans h.symm)
    match hL' : L with
    | [] => simp at h2
    | [a] => rfl
    | a :: b :: r =>
      exfalso
      have e1 := hall a (by simp)
      have e2 := hall b (by simp)
      rw [e1, e2] at hn
      simp at hn

theorem locCells_length {labels : List ι} {col : List Val} (h : col.length = labels.length) (l : ι) :
    (locCells labels col l).length = labels.count l := by
  induction labels generalizing col with
  | nil => simp [locCells]
  | cons a labels ih =>
    cases col with
    | nil => simp at h
    | cons v col =>
      have := ih (col := col) (by simpa using h)
      unfold locCells at this ⊢
      simp only [List.zip_cons_cons, List.filter_cons, List.count_cons]
      by_cases hal : a = l
      · simp [hal, this]
      · simp [hal, this]

theorem locCells_mem {labels : List ι} {col : List Val} {i : Nat} {l : ι} {v : Val} (h : labels[i]? = some l) (hv : col[i]? = some v) :
    v ∈ locCells labels col l := by
  unfold locCells
  rw [List.mem_map]
  refine ⟨(l, v), List.mem_filter.2 ⟨?_, by simp⟩, rfl⟩
  apply List.mem_of_getElem? (i := i)
  simp [List.getElem?_zip_eq_some, h, hv]

theorem locCells_one {labels : List ι} {col : List Val} {i : Nat} {l : ι} {v : Val} (hlen : col.length = labels.length)
    (h : labels[i]? = some l) (ha : Alone labels i) (hv : col[i]? = some v) : locCells labels col l = [v] := by
  have h1 := locCells_length hlen l
  rw [(count_one_iff h).2 ha] at h1
  obtain ⟨w, hw⟩ := List.length_eq_one_iff.1 h1
  have := locCells_mem h hv
  rw [hw, List.mem_singleton] at this
  rw [hw, this]

theorem locCells_many {labels : List ι} {col : List Val} {i : Nat} {l : ι} (hlen : col.length = labels.length)
    (h : labels[i]? = some l) (ha : ¬ Alone labels i) (v : Val) : locCells labels col l ≠ [v] := by
  intro hh
  have h1 := locCells_length hlen l
  rw [hh] at h1
  exact ha ((count_one_iff h).1 h1.symm)

/-! ### the dictionary has only keys that end with a quote -/

theorem reprStr_last (s : Str) : ∃ p, reprStr s = p ++ ['\''] ∨ reprStr s = p ++ ['"'] := by
  unfold reprStr
  simp only
  by_cases h : '\'' ∈ s ∧ '"' ∉ s
  · rw [if_pos h]; exact ⟨'"' :: s.flatMap (escChar '"'), Or.inr rfl⟩
  · rw [if_neg h]; exact ⟨'\'' :: s.flatMap (escChar '\''), Or.inl rfl⟩

theorem set_keys {σ κ : Type} [DecidableEq κ] (d : FreqDict σ κ) (k : κ) (v : σ × Cnt × Int) (e : κ × (σ × Cnt × Int)) (he : e ∈ d.set k v) :
    e.1 = k ∨ ∃ f ∈ d, f.1 = e.1 := by
  unfold FreqDict.set at he
  split at he
  · obtain ⟨f, hf, rfl⟩ := List.mem_map.1 he
    by_cases h : f.1 = k
    · left; rw [if_pos h]; exact h
    · right; rw [if_neg h]; exact ⟨f, hf, rfl⟩
  · rcases List.mem_append.1 he with h | h
    · exact Or.inr ⟨e, h, rfl⟩
    · left; rw [List.mem_singleton.1 h]

theorem freq_keys (th : Thresholds) (df : Frame) (tname : Str) (mask : List Bool) :
    ∀ e ∈ frequentSelectors th df tname mask, ∃ s ∈ (rootItems th df tname mask).map (·.1), e.1 = s.dictKey := by
  rw [frequentSelectors_eq]
  have gen : ∀ (items : List (Selector × Cnt)) (st : FreqDict Selector Str × Int),
      ∀ e ∈ (items.foldl (fun st e => (FreqDict.set st.1 e.1.dictKey (e.1, e.2, st.2), st.2 + 1)) st).1,
        (∃ f ∈ st.1, f.1 = e.1) ∨ ∃ s ∈ items.map (·.1), e.1 = s.dictKey := by
    intro items
    induction items with
    | nil => intro st e he; exact Or.inl ⟨e, he, rfl⟩
    | cons x items ih =>
      intro st e he
      rw [List.foldl_cons] at he
      rcases ih _ e he with ⟨f, hf, h⟩ | ⟨s, hs, h⟩
      · rcases set_keys _ _ _ f hf with h1 | ⟨g, hg, h1⟩
        · right; exact ⟨x.1, by simp, by rw [← h, h1]⟩
        · left; exact ⟨g, hg, by rw [h1, h]⟩
      · right; exact ⟨s, by simp only [List.map_cons, List.mem_cons]; exact Or.inr hs, h⟩
  intro e he
  rcases gen _ _ e he with ⟨f, hf, _⟩ | h
  · simp at hf
  · exact h

theorem freq_key_quote {df : Frame} (hn : df.nominal = true) (th : Thresholds) (target : Str × Str) (mask : List Bool) :
    ∀ e ∈ frequentSelectors th df target.1 mask, ∃ p, e.1 = p ++ ['\''] ∨ e.1 = p ++ ['"'] := by
  intro e he
  obtain ⟨s, hs, h⟩ := freq_keys th df target.1 mask e he
  obtain ⟨c, h1, h2, h3, h4, h5, h6⟩ := (mem_rootItems (df := df) (target := target) s).1 hs
  simp only [Frame.nominal, List.all_eq_true] at hn
  have hv := hn c h1 s.val h5
  cases hsv : s.val with
  | str w =>
    obtain ⟨p, hp⟩ := reprStr_last w
    refine ⟨s.attr ++ p, ?_⟩
    rw [h]
    unfold Selector.dictKey
    rw [hsv]
    rcases hp with hp | hp
    · left; simp only [Val.repr]; rw [hp]; simp
    · right; simp only [Val.repr]; rw [hp]; simp
  | _ => rw [hsv] at hv; simp [Val.isStr] at hv

/-- the text of a `Series` does not end with a quote: it ends with the name of the type of its elements -/
def Spec.SeriesText (ser : ι → Str → List Val → Str) : Prop := ∀ l c vs, ∃ p x, ser l c vs = p ++ [x] ∧ x ≠ '\'' ∧ x ≠ '"'

theorem lookup_series {ser : ι → Str → List Val → Str} (hser : SeriesText ser) {df : Frame} (hn : df.nominal = true) (th : Thresholds)
    (target : Str × Str) (mask : List Bool) (a : Str) (l : ι) (c : Str) (vs : List Val) :
    ∀ e ∈ frequentSelectors th df target.1 mask, a ++ ser l c vs ≠ e.1 := by
  intro e he
  obtain ⟨p, hp⟩ := freq_key_quote hn th target mask e he
  obtain ⟨q, x, hq, h1, h2⟩ := hser l c vs
  intro hh
  rw [hq, ← List.append_assoc] at hh
  rcases hp with hp | hp
  · rw [hp] at hh
    have := (List.append_inj' hh rfl).2
    simp at this
    exact h1 this
  · rw [hp] at hh
    have := (List.append_inj' hh rfl).2
    simp at this
    exact h2 this

theorem lookup_absent {κ β : Type} [DecidableEq κ] (d : List (κ × β)) (k : κ) (h : ∀ e ∈ d, k ≠ e.1) : d.lookup k = none := by
  rw [List.lookup_eq_none_iff]
  intro e he
  simpa using h e he

/-! ### the tree -/

/-- the rows that `build_tree` really inserts -/
noncomputable def keptRows (labels : List ι) (df : Frame) (tname : Str) (mask : List Bool) : List (List Str × Bool) :=
  ((List.range df.nrows).filter (fun i => decide (Alone labels i))).map (fun i => (rowKeys df tname i, mask[i]?.getD false))

theorem insertTree_nil {σ : Type} [DecidableEq σ] (t : FPTree σ) (b : Bool) : t.insertTree [] b [] = t := rfl

theorem insertTreeL_some {σ : Type} [DecidableEq σ] (t : FPTree σ) (b : Bool) (l : List σ) : t.insertTreeL (some b) l = .ok (t.insertTree [] b l) := by
  cases l <;> rfl

theorem buildTreeL_eq {ser : ι → Str → List Val → Str} (hser : SeriesText ser) {labels : List ι} {df : Frame} (hn : df.nominal = true)
    (hwf : ∀ c ∈ df.cols, c.2.length = df.nrows) (hlen : labels.length = df.nrows) {target : Str × Str} {mask : List Bool}
    (hmask : targetMask df target = .ok mask) (th : Thresholds) :
    buildTreeL ser labels df target (frequentSelectors th df target.1 mask) =
      .ok (buildTree Selector.dictKey (frequentSelectors th df target.1 mask) (keptRows labels df target.1 mask)) := by
  set d := frequentSelectors th df target.1 mask with hd
  unfold buildTreeL
  unfold targetMask at hmask
  cases hcol : df.col target.1 with
  | error e => rw [hcol] at hmask; cases hmask
  | ok tcol =>
    rw [hcol] at hmask
    simp only [Except.ok.injEq] at hmask
    have hmem : (target.1, tcol) ∈ df.cols := by
      unfold Frame.col at hcol
      cases hl : df.cols.lookup target.1 with
      | none => rw [hl] at hcol; cases hcol
      | some w =>
        rw [hl] at hcol
        cases hcol
        exact mem_of_lookup hl
    have htl : tcol.length = labels.length := by rw [hlen]; exact hwf _ hmem
    simp only
    have step : ∀ (L : List (ι × Nat)), (∀ e ∈ L, labels[e.2]? = some e.1) → ∀ t : FPTree Selector,
        (L.map (·.1)).foldlM (fun (t : FPTree Selector) l =>
          t.insertTreeL (locMatch labels tcol target.2 l)
            (FPTree.sortRow Selector.dictKey d (FPTree.validSelectors d ((otherCols df target.1).map (fun c => locKey ser labels c l))))) t =
        Except.ok ((((L.map (·.2)).filter (fun i => decide (Alone labels i))).map (fun i => (rowKeys df target.1 i, mask[i]?.getD false))).foldl
          (fun t r => t.insertTree [] r.2 (sortRow Selector.dictKey d (validSelectors d r.1))) t) := by
      intro L
      induction L with
      | nil => intro _ t; rfl
      | cons e L ih =>
        intro hL t
        obtain ⟨l, i⟩ := e
        have hli : labels[i]? = some l := hL (l, i) (by simp)
        have hi : i < labels.length := by
          by_contra hh
          rw [List.getElem?_eq_none (by omega)] at hli
          cases hli
        have ih' := ih (fun e he => hL e (by simp [he]))
        rw [List.map_cons, List.foldlM_cons, List.map_cons, List.filter_cons]
        by_cases hA : Alone labels i
        · rw [if_pos (by simpa using hA)]
          have hkeys : (otherCols df target.1).map (fun c => locKey ser labels c l) = rowKeys df target.1 i := by
            unfold rowKeys
            rw [← List.filterMap_eq_map]
            apply List.filterMap_congr
            intro c hc
            have hcm := (List.mem_filter.1 hc).1
            have hcl : c.2.length = labels.length := by rw [hlen]; exact hwf c hcm
            obtain ⟨v, hv⟩ : ∃ v, c.2[i]? = some v := ⟨_, List.getElem?_eq_getElem (by omega)⟩
            simp only [Function.comp_apply, hv, Option.map_some, locKey, locCells_one hcl hli hA hv]
          have hmatch : locMatch labels tcol target.2 l = some (mask[i]?.getD false) := by
            obtain ⟨v, hv⟩ : ∃ v, tcol[i]? = some v := ⟨_, List.getElem?_eq_getElem (by omega)⟩
            rw [← hmask, List.getElem?_map, hv]
            unfold locMatch
            rw [locCells_one htl hli hA hv]
            rfl
          simp only [hkeys, hmatch, insertTreeL_some, List.map_cons, List.foldl_cons]
          exact ih' _
        · rw [if_neg (by simpa using hA)]
          have hkeys : FPTree.validSelectors d ((otherCols df target.1).map (fun c => locKey ser labels c l)) = [] := by
            unfold validSelectors
            rw [List.filterMap_eq_nil_iff]
            intro k hk
            obtain ⟨c, hc, rfl⟩ := List.mem_map.1 hk
            have hcm := (List.mem_filter.1 hc).1
            have hcl : c.2.length = labels.length := by rw [hlen]; exact hwf c hcm
            have : locKey ser labels c l = c.1 ++ ser l c.1 (locCells labels c.2 l) := by
              have hne := locCells_many hcl hli hA
              unfold locKey
              split
              · rename_i v hv; exact absurd hv (hne v)
              · rfl
            rw [this, Option.map_eq_none_iff]
            exact lookup_absent _ _ (lookup_series hser hn th target mask c.1 l c.1 _)
          have hm : ∀ o, FPTree.insertTreeL t o [] = .ok t := by intro o; cases o <;> rfl
          simp only [hkeys]
          rw [show sortRow Selector.dictKey d ([] : List Selector) = [] from rfl, hm]
          exact ih' t
    have h1 := step labels.zipIdx (fun e he => List.mem_zipIdx_iff_getElem?.1 he) FPTree.empty
    rw [List.zipIdx_map_fst, List.zipIdx_map_snd, ← List.range_eq_range', hlen] at h1
    rw [h1]
    rfl

theorem alone_of_nodup {labels : List ι} (h : labels.Nodup) {i : Nat} (hi : i < labels.length) : Alone labels i := by
  intro j hj
  rw [List.getElem?_eq_getElem hi] at hj
  obtain ⟨hj', he⟩ := List.getElem?_eq_some_iff.1 hj
  exact (List.Nodup.getElem_inj_iff h).1 he

theorem keptRows_nodup {labels : List ι} (h : labels.Nodup) {df : Frame} (hlen : labels.length = df.nrows) (tname : Str) (mask : List Bool) :
    keptRows labels df tname mask = keyRows df tname mask := by
  unfold keptRows keyRows
  rw [List.filter_eq_self.2]
  intro i hi
  simpa using alone_of_nodup h (by rw [hlen]; exact List.mem_range.1 hi)


/-! ### the counts -/

/-- number of rows that satisfy `P`, are covered by `X` and have the target -/
noncomputable def Spec.tpAmong (P : Nat → Prop) (df : Frame) (target : Str × Str) (X : List Selector) : Nat :=
  ((List.range df.nrows).filter (fun i => decide (P i ∧ Covers df X i ∧ MatchesAt df (targetSel target) i))).length

/-- number of rows that satisfy `P`, are covered by `X` and do not have the target -/
noncomputable def Spec.fpAmong (P : Nat → Prop) (df : Frame) (target : Str × Str) (X : List Selector) : Nat :=
  ((List.range df.nrows).filter (fun i => decide (P i ∧ Covers df X i ∧ ¬ MatchesAt df (targetSel target) i))).length

theorem wsum_list (L : List Nat) (f : Nat → List Selector) (m : Nat → Bool) (P : List Selector → Prop) :
    wsum (L.map (fun i => (f i, if m i then ((1, 0) : Cnt) else (0, 1)))) P =
      ((L.filter (fun i => decide (P (f i) ∧ m i = true))).length,
       (L.filter (fun i => decide (P (f i) ∧ ¬ m i = true))).length) := by
  induction L with
  | nil => rfl
  | cons i L ih =>
    simp only [List.map_cons, wsum_cons, ih, List.filter_cons]
    by_cases hP : P (f i)
    · cases hm : m i
      · simp [hP, hm, Nat.add_comm]
      · simp [hP, hm, Nat.add_comm]
    · simp [hP]

/-- the transactions of the rows that are inserted -/
noncomputable def keptDB (labels : List ι) (th : Thresholds) (df : Frame) (tname : Str) (mask : List Bool) : DB Selector :=
  ((List.range df.nrows).filter (fun i => decide (Alone labels i))).map (fun i =>
    (sortRow Selector.dictKey (frequentSelectors th df tname mask)
      (validSelectors (frequentSelectors th df tname mask) (rowKeys df tname i)),
     if mask[i]?.getD false then ((1, 0) : Cnt) else (0, 1)))

theorem kept_holds (labels : List ι) (th : Thresholds) (df : Frame) (tname : Str) (mask : List Bool) :
    Holds (buildTree Selector.dictKey (frequentSelectors th df tname mask) (keptRows labels df tname mask)) (keptDB labels th df tname mask) := by
  have h := holds_sortHeader (holds_fold (keptDB labels th df tname mask))
  have heq : buildTree Selector.dictKey (frequentSelectors th df tname mask) (keptRows labels df tname mask) =
      ((keptDB labels th df tname mask).foldl (fun t b => t.insertCond [] b.2.1 b.2.2 b.1) empty).sortHeader := by
    unfold buildTree keptDB keptRows
    rw [List.foldl_map, List.foldl_map]
    congr 2
    funext t i
    rw [insertTree_eq]
    cases mask[i]?.getD false <;> rfl
  rw [heq]
  exact h

theorem keptDB_sub (labels : List ι) (th : Thresholds) (df : Frame) (tname : Str) (mask : List Bool) :
    ∀ r ∈ keptDB labels th df tname mask, r ∈ rootDB th df tname mask := by
  intro r hr
  obtain ⟨i, hi, rfl⟩ := List.mem_map.1 hr
  exact List.mem_map.2 ⟨i, (List.mem_filter.1 hi).1, rfl⟩

variable {df : Frame} {target : Str × Str}

theorem kept_good (labels : List ι) (hf : NominalFrame df target) (hk : KeysFaithful df target) (th : Thresholds) {mask : List Bool}
    (hl : mask.length = df.nrows) (hm : ∀ i, mask[i]? = some true ↔ MatchesAt df (targetSel target) i) :
    Good (InData df target) (.n 0) (rel Selector.dictKey (frequentSelectors th df target.1 mask))
      (buildTree Selector.dictKey (frequentSelectors th df target.1 mask) (keptRows labels df target.1 mask)) (keptDB labels th df target.1 mask) := by
  have g := root_good hf hk th hl hm
  refine ⟨kept_holds labels th df target.1 mask, rfl, ?_, g.asymm, ?_, ?_⟩
  · exact fun r hr => g.inS r (keptDB_sub labels th df target.1 mask r hr)
  · exact fun r hr => g.ordered r (keptDB_sub labels th df target.1 mask r hr)
  · intro s _
    simp only [Thresholds.ok, decide_eq_true_eq]
    omega

theorem supp_keptDB (labels : List ι) (hf : NominalFrame df target) (hk : KeysFaithful df target) (th : Thresholds) {mask : List Bool}
    (hm : ∀ i, mask[i]? = some true ↔ MatchesAt df (targetSel target) i) (X : List Selector)
    (hX : ∀ s ∈ X, s ∈ (frequentSelectors th df target.1 mask).map (·.2.1)) :
    supp (keptDB labels th df target.1 mask) X = (tpAmong (Alone labels) df target X, fpAmong (Alone labels) df target X) := by
  unfold supp keptDB
  rw [wsum_list]
  have hcov : ∀ i, (∀ x ∈ X, x ∈ sortRow Selector.dictKey (frequentSelectors th df target.1 mask)
      (validSelectors (frequentSelectors th df target.1 mask) (rowKeys df target.1 i))) ↔ Covers df X i := by
    intro i
    apply forall_congr'
    intro s
    apply imp_congr_right
    intro hs
    obtain ⟨h1, h2, h3⟩ := rootDict_describes hf hk (hX s hs)
    rw [mem_rootRow hf hk, mem_rowSels_iff hf h1 h2 h3]
    exact ⟨fun h => h.1, fun h => ⟨h, hX s hs⟩⟩
  have hmask : ∀ i, (mask[i]?.getD false) = true ↔ MatchesAt df (targetSel target) i := by
    intro i
    rw [← hm i]
    cases h : mask[i]? <;> simp
  unfold tpAmong fpAmong
  simp only [hcov, hmask, List.filter_filter]
  congr 2
  · apply List.filter_congr
    intro i _
    by_cases h1 : Alone labels i <;> simp [h1]
  · apply List.filter_congr
    intro i _
    by_cases h1 : Alone labels i <;> simp [h1]

/-- what the enumeration hands on when some labels are repeated -/
structure Spec.KeptExact (labels : List ι) (th : Thresholds) (df : Frame) (target : Str × Str) (F : List (Emission Selector)) : Prop where
  sound : ∀ e ∈ F, Describes target e.1 ∧ e.1.Nodup ∧ (∃ i, i < df.nrows ∧ Alone labels i ∧ Covers df e.1 i) ∧
    (∀ s ∈ e.1, Frequent th (tpOf df target [s]) (fpOf df target [s])) ∧
    e.2 = (tpAmong (Alone labels) df target e.1, fpAmong (Alone labels) df target e.1)
  complete : ∀ X, Describes target X → (∃ i, i < df.nrows ∧ Alone labels i ∧ Covers df X i) →
    Frequent th (tpAmong (Alone labels) df target X) (fpAmong (Alone labels) df target X) → ∃ e ∈ F, ∀ x, x ∈ e.1 ↔ x ∈ X
  distinct : F.Pairwise (fun e f => ¬ ∀ x, x ∈ e.1 ↔ x ∈ f.1)

theorem among_le (P : Nat → Prop) (df : Frame) (target : Str × Str) {X Y : List Selector} (h : ∀ s ∈ Y, s ∈ X) :
    tpAmong P df target X ≤ tpOf df target Y ∧ fpAmong P df target X ≤ fpOf df target Y := by
  constructor
  · apply filter_length_mono
    rintro i ⟨_, h2, h3⟩
    exact ⟨fun s hs => h2 s (h s hs), h3⟩
  · apply filter_length_mono
    rintro i ⟨_, h2, h3⟩
    exact ⟨fun s hs => h2 s (h s hs), h3⟩

theorem nominalResultsL_exact {ser : ι → Str → List Val → Str} (hser : SeriesText ser) (labels : List ι)
    {order : FPTree Selector → List Selector} {th : Thresholds}
    (horder : ∀ t : FPTree Selector, t.sorted = t.sortHeader.sorted → (order t).Perm (t.header.map (·.1)))
    (hf : NominalFrame df target) (hk : KeysFaithful df target) (hlen : labels.length = df.nrows) :
    ∃ o, nominalResultsL ser labels order th df target = .ok (o, tpOf df target [], fpOf df target []) ∧
      KeptExact labels th df target (o.getD []) ∧ (o = none ↔ ∀ i < df.nrows, ∀ s, Alone labels i →
        Describes target [s] → Covers df [s] i → ¬ Frequent th (tpOf df target [s]) (fpOf df target [s])) := by
  obtain ⟨mask, h1, hl, hm⟩ := targetMask_ok hf
  have hcount := count_true_mask hf hl hm
  have g := kept_good labels hf hk th hl hm
  have hb := buildTreeL_eq hser (labels := labels) (nominal_of hf) (fun c hc => hf.wf c hc) hlen h1 th
  set d := frequentSelectors th df target.1 mask with hd
  set t := FPTree.buildTree Selector.dictKey d (keptRows labels df target.1 mask) with ht
  have hres : nominalResultsL ser labels order th df target =
      if t.isEmpty then .ok (none, tpOf df target [], fpOf df target [])
      else .ok (some (FPTree.fpgrowth order Selector.dictKey th (t.nodes.length + 1) t []), tpOf df target [], fpOf df target []) := by
    unfold nominalResultsL
    rw [if_neg (by rw [nominal_of hf]; simp), h1]
    simp only [← hd, hb]
    rw [← hcount.2, hcount.1]
  have hin : ∀ X : List Selector, (∀ s ∈ X, s ∈ d.map (·.2.1)) → ∀ i, i < df.nrows → Alone labels i → Covers df X i →
      ∃ r ∈ keptDB labels th df target.1 mask, ∀ x ∈ X, x ∈ r.1 := by
    intro X hX i hi hA hc
    refine ⟨_, List.mem_map.2 ⟨i, List.mem_filter.2 ⟨List.mem_range.2 hi, by simpa using hA⟩, rfl⟩, ?_⟩
    intro x hx
    obtain ⟨b1, b2, b3⟩ := rootDict_describes hf hk (hX x hx)
    rw [mem_rootRow hf hk, mem_rowSels_iff hf b1 b2 b3]
    exact ⟨hc x hx, hX x hx⟩
  have hmemd : ∀ s, Describes target [s] → (∃ i, i < df.nrows ∧ Covers df [s] i) → Frequent th (tpOf df target [s]) (fpOf df target [s]) →
      s ∈ d.map (·.2.1) := by
    intro s hs ho hfr
    rw [mem_rootDict_iff hf hk th hl hm]
    exact ⟨hs.2 s (by simp), ho, (ok_iff_frequent _ _ _).2 hfr⟩
  have hfr1 : ∀ s ∈ d.map (·.2.1), Frequent th (tpOf df target [s]) (fpOf df target [s]) := by
    intro s hs
    exact (ok_iff_frequent _ _ _).1 ((mem_rootDict_iff hf hk th hl hm s).1 hs).2.2
  have hempty : t.isEmpty = true ↔ ∀ i < df.nrows, ∀ s, Alone labels i →
        Describes target [s] → Covers df [s] i → ¬ Frequent th (tpOf df target [s]) (fpOf df target [s]) := by
    rw [isEmpty_iff g.holds]
    constructor
    · intro h i hi s hA hs hc hfr
      obtain ⟨r, hr, hx⟩ := hin [s] (by intro x hx; rw [List.mem_singleton.1 hx]; exact hmemd s hs ⟨i, hi, hc⟩ hfr) i hi hA hc
      have := hx s (by simp)
      rw [h r hr] at this
      simp at this
    · intro h r hr
      by_contra hne
      obtain ⟨s, l, hsl⟩ := List.exists_cons_of_ne_nil hne
      obtain ⟨i, hi, rfl⟩ := List.mem_map.1 hr
      obtain ⟨hi1, hi2⟩ := List.mem_filter.1 hi
      have hs0 : s ∈ (s :: l) := by simp
      rw [← hsl] at hs0
      have hs := (mem_rootRow hf hk th mask i s).1 hs0
      obtain ⟨b1, b2, b3⟩ := rootDict_describes hf hk hs.2
      refine h i (List.mem_range.1 hi1) s (by simpa using hi2) ⟨by simp, ?_⟩ ?_ (hfr1 s hs.2)
      · intro x hx; rw [List.mem_singleton.1 hx]; exact ⟨b1, b2, b3⟩
      · intro x hx; rw [List.mem_singleton.1 hx, ← mem_rowSels_iff hf b1 b2 b3]; exact hs.1
  by_cases hemp : t.isEmpty = true
  · refine ⟨none, by rw [hres, if_pos hemp], ⟨by simp, ?_, by simp⟩, by simpa using hempty.1 hemp⟩
    intro X hX ⟨i, hi, hA, hc⟩ hfr
    exfalso
    obtain ⟨s, X', hs⟩ := List.exists_cons_of_ne_nil hX.1
    have hsX : s ∈ X := by rw [hs]; simp
    have hle := among_le (Alone labels) df target (X := X) (Y := [s]) (by intro x hx; rw [List.mem_singleton.1 hx]; exact hsX)
    exact hempty.1 hemp i hi s hA ⟨by simp, by intro x hx; rw [List.mem_singleton.1 hx]; exact hX.2 s hsX⟩
      (by intro x hx; rw [List.mem_singleton.1 hx]; exact hc s hsX) (frequent_mono hle.1 hle.2 hfr)
  · refine ⟨some (FPTree.fpgrowth order Selector.dictKey th (t.nodes.length + 1) t []), by rw [hres, if_neg hemp], ?_,
      ⟨fun h => (by cases h), fun h => absurd (hempty.2 h) hemp⟩⟩
    have hne : keptDB labels th df target.1 mask ≠ [] := by
      intro hh
      apply hemp
      rw [isEmpty_iff g.holds, hh]
      simp
    have he := fpgrowth_exact2 (th := th) (injOn_dictKey hk) (by intro c _; simp only [Thresholds.ok, decide_eq_true_eq]; omega)
      (order := order) horder (t.nodes.length + 1) g (fun r hr => Nat.lt_succ_of_le (path_le_nodes g.holds r hr)) hne
    refine ⟨?_, ?_, he.distinct⟩
    · intro e hee
      obtain ⟨a1, a2, ⟨r, hr, a3⟩, a4, _⟩ := he.sound e hee
      obtain ⟨i, hi, rfl⟩ := List.mem_map.1 hr
      obtain ⟨hi1, hi2⟩ := List.mem_filter.1 hi
      have hmem : ∀ x ∈ e.1, x ∈ d.map (·.2.1) := fun x hx => ((mem_rootRow hf hk th mask i x).1 (a3 x hx)).2
      rw [supp_keptDB labels hf hk th hm e.1 hmem] at a4
      refine ⟨⟨a1, fun s hs => rootDict_describes hf hk (hmem s hs)⟩, a2, ⟨i, List.mem_range.1 hi1, by simpa using hi2, ?_⟩,
        fun s hs => hfr1 s (hmem s hs), a4⟩
      intro s hs
      obtain ⟨b1, b2, b3⟩ := rootDict_describes hf hk (hmem s hs)
      rw [← mem_rowSels_iff hf b1 b2 b3]
      exact ((mem_rootRow hf hk th mask i s).1 (a3 s hs)).1
    · intro X hX ⟨i, hi, hA, hc⟩ hfr
      have hmem : ∀ s ∈ X, s ∈ d.map (·.2.1) := by
        intro s hsX
        have hle := among_le (Alone labels) df target (X := X) (Y := [s]) (by intro x hx; rw [List.mem_singleton.1 hx]; exact hsX)
        exact hmemd s ⟨by simp, by intro x hx; rw [List.mem_singleton.1 hx]; exact hX.2 s hsX⟩
          ⟨i, hi, by intro x hx; rw [List.mem_singleton.1 hx]; exact hc s hsX⟩ (frequent_mono hle.1 hle.2 hfr)
      apply he.complete X hX.1 (hin X hmem i hi hA hc)
      rw [supp_keptDB labels hf hk th hm X hmem]
      exact (ok_iff_frequent th _ _).2 hfr

end
end Verif
