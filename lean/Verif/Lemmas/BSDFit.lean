import Verif.Lemmas.BSDSearch
/-! BSD: the frequent selectors and their bit arrays. -/
set_option linter.unusedSectionVars false
namespace Verif
open Classical Spec
namespace BSD

variable {cfg : BSDConfig} {df : Frame} {target : Str × Str}

theorem mem_pyUnique (l : List Val) (v : Val) : v ∈ pyUnique l ↔ v ∈ l := by simp [pyUnique]
theorem nodup_pyUnique (l : List Val) : (pyUnique l).Nodup := by
  unfold pyUnique; rw [List.nodup_reverse]; exact List.nodup_dedup _

theorem mem_pairs (hf : NominalFrame df target) (e : (Str × List Val) × Val) :
    e ∈ BitsetBSD.pairs df target.1 ↔ e.1 ∈ df.cols ∧ e.1.1 ≠ target.1 ∧ e.2 ∈ e.1.2 := by
  obtain ⟨c, v⟩ := e
  simp only [BitsetBSD.pairs, List.mem_flatMap, List.mem_filter, mem_otherCols, List.mem_map, mem_pyUnique, Prod.mk.injEq, List.all_eq_true]
  constructor
  · rintro ⟨c', ⟨⟨h1, h2⟩, _⟩, v', h3, rfl, rfl⟩; exact ⟨h1, h2, h3⟩
  · rintro ⟨h1, h2, h3⟩
    refine ⟨c, ⟨⟨h1, h2⟩, fun w hw => ?_⟩, v, h3, rfl, rfl⟩
    obtain ⟨s, rfl⟩ := hf.texts c h1 w hw
    rfl

theorem nodup_pairs (hf : NominalFrame df target) : ((BitsetBSD.pairs df target.1).map itemSel).Nodup := by
  unfold BitsetBSD.pairs
  rw [List.map_flatMap, List.nodup_flatMap]
  constructor
  · intro c _
    rw [List.map_map]
    apply List.Nodup.map_on
    · intro x _ y _ hxy
      simpa [itemSel] using hxy
    · exact nodup_pyUnique _
  · have hnd : ((otherCols df target.1).filter (fun c => c.2.all Val.isStr)).Pairwise (fun c c' => c.1 ≠ c'.1) := by
      have := hf.names
      rw [List.Nodup, List.pairwise_map] at this
      exact this.sublist (List.filter_sublist.trans List.filter_sublist)
    apply hnd.imp
    intro c c' hcc s h1 h2
    simp only [List.map_map, List.mem_map, Function.comp_apply, itemSel] at h1 h2
    obtain ⟨v, _, rfl⟩ := h1
    obtain ⟨v', _, h⟩ := h2
    simp only [Selector.mk.injEq] at h
    exact hcc h.1.symm

theorem pairs_sel (hf : NominalFrame df target) {s : Selector} : s ∈ (BitsetBSD.pairs df target.1).map itemSel ↔ IsSel target s ∧ OccursIn df [s] := by
  rw [← isSel_item hf]
  simp only [List.mem_map, mem_pairs hf, mem_dataItems]

variable {mask : List Bool}

theorem maskOK_getD (hm : MaskOK df target mask) (i : Nat) : (mask[i]?.getD false) = true ↔ MatchesAt df (targetSel target) i := by
  rw [← hm.iff i]
  cases h : mask[i]? <;> simp

theorem rows_pos (hm : MaskOK df target mask) : BitsetBSD.rowsWhere df.nrows mask true = posRows df target := by
  unfold BitsetBSD.rowsWhere posRows
  apply List.filter_congr
  intro i _
  rw [Bool.eq_iff_iff, beq_iff_eq, maskOK_getD hm, decide_eq_true_iff]

theorem rows_neg (hm : MaskOK df target mask) : BitsetBSD.rowsWhere df.nrows mask false = negRows df target := by
  unfold BitsetBSD.rowsWhere negRows
  apply List.filter_congr
  intro i _
  rw [Bool.eq_iff_iff, beq_iff_eq, decide_eq_true_iff, ← maskOK_getD hm, Bool.not_eq_true]

theorem bitsOf_eq (hf : NominalFrame df target) {e : (Str × List Val) × Val} (he : e ∈ BitsetBSD.pairs df target.1) (rows : List Nat) :
    BitsetBSD.bitsOf rows e.1.2 e.2 = bitsFor df rows [itemSel e] := by
  obtain ⟨h1, h2, h3⟩ := (mem_pairs hf e).1 he
  obtain ⟨x, hx⟩ := hf.texts _ h1 _ h3
  have hsel : itemSel e = ⟨e.1.1, .equal, .str x⟩ := by unfold itemSel; rw [hx]
  unfold BitsetBSD.bitsOf bitsFor
  apply List.map_congr_left
  intro i _
  rw [Bool.eq_iff_iff, decide_eq_true_iff, hsel, covers_item hf h1, hx]
  cases hi : e.1.2[i]? with
  | none => simp
  | some w =>
    obtain ⟨y, rfl⟩ := hf.texts _ h1 w (List.mem_of_getElem? hi)
    simp [Val.eq]

/-- the selectors with their numbers of positive rows, before the sort -/
noncomputable def freqItems (cfg : BSDConfig) (df : Frame) (target : Str × Str) : List (Selector × Nat) :=
  ((BitsetBSD.pairs df target.1).map (fun e => (itemSel e, tpOf df target [itemSel e]))).filter (fun e => decide ((e.2 : Rat) ≥ cfg.minSupport))

theorem frequent_eq (hf : NominalFrame df target) (hm : MaskOK df target mask) :
    BitsetBSD.frequent cfg.minSupport df target.1 mask = (stableSort (fun a b : Selector × Nat => decide (b.2 ≤ a.2)) (freqItems cfg df target)).map (·.1) := by
  unfold BitsetBSD.frequent freqItems
  congr 3
  apply List.map_congr_left
  intro e he
  rw [rows_pos hm, bitsOf_eq hf he, ones_bitsFor_pos]
  rfl

/-- the frequent selectors -/
structure FreqSpec (minSupport : Rat) (df : Frame) (target : Str × Str) (F : List Selector) : Prop where
  mem : ∀ s, s ∈ F ↔ IsSel target s ∧ OccursIn df [s] ∧ minSupport ≤ (tpOf df target [s] : Rat)
  nodup : F.Nodup
  sorted : F.Pairwise (fun a b => tpOf df target [b] ≤ tpOf df target [a])

theorem frequent_spec (hf : NominalFrame df target) (hm : MaskOK df target mask) :
    FreqSpec cfg.minSupport df target (BitsetBSD.frequent cfg.minSupport df target.1 mask) := by
  rw [frequent_eq hf hm]
  have hp : (stableSort (fun a b : Selector × Nat => decide (b.2 ≤ a.2)) (freqItems cfg df target)).Perm (freqItems cfg df target) := stableSort_perm _
  have hit : ∀ e ∈ freqItems cfg df target, e.2 = tpOf df target [e.1] := by
    intro e he
    obtain ⟨p, _, rfl⟩ := List.mem_map.1 (List.mem_of_mem_filter he)
    rfl
  refine ⟨?_, ?_, ?_⟩
  · intro s
    rw [(hp.map _).mem_iff, List.mem_map]
    constructor
    · rintro ⟨e, he, rfl⟩
      obtain ⟨h1, h2⟩ := List.mem_filter.1 he
      obtain ⟨p, hp', rfl⟩ := List.mem_map.1 h1
      have := (pairs_sel hf).1 (List.mem_map_of_mem hp')
      exact ⟨this.1, this.2, by simpa using h2⟩
    · rintro ⟨h1, h2, h3⟩
      obtain ⟨p, hp', rfl⟩ := List.mem_map.1 ((pairs_sel hf).2 ⟨h1, h2⟩)
      exact ⟨_, List.mem_filter.2 ⟨List.mem_map_of_mem hp', by simpa using h3⟩, rfl⟩
  · rw [(hp.map _).nodup_iff]
    unfold freqItems
    have h0 := nodup_pairs (df := df) hf
    have : (((BitsetBSD.pairs df target.1).map (fun e => (itemSel e, tpOf df target [itemSel e]))).map (·.1)).Nodup := by
      rw [List.map_map]; exact h0
    exact this.sublist (List.filter_sublist.map _)
  · rw [List.pairwise_map]
    have hs := pairwise_stableSort (le := fun a b : Selector × Nat => decide (b.2 ≤ a.2)) (fun a b c h1 h2 => by
      simp only [decide_eq_true_iff] at *; omega) (fun a b => by simp only [Bool.or_eq_true, decide_eq_true_iff]; omega) (freqItems cfg df target)
    refine hs.imp_of_mem ?_
    intro a b ha hb h
    rw [decide_eq_true_iff, hit a (hp.mem_iff.1 ha), hit b (hp.mem_iff.1 hb)] at h
    exact h

theorem dict_lookup_set {V : Type} (d : Dict V) (k k' : Str) (v : V) : (d.set k v).lookup k' = if k' = k then some v else d.lookup k' := by
  unfold Dict.set
  by_cases h : d.any (fun e => e.1 == k) = true
  · rw [if_pos h]
    have : ∀ d : Dict V, List.lookup k' (d.map (fun e => if e.1 == k then (k, v) else e)) = if k' = k then (if d.any (fun e => e.1 == k) then some v else none) else d.lookup k' := by
      intro d
      clear h
      induction d with
      | nil => simp
      | cons e d ih =>
        obtain ⟨a, w⟩ := e
        rw [List.map_cons]
        by_cases ha : a = k
        · subst ha
          simp only [beq_self_eq_true, if_true, List.any_cons, Bool.true_or, List.lookup_cons]
          by_cases h2 : k' = a
          · simp [h2]
          · rw [if_neg h2, beq_false_of_ne h2]; simp only; rw [ih, if_neg h2]
        · have hak : (a == k) = false := beq_false_of_ne ha
          simp only [hak, Bool.false_eq_true, if_false, List.any_cons, Bool.false_or, List.lookup_cons]
          by_cases h2 : k' = a
          · subst h2; simp [ha]
          · rw [beq_false_of_ne h2]; simp only; exact ih
    rw [this d, if_pos h]
  · rw [if_neg h]
    have hno : ∀ e ∈ d, e.1 ≠ k := by
      intro e he hk
      exact h (List.any_eq_true.2 ⟨e, he, by simp [hk]⟩)
    clear h
    induction d with
    | nil =>
      by_cases h2 : k' = k
      · simp [h2]
      · simp [List.lookup_cons, h2, beq_false_of_ne h2]
    | cons e d ih =>
      obtain ⟨a, w⟩ := e
      rw [List.cons_append, List.lookup_cons, List.lookup_cons]
      by_cases h2 : k' = a
      · subst h2
        have : k' ≠ k := hno (k', w) (by simp)
        simp [this]
      · rw [beq_false_of_ne h2]
        exact ih (fun e he => hno e (by simp [he]))

theorem key_eq {s : Selector} (hs : TextEq s) : BitsetBSD.key s = '[' :: (s.str ++ c!"]") := by
  unfold BitsetBSD.key
  have : (Pattern.new [s]).sels = [s] := by
    have hX : ∀ t ∈ [s], TextEq t := by intro t ht; rw [List.mem_singleton.1 ht]; exact hs
    obtain ⟨h1, h2⟩ := new_text hX
    exact sorted_ext h1 (by simp [Pattern.Sorted]) (fun t ht => hX t ((h2 t).1 ht)) h2
  unfold Pattern.str
  rw [this]
  rfl

theorem build_lookup (l : List ((Str × List Val) × Val)) (rp rn : List Nat) (d : Dict Bits × Dict Bits)
    (hk : l.Pairwise (fun e e' => BitsetBSD.key (itemSel e) ≠ BitsetBSD.key (itemSel e')))
    : (∀ e ∈ l, (l.foldl (fun d e => (d.1.set (BitsetBSD.key ⟨e.1.1, .equal, e.2⟩) (BitsetBSD.bitsOf rp e.1.2 e.2),
        d.2.set (BitsetBSD.key ⟨e.1.1, .equal, e.2⟩) (BitsetBSD.bitsOf rn e.1.2 e.2))) d).1.lookup (BitsetBSD.key (itemSel e)) = some (BitsetBSD.bitsOf rp e.1.2 e.2) ∧
      (l.foldl (fun d e => (d.1.set (BitsetBSD.key ⟨e.1.1, .equal, e.2⟩) (BitsetBSD.bitsOf rp e.1.2 e.2),
        d.2.set (BitsetBSD.key ⟨e.1.1, .equal, e.2⟩) (BitsetBSD.bitsOf rn e.1.2 e.2))) d).2.lookup (BitsetBSD.key (itemSel e)) = some (BitsetBSD.bitsOf rn e.1.2 e.2)) ∧
      ∀ k, (∀ e ∈ l, k ≠ BitsetBSD.key (itemSel e)) →
        (l.foldl (fun d e => (d.1.set (BitsetBSD.key ⟨e.1.1, .equal, e.2⟩) (BitsetBSD.bitsOf rp e.1.2 e.2),
          d.2.set (BitsetBSD.key ⟨e.1.1, .equal, e.2⟩) (BitsetBSD.bitsOf rn e.1.2 e.2))) d).1.lookup k = d.1.lookup k ∧
        (l.foldl (fun d e => (d.1.set (BitsetBSD.key ⟨e.1.1, .equal, e.2⟩) (BitsetBSD.bitsOf rp e.1.2 e.2),
          d.2.set (BitsetBSD.key ⟨e.1.1, .equal, e.2⟩) (BitsetBSD.bitsOf rn e.1.2 e.2))) d).2.lookup k = d.2.lookup k := by
  induction l generalizing d with
  | nil => simp
  | cons e l ih =>
    obtain ⟨h1, h2⟩ := List.pairwise_cons.1 hk
    obtain ⟨i1, i2⟩ := ih (d.1.set (BitsetBSD.key ⟨e.1.1, .equal, e.2⟩) (BitsetBSD.bitsOf rp e.1.2 e.2), d.2.set (BitsetBSD.key ⟨e.1.1, .equal, e.2⟩) (BitsetBSD.bitsOf rn e.1.2 e.2)) h2
    simp only [List.foldl_cons]
    constructor
    · intro e' he'
      rcases List.mem_cons.1 he' with rfl | he'
      · obtain ⟨j1, j2⟩ := i2 (BitsetBSD.key (itemSel e')) h1
        rw [j1, j2]
        simp only [dict_lookup_set]
        exact ⟨if_pos rfl, if_pos rfl⟩
      · exact i1 e' he'
    · intro k hkk
      obtain ⟨j1, j2⟩ := i2 k (fun e' he' => hkk e' (by simp [he']))
      have : k ≠ BitsetBSD.key ⟨e.1.1, .equal, e.2⟩ := hkk e (by simp)
      rw [j1, j2]
      simp only [dict_lookup_set]
      exact ⟨if_neg this, if_neg this⟩

/-- the bit arrays of the selectors of `F` are exact -/
theorem build_spec (hf : NominalFrame df target) (hm : MaskOK df target mask) (ht : TextsFaithful df target) {F : List Selector}
    (hF : ∀ s ∈ F, IsSel target s ∧ OccursIn df [s]) : BitsOK (BitsetBSD.build df target.1 mask F) df target F := by
  have hlook : ∀ s ∈ F, (BitsetBSD.build df target.1 mask F).1.lookup (BitsetBSD.key s) = some (bitsFor df (posRows df target) [s]) ∧
      (BitsetBSD.build df target.1 mask F).2.lookup (BitsetBSD.key s) = some (bitsFor df (negRows df target) [s]) := by
    intro s hs
    obtain ⟨e, he, rfl⟩ := List.mem_map.1 ((pairs_sel hf).2 (hF s hs))
    unfold BitsetBSD.build
    have hmem : e ∈ (BitsetBSD.pairs df target.1).filter (fun e => F.any (fun t => (⟨e.1.1, .equal, e.2⟩ : Selector).eq t)) := by
      refine List.mem_filter.2 ⟨he, List.any_eq_true.2 ⟨_, hs, (Selector.eq_iff_key _ _).2 rfl⟩⟩
    have hpw : ((BitsetBSD.pairs df target.1).filter (fun e => F.any (fun t => (⟨e.1.1, .equal, e.2⟩ : Selector).eq t))).Pairwise
        (fun e e' => BitsetBSD.key (itemSel e) ≠ BitsetBSD.key (itemSel e')) := by
      have hnd := nodup_pairs (df := df) hf
      rw [List.Nodup, List.pairwise_map] at hnd
      refine (hnd.sublist List.filter_sublist).imp_of_mem ?_
      intro a b ha hb hne hk
      apply hne
      obtain ⟨a1, a2⟩ := (pairs_sel hf).1 (List.mem_map_of_mem (List.mem_of_mem_filter ha))
      obtain ⟨b1, b2⟩ := (pairs_sel hf).1 (List.mem_map_of_mem (List.mem_of_mem_filter hb))
      refine ht _ _ ⟨by simp, by simpa [IsSel] using a1⟩ ⟨by simp, by simpa [IsSel] using b1⟩ a2 b2 ?_
      rw [key_eq a1.2, key_eq b1.2] at hk
      simpa using hk
    have := (build_lookup _ (BitsetBSD.rowsWhere df.nrows mask true) (BitsetBSD.rowsWhere df.nrows mask false) ([], []) hpw).1 e hmem
    rw [bitsOf_eq hf he, bitsOf_eq hf he, rows_pos hm, rows_neg hm] at this
    rw [rows_pos hm, rows_neg hm]
    exact this
  refine ⟨fun s hs => (hF s hs).1, fun s hs => ?_, fun s hs => ?_⟩
  · unfold BitsetBSD.get; rw [(hlook s hs).1]
  · unfold BitsetBSD.get; rw [(hlook s hs).2]

/-! ## `fit` -/

theorem stOK_fresh : StOK cfg df target BSDState.fresh := by
  refine ⟨⟨Or.inl rfl, by simp [BSDState.fresh]⟩, ?_⟩
  intro e he
  have : realEntries BSDState.fresh.k = [] := realEntries_dummy
  rw [this] at he; simp at he

theorem lines_eq {num len : Nat} {k : List BSDEntry} (hk : KInv num len k) (TP FP : Nat) :
    BSDConfig.lines target TP FP k = (realEntries k).map (fun e => ⟨⟨e.pat, targetSel target⟩, e.quality, e.tp, e.fp, TP, FP⟩) := by
  unfold BSDConfig.lines
  have : k.filter (fun e => decide (e.quality ≠ -99999)) = realEntries k := by
    rcases hk.shape with rfl | ⟨_, _, h⟩
    · rfl
    · rw [realEntries_of h, List.filter_eq_self]
      intro e he
      exact decide_eq_true (ne_of_gt (h e he).2.2)
  rw [this]; rfl

theorem selected_eq {num len : Nat} {k k' : List BSDEntry} {e0 : BSDEntry} (hk : KInv num len k) (he : k = e0 :: k') :
    (if e0.quality = -99999 then k.length - 1 else k.length) = (realEntries k).length := by
  rcases hk.shape with h | ⟨_, _, h⟩
  · rw [h] at he
    cases he
    rw [h, realEntries_dummy]; rfl
  · rw [realEntries_of h, if_neg (ne_of_gt (h e0 (by rw [he]; simp)).2.2)]

theorem fit_spec (hn : 0 < cfg.num) (ha : BSDAbove cfg df target) (hf : NominalFrame df target) (ht : TextsFaithful df target)
    (st : BSDState) (hst : StOK cfg df target st) :
    (∀ st', cfg.fit st df target = .ok st' → ∃ F es st1, FreqSpec cfg.minSupport df target F ∧
      SearchSpec cfg df target cfg.maxDepth ⟨[]⟩ F st st1 es ∧
      st' = { st1 with
        selected := (realEntries st1.k).length
        file := (realEntries st1.k).map (fun e => ⟨⟨e.pat, targetSel target⟩, e.quality, e.tp, e.fp, tpOf df target [], fpOf df target []⟩) }) ∧
    (BSDNoErr cfg df target → ∃ st', cfg.fit st df target = .ok st') := by
  obtain ⟨mask, hm0, hm1, hm2⟩ := targetMask_ok hf
  have hm : MaskOK df target mask := ⟨hm1, hm2⟩
  obtain ⟨hc1, hc2⟩ := count_true_mask hf hm1 hm2
  have hF := frequent_spec (cfg := cfg) hf hm
  have hB := build_spec hf hm ht (F := BitsetBSD.frequent cfg.minSupport df target.1 mask) (fun s hs => ⟨((hF.mem s).1 hs).1, ((hF.mem s).1 hs).2.1⟩)
  obtain ⟨s1, s2⟩ := search_spec hn ha hB cfg.maxDepth ⟨[]⟩ (BitsetBSD.frequent cfg.minSupport df target.1 mask) st ⟨by simp [Pattern.Sorted], by simp⟩ (fun s h => h) hF.nodup (by simp) hst
  simp only [bitsFor_nil] at s1 s2
  unfold BSDConfig.fit
  rw [nominal_of hf]
  simp only [Bool.not_true, Bool.false_eq_true, if_false]
  rw [hm0]
  simp only
  rw [hc2, hc1, rows_pos hm, rows_neg hm]
  constructor
  · intro st' h
    cases hs : cfg.search (BitsetBSD.build df target.1 mask (BitsetBSD.frequent cfg.minSupport df target.1 mask)) (tpOf df target []) (fpOf df target []) cfg.maxDepth ⟨[]⟩
        (BitsetBSD.frequent cfg.minSupport df target.1 mask) (List.replicate (posRows df target).length true) (List.replicate (negRows df target).length true) st with
    | error e => rw [hs] at h; cases h
    | ok st1 =>
      rw [hs] at h
      simp only at h
      obtain ⟨es, hS⟩ := s1 st1 hs
      have hok := run_ok hn ha hS.run hst hS.exact
      cases hk : st1.k with
      | nil => rw [hk] at h; cases h
      | cons e0 k' =>
        rw [hk] at h
        simp only at h
        cases h
        refine ⟨_, es, st1, hF, hS, ?_⟩
        rw [← selected_eq hok.inv hk, ← lines_eq hok.inv, hk]
  · intro hno
    obtain ⟨st1, hs⟩ := s2 hno
    obtain ⟨es, hS⟩ := s1 st1 hs
    have hok := run_ok hn ha hS.run hst hS.exact
    rw [hs]
    simp only
    cases hk : st1.k with
    | nil =>
      rcases hok.inv.shape with h | ⟨h, _⟩
      · rw [h] at hk; cases hk
      · exact absurd hk h
    | cons e0 k' => exact ⟨_, rfl⟩

/-! ## domination in terms of rows -/

theorem bitsIn_map {rows : List Nat} {f g : Nat → Bool} : BitsIn (rows.map f) (rows.map g) ↔ ∀ i ∈ rows, f i = true → g i = true := by
  unfold BitsIn
  constructor
  · intro h i hi hf
    obtain ⟨n, hn, rfl⟩ := List.mem_iff_getElem.1 hi
    have := h n (by rw [Bits.get_lt _ _ (by simpa using hn)]; simpa using hf)
    rw [Bits.get_lt _ _ (by simpa using hn)] at this
    simpa using this
  · intro h n hn
    by_cases hl : n < rows.length
    · rw [Bits.get_lt _ _ (by simpa using hl)] at hn ⊢
      simp only [List.getElem_map] at hn ⊢
      exact h _ (List.getElem_mem _) hn
    · rw [Bits.get_ge _ _ (by simpa using Nat.le_of_not_lt hl)] at hn
      cases hn

theorem dominated_iff {a b : BSDEntry} (ha : ExactEntry cfg df target a) (hb : ExactEntry cfg df target b) :
    Dominated (nP df target) a b ↔ RowDominated df target a.pat.sels b.pat.sels := by
  have t1 : ∀ {e : BSDEntry}, ExactEntry cfg df target e → e.bits.take (nP df target) = bitsFor df (posRows df target) e.pat.sels := by
    intro e he; rw [he.bits, List.take_left' (length_bitsFor _ _)]
  have t2 : ∀ {e : BSDEntry}, ExactEntry cfg df target e → e.bits.drop (nP df target) = bitsFor df (negRows df target) e.pat.sels := by
    intro e he; rw [he.bits, List.drop_left' (length_bitsFor _ _)]
  unfold Dominated RowDominated
  rw [t1 ha, t1 hb, t2 ha, t2 hb]
  unfold bitsFor
  rw [bitsIn_map, bitsIn_map]
  simp only [posRows, negRows, List.mem_filter, List.mem_range, decide_eq_true_iff, and_imp]

theorem rowDominated_counts {X Y : List Selector} (h : RowDominated df target X Y) :
    tpOf df target X ≤ tpOf df target Y ∧ fpOf df target Y ≤ fpOf df target X := by
  unfold tpOf fpOf
  have aux : ∀ (P Q : Nat → Prop) [DecidablePred P] [DecidablePred Q], (∀ i, i < df.nrows → P i → Q i) →
      ((List.range df.nrows).filter (fun i => decide (P i))).length ≤ ((List.range df.nrows).filter (fun i => decide (Q i))).length := by
    intro P Q _ _ hPQ
    rw [← List.countP_eq_length_filter, ← List.countP_eq_length_filter]
    apply List.countP_mono_left
    intro i hi hp
    rw [decide_eq_true_iff] at hp ⊢
    exact hPQ i (List.mem_range.1 hi) hp
  exact ⟨aux (fun i => Covers df X i ∧ MatchesAt df (targetSel target) i) (fun i => Covers df Y i ∧ MatchesAt df (targetSel target) i) (fun i hi hh => ⟨h.1 i hi hh.2 hh.1, hh.2⟩),
    aux (fun i => Covers df Y i ∧ ¬ MatchesAt df (targetSel target) i) (fun i => Covers df X i ∧ ¬ MatchesAt df (targetSel target) i) (fun i hi hh => ⟨h.2 i hi hh.2 hh.1, hh.2⟩)⟩

end BSD
end Verif
