import Verif.Spec.IDSD
import Verif.Lemmas.IDSDTop
import Verif.Lemmas.BSDFit
/-! IDSD: the appearances and the credibility of a pattern are those of the rows. -/
namespace Verif.IDSD
open Classical Spec BSD

section
variable {df : Frame} {target : Str × Str} {mask : List Bool}

/-- the rows covered by a set of selectors, as a bit per row -/
noncomputable def covBits (df : Frame) (X : List Selector) : Bits := (List.range df.nrows).map (fun i => decide (Covers df X i))

theorem covBits_length (X : List Selector) : (covBits df X).length = df.nrows := by simp [covBits]

theorem covBits_getD (X : List Selector) (i : Nat) : (covBits df X).getD i false = true ↔ i < df.nrows ∧ Covers df X i := by
  by_cases h : i < df.nrows
  · simp [covBits, List.getD, h]
  · simp only [covBits, List.getD, h, false_and, iff_false]
    rw [List.getElem?_eq_none (by simp; omega)]
    simp

theorem covBits_congr {X Y : List Selector} (h : ∀ s, s ∈ X ↔ s ∈ Y) : covBits df X = covBits df Y := by
  unfold covBits
  apply List.map_congr_left
  intro i _
  rw [decide_eq_decide]
  exact covers_congr h i

theorem alignAnd_covBits (X Y : List Selector) : (covBits df X).alignAnd (covBits df Y) = covBits df (X ++ Y) := by
  apply List.ext_getElem?
  intro i
  by_cases h : i < df.nrows
  · simp only [Bits.alignAnd, covBits_length, max_self, List.getElem?_map]
    rw [List.getElem?_range h, Option.map_some]
    have : (covBits df (X ++ Y))[i]? = some (decide (Covers df (X ++ Y) i)) := by simp [covBits, h]
    rw [this]
    congr 1
    rw [Bool.eq_iff_iff, Bool.and_eq_true, covBits_getD, covBits_getD, decide_eq_true_eq]
    simp only [h, true_and, Covers, List.mem_append]
    constructor
    · rintro ⟨h1, h2⟩ s (hs | hs)
      · exact h1 s hs
      · exact h2 s hs
    · intro hh; exact ⟨fun s hs => hh s (.inl hs), fun s hs => hh s (.inr hs)⟩
  · rw [List.getElem?_eq_none (by simp [Bits.alignAnd, covBits_length]; omega), List.getElem?_eq_none (by rw [covBits_length]; omega)]

theorem replicate_eq_covBits : List.replicate df.nrows true = covBits df [] := by
  apply List.ext_getElem?
  intro i
  by_cases h : i < df.nrows
  · simp [covBits, h, Covers]
  · rw [List.getElem?_eq_none (by simp; omega), List.getElem?_eq_none (by rw [covBits_length]; omega)]

theorem ones_covBits (X : List Selector) : (covBits df X).ones = tpOf df target X + fpOf df target X := by
  rw [Bits.ones_eq, covBits_length, tpOf_cnt, fpOf_cnt]
  unfold cnt
  have := filter_split (List.range df.nrows) (fun i => Covers df X i) (fun i => MatchesAt df (targetSel target) i)
  have e : ((List.range df.nrows).filter (fun i => (covBits df X).getD i false)).length =
      ((List.range df.nrows).filter (fun i => decide (Covers df X i))).length := by
    congr 1
    apply List.filter_congr
    intro i hi
    rw [Bool.eq_iff_iff, covBits_getD, decide_eq_true_eq]
    simp [List.mem_range.1 hi]
  rw [e]
  refine Eq.trans this.symm ?_
  congr 2 <;> (apply List.filter_congr; intro i _; rw [decide_eq_decide])

theorem mask_getD (hm : MaskOK df target mask) (i : Nat) : mask.getD i false = true ↔ MatchesAt df (targetSel target) i := by
  rw [← maskOK_getD hm i]; rfl

theorem ones_mask_covBits (hm : MaskOK df target mask) (X : List Selector) :
    (Bits.alignAnd mask (covBits df X)).ones = tpOf df target X := by
  rw [Bits.ones_eq, Bits.alignAnd_length, covBits_length, hm.len, max_self, tpOf_cnt]
  unfold cnt
  congr 1
  apply List.filter_congr
  intro i hi
  rw [Bits.alignAnd_getD, Bool.eq_iff_iff, Bool.and_eq_true, covBits_getD, mask_getD hm]
  simp only [List.mem_range.1 hi, true_and, decide_eq_true_eq]
  tauto

theorem not_getD (hm : MaskOK df target mask) {i : Nat} (hi : i < df.nrows) : (Bits.not mask).getD i false = true ↔ ¬ MatchesAt df (targetSel target) i := by
  rw [← mask_getD hm]
  have : i < mask.length := by rw [hm.len]; exact hi
  simp [Bits.not, List.getD, this]

theorem ofBits_covBits (hm : MaskOK df target mask) (X : List Selector) :
    OddsRatioStatistic.ofBits (covBits df X) mask = oddsOf df target X := by
  have hnl : (Bits.not mask).length = df.nrows := by simp [Bits.not, hm.len]
  have hc : ∀ i, Covers df [] i := fun i s hs => by simp at hs
  unfold OddsRatioStatistic.ofBits oddsOf
  congr 2
  · rw [Bits.ones_eq, Bits.alignAnd_length, covBits_length, hm.len, max_self, tpOf_cnt]
    unfold cnt
    congr 1
    apply List.filter_congr
    intro i hi
    rw [Bits.alignAnd_getD, Bool.eq_iff_iff, Bool.and_eq_true, covBits_getD, mask_getD hm]
    simp only [List.mem_range.1 hi, true_and, decide_eq_true_eq]
  · rw [Bits.ones_eq, Bits.alignAnd_length, covBits_length, hnl, max_self, fpOf_cnt]
    unfold cnt
    congr 1
    apply List.filter_congr
    intro i hi
    rw [Bits.alignAnd_getD, Bool.eq_iff_iff, Bool.and_eq_true, covBits_getD, not_getD hm (List.mem_range.1 hi)]
    simp only [List.mem_range.1 hi, true_and, decide_eq_true_eq]
  · rw [Bits.ones_eq, hm.len, tpOf_cnt]
    unfold cnt
    congr 1
    apply List.filter_congr
    intro i hi
    rw [Bool.eq_iff_iff, mask_getD hm]
    simp [hc]
  · rw [Bits.ones_eq, hnl, fpOf_cnt]
    unfold cnt
    congr 1
    apply List.filter_congr
    intro i hi
    rw [Bool.eq_iff_iff, not_getD hm (List.mem_range.1 hi)]
    simp [hc]

/-! ### selectors and appearances -/

theorem selectorPairs_eq (hf : NominalFrame df target) :
    selectorPairs df target.1 = (BitsetBSD.pairs df target.1).map (fun e => (itemSel e, e.1.2.map (fun x => x.eq e.2))) := by
  have h : (otherCols df target.1).filter (fun c => c.2.all Val.isStr) = otherCols df target.1 := by
    rw [List.filter_eq_self]
    intro c hc
    rw [List.all_eq_true]
    intro v hv
    obtain ⟨s, rfl⟩ := hf.texts c ((mem_otherCols c).1 hc).1 v hv
    rfl
  unfold selectorPairs BitsetBSD.pairs
  rw [h, List.map_flatMap]
  simp only [List.map_map]
  rfl

theorem sels_eq (hf : NominalFrame df target) : (selectorPairs df target.1).map (·.1) = (BitsetBSD.pairs df target.1).map itemSel := by
  rw [selectorPairs_eq hf, List.map_map]; rfl

theorem item_bits (hf : NominalFrame df target) {e : (Str × List Val) × Val} (he : e ∈ BitsetBSD.pairs df target.1) :
    e.1.2.map (fun x => x.eq e.2) = covBits df [itemSel e] := by
  obtain ⟨h1, h2, h3⟩ := (mem_pairs hf e).1 he
  obtain ⟨v, hv⟩ := hf.texts _ h1 _ h3
  apply List.ext_getElem?
  intro i
  by_cases h : i < df.nrows
  · have hl : i < e.1.2.length := by rw [hf.wf _ h1]; exact h
    have e1 : (covBits df [itemSel e])[i]? = some (decide (Covers df [itemSel e] i)) := by simp [covBits, h]
    rw [e1, List.getElem?_map, List.getElem?_eq_getElem hl, Option.map_some]
    congr 1
    rw [Bool.eq_iff_iff, decide_eq_true_eq]
    have : itemSel e = ⟨e.1.1, .equal, .str v⟩ := by simp [itemSel, hv]
    rw [this, covers_item hf h1, hv, List.getElem?_eq_getElem hl]
    obtain ⟨w, hw⟩ := hf.texts _ h1 _ (List.getElem_mem hl)
    rw [hw]
    simp [Val.eq]
  · rw [List.getElem?_eq_none (by simp [hf.wf _ h1]; omega), List.getElem?_eq_none (by rw [covBits_length]; omega)]

/-- the dictionary of the appearances after `_generate_selectors` of a new object -/
theorem setApp_fold {l d : List (Selector × Bits)} (h : ((d ++ l).map (·.1)).Nodup) : l.foldl (fun d e => setApp d e.1 e.2) d = d ++ l := by
  induction l generalizing d with
  | nil => simp
  | cons e l ih =>
    rw [List.foldl_cons]
    have hn : ¬ ((d.map (·.1)).contains e.1 = true) := by
      rw [List.contains_iff_mem]
      intro hmem
      rw [List.map_append, List.nodup_append] at h
      exact h.2.2 e.1 hmem e.1 (by simp) rfl
    have : setApp d e.1 e.2 = d ++ [e] := by
      unfold setApp
      rw [if_neg hn]
    rw [this, ih (by simpa using h)]
    simp

theorem lookup_pairs (hf : NominalFrame df target) {s : Selector} (hs : s ∈ (selectorPairs df target.1).map (·.1)) :
    (selectorPairs df target.1).lookup s = some (covBits df [s]) := by
  rw [sels_eq hf] at hs
  obtain ⟨e, he, rfl⟩ := List.mem_map.1 hs
  apply lookup_of_mem_nodup
  · rw [sels_eq hf]; exact nodup_pairs hf
  · rw [selectorPairs_eq hf, List.mem_map]
    exact ⟨e, he, by rw [item_bits hf he]⟩

theorem nodup_sels (hf : NominalFrame df target) : ((selectorPairs df target.1).map (·.1)).Nodup := by
  rw [sels_eq hf]; exact nodup_pairs hf

theorem mem_sels (hf : NominalFrame df target) {s : Selector} :
    s ∈ (selectorPairs df target.1).map (·.1) ↔ IsSel target s ∧ OccursIn df [s] := by rw [sels_eq hf]; exact pairs_sel hf

/-- the dictionary of the appearances holds those of the data, and its first key has at least as many rows as the data -/
structure AppsOK (df : Frame) (target : Str × Str) (A : List (Selector × Bits)) : Prop where
  lookup : ∀ s ∈ (selectorPairs df target.1).map (·.1), A.lookup s = some (covBits df [s])
  first : ∀ a ∈ A.head?, df.nrows ≤ a.2.length

theorem appearance_getD {A : List (Selector × Bits)} {Y : List Selector} (h : ∀ s ∈ Y, A.lookup s = some (covBits df [s])) (acc : Bits) :
    ∃ b, SelectorContribution.appearance A Y acc = .ok b ∧
      ∀ i, b.getD i false = true ↔ acc.getD i false = true ∧ (Y ≠ [] → i < df.nrows) ∧ Covers df Y i := by
  induction Y generalizing acc with
  | nil => exact ⟨acc, rfl, fun i => by simp [Covers]⟩
  | cons s Y ih =>
    obtain ⟨b, h1, h2⟩ := ih (fun t ht => h t (by simp [ht])) (acc.alignAnd (covBits df [s]))
    refine ⟨b, ?_, ?_⟩
    · rw [SelectorContribution.appearance, h s (by simp)]; exact h1
    · intro i
      rw [h2, Bits.alignAnd_getD, Bool.and_eq_true, covBits_getD]
      simp only [Covers, List.mem_cons, List.not_mem_nil, or_false, forall_eq, ne_eq, reduceCtorEq, not_false_eq_true, forall_const, forall_eq_or_imp]
      tauto

theorem ones_congr {a b : Bits} (h : ∀ i, a.getD i false = b.getD i false) : a.ones = b.ones := by
  have key : ∀ (a : Bits) (n : Nat), a.length ≤ n → a.ones = ((List.range n).filter (fun i => a.getD i false)).length := by
    intro a n hn
    rw [Bits.ones_eq]
    obtain ⟨k, rfl⟩ := Nat.exists_eq_add_of_le hn
    rw [List.range_add, List.filter_append, List.length_append]
    have : (List.map (fun x => a.length + x) (List.range k)).filter (fun i => a.getD i false) = [] := by
      rw [List.filter_eq_nil_iff]
      intro i hi
      obtain ⟨j, _, rfl⟩ := List.mem_map.1 hi
      rw [Bits.getD_eq_false_of_le (by omega)]
      simp
    rw [this]
    simp
  rw [key a (max a.length b.length) (by omega), key b (max a.length b.length) (by omega)]
  congr 1
  apply List.filter_congr
  intro i _
  exact h i

theorem ofBits_congr {a b : Bits} (h : ∀ i, a.getD i false = b.getD i false) (t : Bits) :
    OddsRatioStatistic.ofBits a t = OddsRatioStatistic.ofBits b t := by
  unfold OddsRatioStatistic.ofBits
  rw [ones_congr (a := a.alignAnd t) (b := b.alignAnd t) (fun i => by rw [Bits.alignAnd_getD, Bits.alignAnd_getD, h]),
    ones_congr (a := a.alignAnd t.not) (b := b.alignAnd t.not) (fun i => by rw [Bits.alignAnd_getD, Bits.alignAnd_getD, h])]

/-- the odds ratio computed from the appearances is the one of the rows -/
theorem appearanceOr_eq (hm : MaskOK df target mask) {A : List (Selector × Bits)} (hA : AppsOK df target A) {p : Pattern}
    (hp : ∀ s ∈ p.sels, s ∈ (selectorPairs df target.1).map (·.1)) (hne : p.sels ≠ []) :
    SelectorContribution.appearanceOr A mask p = .ok (oddsOf df target p.sels) := by
  unfold SelectorContribution.appearanceOr
  obtain ⟨s, hs⟩ := List.exists_mem_of_ne_nil _ hne
  have hl := hA.lookup s (hp s hs)
  have hf := hA.first
  have hall : ∀ s ∈ p.sels, A.lookup s = some (covBits df [s]) := fun s hs => hA.lookup s (hp s hs)
  match A, hl, hf, hall with
  | a :: A', hl, hf, hall =>
    simp only
    obtain ⟨b, h1, h2⟩ := appearance_getD hall (List.replicate a.2.length true)
    rw [h1]
    simp only
    rw [← ofBits_covBits hm]
    congr 1
    apply ofBits_congr
    intro i
    rw [Bool.eq_iff_iff, h2, covBits_getD]
    constructor
    · rintro ⟨_, h3, h4⟩; exact ⟨h3 hne, h4⟩
    · rintro ⟨h3, h4⟩
      refine ⟨?_, fun _ => h3, h4⟩
      have : i < a.2.length := lt_of_lt_of_le h3 (hf a (by simp))
      simp [List.getD, List.getElem?_replicate, this]

/-! ### contributions -/

theorem remove_subset (p : Pattern) (s : Selector) : ∀ t ∈ (p.remove s).sels, t ∈ p.sels := by
  intro t ht
  unfold Pattern.remove at ht
  simp only at ht
  split at ht
  · split at ht
    · exact List.mem_of_mem_eraseIdx ht
    · exact ht
  · exact ht

theorem loop_congr {f g : Pattern → Except PyErr XF} {p : Pattern} (th : Option XF) (o : XF) (h : ∀ s, f (p.copy.remove s) = g (p.copy.remove s))
    (l : List Selector) (mn mx : XF) : SelectorContribution.loop f th p o l mn mx = SelectorContribution.loop g th p o l mn mx := by
  induction l generalizing mn mx with
  | nil => rfl
  | cons s l ih =>
    rw [SelectorContribution.loop, SelectorContribution.loop, h s]
    cases g (p.copy.remove s) with
    | error e => rfl
    | ok v =>
      cases th with
      | none => exact ih _ _
      | some t =>
        simp only
        split
        · rfl
        · exact ih _ _

theorem compute_congr {f g : Pattern → Except PyErr XF} {p : Pattern} (th : Option XF) (h0 : 2 ≤ p.len → f p = g p)
    (h : 2 ≤ p.len → ∀ s, f (p.copy.remove s) = g (p.copy.remove s)) :
    SelectorContribution.compute f th p = SelectorContribution.compute g th p := by
  unfold SelectorContribution.compute
  split
  · rfl
  · split
    · rfl
    · have h2 : 2 ≤ p.len := by omega
      rw [h0 h2]
      cases g p with
      | error e => rfl
      | ok o => simp only; rw [loop_congr th o (h h2)]

theorem remove_length (p : Pattern) (s : Selector) : p.sels.length ≤ (p.remove s).sels.length + 1 := by
  unfold Pattern.remove
  simp only
  split
  · split
    · rw [List.length_eraseIdx]; split <;> omega
    · omega
  · omega

/-- without failing odds ratios there is always a result -/
theorem compute_ok (w : Pattern → XF) (p : Pattern) : ∃ r, SelectorContribution.compute (fun q => .ok (w q)) none p = .ok r := by
  unfold SelectorContribution.compute
  split
  · exact ⟨_, rfl⟩
  · split
    · exact ⟨_, rfl⟩
    · simp only
      have hl : ∀ (l : List Selector) (mn mx : XF), mn ≠ .nan → mx ≠ .nan → ∃ mn' mx', mn' ≠ .nan ∧ mx' ≠ .nan ∧
          SelectorContribution.loop (fun q => .ok (w q)) none p (w p) l mn mx = .ok (.inr (mn', mx')) := by
        intro l
        induction l with
        | nil => intro mn mx h1 h2; exact ⟨mn, mx, h1, h2, rfl⟩
        | cons s l ih =>
          intro mn mx h1 h2
          rw [SelectorContribution.loop]
          simp only [Bool.false_eq_true, if_false]
          apply ih
          · unfold XF.pyMin
            split
            · rename_i h; exact (XF.ne_nan_of_le (XF.lt_le h)).1
            · exact h1
          · unfold XF.pyMax
            split
            · rename_i h; exact (XF.ne_nan_of_le (XF.lt_le h)).2
            · exact h2
      obtain ⟨mn, mx, h1, h2, h3⟩ := hl p.sels .inf .ninf (by simp) (by simp)
      rw [h3]
      simp only
      have : ∃ r, SelectorContribution.ratio mn mx = .ok r := by
        unfold SelectorContribution.ratio
        split
        · exact ⟨_, rfl⟩
        · split
          · exact ⟨_, rfl⟩
          · rename_i h0 _
            cases mn with
            | nan => exact absurd rfl h1
            | inf => cases mx <;> exact ⟨_, rfl⟩
            | ninf => cases mx <;> exact ⟨_, rfl⟩
            | fin x =>
              have hx : x ≠ 0 := by simpa [XF.eqv] using h0
              cases mx <;> simp [XF.div, hx]
      obtain ⟨r, hr⟩ := this
      exact ⟨(mn, r), by rw [hr]⟩

/-! ### credibility and rank -/

theorem nrows_eq (df : Frame) (target : Str × Str) : tpOf df target [] + fpOf df target [] = df.nrows := by
  rw [← ones_covBits (df := df) (target := target) [], ← replicate_eq_covBits]
  simp [Bits.ones]

theorem coverage_eq {tp fp TP FP : Nat} (h : 0 < TP + FP) :
    Quality.coverage [(kTp, (tp : Rat)), (kFp, (fp : Rat)), (kTP, (TP : Rat)), (kFP, (FP : Rat))] = .ok (((tp + fp : Nat) : Rat) / ((TP + FP : Nat) : Rat)) := by
  have h1 : List.lookup kTp [(kTp, (tp : Rat)), (kFp, (fp : Rat)), (kTP, (TP : Rat)), (kFP, (FP : Rat))] = some (tp : Rat) := rfl
  have h2 : List.lookup kFp [(kTp, (tp : Rat)), (kFp, (fp : Rat)), (kTP, (TP : Rat)), (kFP, (FP : Rat))] = some (fp : Rat) := rfl
  have h3 : List.lookup kTP [(kTp, (tp : Rat)), (kFp, (fp : Rat)), (kTP, (TP : Rat)), (kFP, (FP : Rat))] = some (TP : Rat) := rfl
  have h4 : List.lookup kFP [(kTp, (tp : Rat)), (kFp, (fp : Rat)), (kTP, (TP : Rat)), (kFP, (FP : Rat))] = some (FP : Rat) := rfl
  have hn : ((TP : Rat) + FP) ≠ 0 := by
    have : (0 : Rat) < ((TP + FP : Nat) : Rat) := by exact_mod_cast h
    push_cast at this
    exact this.ne'
  simp only [Quality.coverage, getParam, h1, h2, h3, h4, bind, Except.bind, pyDiv, if_neg hn]
  push_cast
  rfl

theorem oddsOf_ne_nan (df : Frame) (target : Str × Str) (X : List Selector) : oddsOf df target X ≠ .nan := by
  unfold oddsOf OddsRatioStatistic.ofCounts
  split_ifs <;> simp

/-- the early exit of `_handle_individual_result` gives the values and the rank of the whole vector of criteria -/
theorem credibility_eq (cfg : IDSDConfig) {p : Pattern} (h : 0 < df.nrows) :
    ∃ c, credibility cfg (tpOf df target p.sels) (fpOf df target p.sels) (tpOf df target []) (fpOf df target [])
        (.ok (contribOf df target p)) = .ok c ∧ c = credOf cfg df target p ∧ computeRank (criteria cfg c) = rankOf cfg df target p := by
  unfold credibility
  rw [coverage_eq (by rw [nrows_eq]; exact h), nrows_eq]
  simp only
  have hcov : ((tpOf df target p.sels + fpOf df target p.sels : Nat) : Rat) / (df.nrows : Rat) = covOf df target p.sels := rfl
  rw [hcov]
  have hodds : OddsRatioStatistic.ofCounts (tpOf df target p.sels) (fpOf df target p.sels) (tpOf df target []) (fpOf df target []) = oddsOf df target p.sels := rfl
  have hp : cfg.pv (tpOf df target p.sels) (fpOf df target p.sels) (tpOf df target []) (fpOf df target []) = pvalOf cfg df target p.sels := rfl
  rw [hodds, hp]
  by_cases c1 : cfg.covT ≤ covOf df target p.sels
  · have e1 : (XF.fin (covOf df target p.sels)).ge (.fin cfg.covT) = true := by simpa [XF.ge, XF.le] using c1
    simp only [e1, Bool.not_true, Bool.false_eq_true, if_false]
    by_cases c2 : (XF.fin cfg.orT).le (oddsOf df target p.sels) = true
    · have e2 : (oddsOf df target p.sels).ge (.fin cfg.orT) = true := c2
      simp only [e2, Bool.not_true, Bool.false_eq_true, if_false]
      by_cases c3 : (pvalOf cfg df target p.sels).le (.fin cfg.pT) = true
      · simp only [c3, Bool.not_true, Bool.false_eq_true, if_false]
        have hr : rankOf cfg df target p = 3 + ((([decide ((XF.fin cfg.absT).le (contribOf df target p).1 = true), decide ((contribOf df target p).2.le (.fin cfg.ratioT) = true)]).takeWhile id).length) := by
          unfold rankOf criteriaOf
          by_cases c4 : (XF.fin cfg.absT).le (contribOf df target p).1 = true <;> by_cases c5 : (contribOf df target p).2.le (.fin cfg.ratioT) = true <;>
            simp [c1, c2, c3, c4, c5]
        refine ⟨_, rfl, ?_, ?_⟩
        · unfold credOf
          simp only [hr]
          rw [if_pos (by omega), if_pos (by omega), if_pos (by omega), if_pos (by omega)]
        · rw [computeRank_eq, hr, criteria]
          simp only [XF.ge] at e1 e2
          simp only [e1, e2, c3, List.takeWhile_cons, id, if_true, List.length_cons, XF.ge]
          by_cases c4 : (XF.fin cfg.absT).le (contribOf df target p).1 = true <;> by_cases c5 : (contribOf df target p).2.le (.fin cfg.ratioT) = true <;>
            simp [c4, c5]
      · have hr : rankOf cfg df target p = 2 := by
          unfold rankOf criteriaOf
          simp [c1, c2, c3]
        have e3 : (pvalOf cfg df target p.sels).le (.fin cfg.pT) = false := by simpa using c3
        simp only [e3, Bool.not_false, if_true]
        refine ⟨_, rfl, by simp [credOf, hr], ?_⟩
        rw [computeRank_eq, hr, criteria]
        simp [e1, e2, e3]
    · have hr : rankOf cfg df target p = 1 := by
        unfold rankOf criteriaOf
        simp [c1, c2]
      have e2 : (oddsOf df target p.sels).ge (.fin cfg.orT) = false := by simpa [XF.ge] using c2
      simp only [e2, Bool.not_false, if_true]
      refine ⟨_, rfl, by simp [credOf, hr], ?_⟩
      rw [computeRank_eq, hr, criteria]
      simp [e1, e2]
  · have hr : rankOf cfg df target p = 0 := by
      unfold rankOf criteriaOf
      simp [c1]
    have e1 : (XF.fin (covOf df target p.sels)).ge (.fin cfg.covT) = false := by simpa [XF.ge, XF.le] using c1
    simp only [e1, Bool.not_false, if_true]
    refine ⟨_, rfl, by simp [credOf, hr], ?_⟩
    rw [computeRank_eq, hr, criteria]
    simp [e1]

theorem entryOf_num (cfg : IDSDConfig) (df : Frame) (target : Str × Str) (p : Pattern) : Num (entryOf cfg df target p) := by
  simp only [Num, entryOf, credOf]
  split
  · exact oddsOf_ne_nan _ _ _
  · simp

theorem rank_pos_iff (cfg : IDSDConfig) (df : Frame) (target : Str × Str) (p : Pattern) :
    0 < rankOf cfg df target p ↔ cfg.covT ≤ covOf df target p.sels := by
  unfold rankOf criteriaOf
  by_cases c1 : cfg.covT ≤ covOf df target p.sels <;> simp [c1]

/-- `_handle_individual_result` on a pattern of the data -/
theorem handle_eq (cfg : IDSDConfig) (hm : MaskOK df target mask) (hn : 0 < df.nrows) {p : Pattern}
    (hp : ∀ s ∈ p.sels, s ∈ (selectorPairs df target.1).map (·.1)) (st : IDSDState) (ha : AppsOK df target st.apps) :
    handle cfg (tpOf df target []) (fpOf df target []) mask p (covBits df p.sels) st =
      .ok { st with top := topKUpdate cfg.num st.top (entryOf cfg df target p), calls := st.calls ++ [p] } := by
  unfold handle
  simp only
  rw [ones_mask_covBits hm, ones_covBits (target := target), Nat.add_sub_cancel_left]
  have hc : SelectorContribution.compute (SelectorContribution.appearanceOr st.apps mask) none p = .ok (contribOf df target p) := by
    have h1 : SelectorContribution.compute (SelectorContribution.appearanceOr st.apps mask) none p =
        SelectorContribution.compute (fun q => .ok (oddsOf df target q.sels)) none p := by
      apply compute_congr
      · intro h2
        apply appearanceOr_eq hm ha hp
        intro h; rw [Pattern.len, h] at h2; simp at h2
      · intro h2 s
        apply appearanceOr_eq hm ha
        · intro t ht
          exact hp t (remove_subset p.copy s t ht)
        · intro h
          have := remove_length p.copy s
          rw [h] at this
          simp only [Pattern.copy, List.length_nil] at this
          rw [Pattern.len] at h2
          omega
    obtain ⟨r, hr⟩ := compute_ok (fun q => oddsOf df target q.sels) p
    rw [h1, contribOf, hr]
  rw [hc]
  obtain ⟨c, h1, h2, h3⟩ := credibility_eq (df := df) (target := target) cfg (p := p) hn
  subst h2
  rw [h1]
  simp only [h3]
  rfl

end
end Verif.IDSD
