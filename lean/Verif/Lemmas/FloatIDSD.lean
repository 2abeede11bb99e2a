import Verif.Lemmas.IDSDRefit
import Verif.Spec.FloatIDSD
/-! IDSD with rounding: the credibility of a pattern, the search, `fit` and a second `fit`. -/
set_option linter.unusedSectionVars false
namespace Verif.IDSDRounded
open Spec BSD
open IDSD hiding credibility handle visit growLoop growTree deepen fit ofBits_covBits ofBits_congr appearanceOr_eq loop_congr compute_congr compute_ok coverage_eq oddsOf_ne_nan
  credibility_eq entryOf_num rank_pos_iff handle_eq covOf_congr covOf_mono SInv SInv.empty SInv.step visit_cases GrowSpec growLoop_spec DeepSpec growTree_spec deepen_spec fit_spec
  visit_shift visit_apps growLoop_apps growLoop_shift deepen_shift fit_shift

section
open Classical
variable {ρ : Rat → Rat} {df : Frame} {target : Str × Str} {mask : List Bool} {cfg : IDSDConfig}

theorem ofBits_covBits (hm : MaskOK df target mask) (X : List Selector) :
    ofBits ρ (covBits df X) mask = computedOdds ρ df target X := by
  have hnl : (Bits.not mask).length = df.nrows := by simp [Bits.not, hm.len]
  have hc : ∀ i, Covers df [] i := fun i s hs => by simp at hs
  unfold ofBits computedOdds
  congr 2
  · rw [Bits.ones_eq, Bits.alignAnd_length, covBits_length, hm.len, max_self, tpOf_cnt]
    unfold cnt
    congr 1
    apply List.filter_congr
    intro i hi
    rw [Bits.alignAnd_getD, Bool.eq_iff_iff, Bool.and_eq_true, covBits_getD, mask_getD hm]
    simp only [List.mem_range.1 hi, true_and, decide_eq_true_eq]
  · rw [Bits.ones_eq, Bits.alignAnd_length, covBits_length, hnl, max_self, fpOf_cnt]
    unfold cnt
    congr 1
    apply List.filter_congr
    intro i hi
    rw [Bits.alignAnd_getD, Bool.eq_iff_iff, Bool.and_eq_true, covBits_getD, not_getD hm (List.mem_range.1 hi)]
    simp only [List.mem_range.1 hi, true_and, decide_eq_true_eq]
  · rw [Bits.ones_eq, hm.len, tpOf_cnt]
    unfold cnt
    congr 1
    apply List.filter_congr
    intro i hi
    rw [Bool.eq_iff_iff, mask_getD hm]
    simp [hc]
  · rw [Bits.ones_eq, hnl, fpOf_cnt]
    unfold cnt
    congr 1
    apply List.filter_congr
    intro i hi
    rw [Bool.eq_iff_iff, not_getD hm (List.mem_range.1 hi)]
    simp [hc]

theorem ofBits_congr {a b : Bits} (h : ∀ i, a.getD i false = b.getD i false) (t : Bits) :
    ofBits ρ a t = ofBits ρ b t := by
  unfold ofBits
  rw [ones_congr (a := a.alignAnd t) (b := b.alignAnd t) (fun i => by rw [Bits.alignAnd_getD, Bits.alignAnd_getD, h]),
    ones_congr (a := a.alignAnd t.not) (b := b.alignAnd t.not) (fun i => by rw [Bits.alignAnd_getD, Bits.alignAnd_getD, h])]

/-- the odds ratio computed from the appearances is the one of the rows -/
theorem appearanceOr_eq (hm : MaskOK df target mask) {A : List (Selector × Bits)} (hA : AppsOK df target A) {p : Pattern}
    (hp : ∀ s ∈ p.sels, s ∈ (selectorPairs df target.1).map (·.1)) (hne : p.sels ≠ []) :
    appearanceOr ρ A mask p = .ok (computedOdds ρ df target p.sels) := by
  unfold appearanceOr
  obtain ⟨s, hs⟩ := List.exists_mem_of_ne_nil _ hne
  have hl := hA.lookup s (hp s hs)
  have hf := hA.first
  have hall : ∀ s ∈ p.sels, A.lookup s = some (covBits df [s]) := fun s hs => hA.lookup s (hp s hs)
  match A, hl, hf, hall with
  | a :: A', hl, hf, hall =>
    simp only
    obtain ⟨b, h1, h2⟩ := appearance_getD hall (List.replicate a.2.length true)
    rw [h1]
    simp only
    rw [← ofBits_covBits hm]
    congr 1
    apply ofBits_congr
    intro i
    rw [Bool.eq_iff_iff, h2, covBits_getD]
    constructor
    · rintro ⟨_, h3, h4⟩; exact ⟨h3 hne, h4⟩
    · rintro ⟨h3, h4⟩
      refine ⟨?_, fun _ => h3, h4⟩
      have : i < a.2.length := lt_of_lt_of_le h3 (hf a (by simp))
      simp [List.getD, List.getElem?_replicate, this]

theorem loop_congr {f g : Pattern → Except PyErr XF} {p : Pattern} (o : XF) (h : ∀ s, f (p.copy.remove s) = g (p.copy.remove s))
    (l : List Selector) (mn mx : XF) : loop ρ f p o l mn mx = loop ρ g p o l mn mx := by
  induction l generalizing mn mx with
  | nil => rfl
  | cons s l ih =>
    rw [loop, loop, h s]
    cases g (p.copy.remove s) with
    | error e => rfl
    | ok v => exact ih _ _

theorem compute_congr {f g : Pattern → Except PyErr XF} {p : Pattern} (h0 : 2 ≤ p.len → f p = g p)
    (h : 2 ≤ p.len → ∀ s, f (p.copy.remove s) = g (p.copy.remove s)) :
    compute ρ f p = compute ρ g p := by
  unfold compute
  split
  · rfl
  · split
    · rfl
    · have h2 : 2 ≤ p.len := by omega
      rw [h0 h2]
      cases g p with
      | error e => rfl
      | ok o => simp only; rw [loop_congr o (h h2)]

/-- without failing odds ratios there is always a result -/
theorem compute_ok (w : Pattern → XF) (p : Pattern) : ∃ r, compute ρ (fun q => .ok (w q)) p = .ok r := by
  unfold compute
  split
  · exact ⟨_, rfl⟩
  · split
    · exact ⟨_, rfl⟩
    · simp only
      have hl : ∀ (l : List Selector) (mn mx : XF), mn ≠ .nan → mx ≠ .nan → ∃ mn' mx' : XF, mn' ≠ .nan ∧ mx' ≠ .nan ∧
          loop ρ (fun q => .ok (w q)) p (w p) l mn mx = .ok (mn', mx') := by
        intro l
        induction l with
        | nil => intro mn mx h1 h2; exact ⟨mn, mx, h1, h2, rfl⟩
        | cons s l ih =>
          intro mn mx h1 h2
          rw [loop]
          simp only
          apply ih
          · unfold XF.pyMin
            split
            · rename_i h; exact (XF.ne_nan_of_le (XF.lt_le h)).1
            · exact h1
          · unfold XF.pyMax
            split
            · rename_i h; exact (XF.ne_nan_of_le (XF.lt_le h)).2
            · exact h2
      obtain ⟨mn, mx, h1, h2, h3⟩ := hl p.sels .inf .ninf (by simp) (by simp)
      rw [h3]
      simp only
      have : ∃ r, ratio ρ mn mx = .ok r := by
        unfold ratio
        split
        · exact ⟨_, rfl⟩
        · split
          · exact ⟨_, rfl⟩
          · rename_i h0 _
            cases mn with
            | nan => exact absurd rfl h1
            | inf => cases mx <;> exact ⟨_, rfl⟩
            | ninf => cases mx <;> exact ⟨_, rfl⟩
            | fin x =>
              have hx : x ≠ 0 := by simpa [XF.eqv] using h0
              cases mx <;> simp [div, XF.div, hx]
      obtain ⟨r, hr⟩ := this
      exact ⟨(mn, r), by rw [hr]⟩

theorem coverage_eq {tp fp TP FP : Nat} (h : 0 < TP + FP) : coverage ρ tp fp TP FP = .ok (ρ (((tp + fp : Nat) : Rat) / ((TP + FP : Nat) : Rat))) := by
  unfold coverage
  rw [IDSD.coverage_eq h]

theorem oddsOf_ne_nan (df : Frame) (target : Str × Str) (X : List Selector) : computedOdds ρ df target X ≠ .nan := by
  unfold computedOdds
  split_ifs <;> simp

/-- the early exit of `_handle_individual_result` gives the values and the rank of the whole vector of criteria -/
theorem credibility_eq (cfg : IDSDConfig) {p : Pattern} (h : 0 < df.nrows) :
    ∃ c, credibility ρ cfg (tpOf df target p.sels) (fpOf df target p.sels) (tpOf df target []) (fpOf df target [])
        (.ok (computedContrib ρ df target p)) = .ok c ∧ c = computedCred ρ cfg df target p ∧ computeRank (criteria cfg c) = computedRank ρ cfg df target p := by
  unfold credibility
  rw [coverage_eq (by rw [nrows_eq]; exact h), nrows_eq]
  simp only
  have hcov : ρ (((tpOf df target p.sels + fpOf df target p.sels : Nat) : Rat) / (df.nrows : Rat)) = computedCov ρ df target p.sels := rfl
  rw [hcov]
  have hodds : ofCounts ρ (tpOf df target p.sels) (fpOf df target p.sels) (tpOf df target []) (fpOf df target []) = computedOdds ρ df target p.sels := rfl
  have hp : cfg.pv (tpOf df target p.sels) (fpOf df target p.sels) (tpOf df target []) (fpOf df target []) = pvalOf cfg df target p.sels := rfl
  rw [hodds, hp]
  by_cases c1 : cfg.covT ≤ computedCov ρ df target p.sels
  · have e1 : (XF.fin (computedCov ρ df target p.sels)).ge (.fin cfg.covT) = true := by simpa [XF.ge, XF.le] using c1
    simp only [e1, Bool.not_true, Bool.false_eq_true, if_false]
    by_cases c2 : (XF.fin cfg.orT).le (computedOdds ρ df target p.sels) = true
    · have e2 : (computedOdds ρ df target p.sels).ge (.fin cfg.orT) = true := c2
      simp only [e2, Bool.not_true, Bool.false_eq_true, if_false]
      by_cases c3 : (pvalOf cfg df target p.sels).le (.fin cfg.pT) = true
      · simp only [c3, Bool.not_true, Bool.false_eq_true, if_false]
        have hr : computedRank ρ cfg df target p = 3 + ((([decide ((XF.fin cfg.absT).le (computedContrib ρ df target p).1 = true), decide ((computedContrib ρ df target p).2.le (.fin cfg.ratioT) = true)]).takeWhile id).length) := by
          unfold computedRank computedCriteria
          by_cases c4 : (XF.fin cfg.absT).le (computedContrib ρ df target p).1 = true <;> by_cases c5 : (computedContrib ρ df target p).2.le (.fin cfg.ratioT) = true <;>
            simp [c1, c2, c3, c4, c5]
        refine ⟨_, rfl, ?_, ?_⟩
        · unfold computedCred
          simp only [hr]
          rw [if_pos (by omega), if_pos (by omega), if_pos (by omega), if_pos (by omega)]
        · rw [computeRank_eq, hr, criteria]
          simp only [XF.ge] at e1 e2
          simp only [e1, e2, c3, List.takeWhile_cons, id, if_true, List.length_cons, XF.ge]
          by_cases c4 : (XF.fin cfg.absT).le (computedContrib ρ df target p).1 = true <;> by_cases c5 : (computedContrib ρ df target p).2.le (.fin cfg.ratioT) = true <;>
            simp [c4, c5]
      · have hr : computedRank ρ cfg df target p = 2 := by
          unfold computedRank computedCriteria
          simp [c1, c2, c3]
        have e3 : (pvalOf cfg df target p.sels).le (.fin cfg.pT) = false := by simpa using c3
        simp only [e3, Bool.not_false, if_true]
        refine ⟨_, rfl, by simp [computedCred, hr], ?_⟩
        rw [computeRank_eq, hr, criteria]
        simp [e1, e2, e3]
    · have hr : computedRank ρ cfg df target p = 1 := by
        unfold computedRank computedCriteria
        simp [c1, c2]
      have e2 : (computedOdds ρ df target p.sels).ge (.fin cfg.orT) = false := by simpa [XF.ge] using c2
      simp only [e2, Bool.not_false, if_true]
      refine ⟨_, rfl, by simp [computedCred, hr], ?_⟩
      rw [computeRank_eq, hr, criteria]
      simp [e1, e2]
  · have hr : computedRank ρ cfg df target p = 0 := by
      unfold computedRank computedCriteria
      simp [c1]
    have e1 : (XF.fin (computedCov ρ df target p.sels)).ge (.fin cfg.covT) = false := by simpa [XF.ge, XF.le] using c1
    simp only [e1, Bool.not_false, if_true]
    refine ⟨_, rfl, by simp [computedCred, hr], ?_⟩
    rw [computeRank_eq, hr, criteria]
    simp [e1]

theorem entryOf_num (cfg : IDSDConfig) (df : Frame) (target : Str × Str) (p : Pattern) : Num (computedEntry ρ cfg df target p) := by
  simp only [Num, computedEntry, computedCred]
  split
  · exact oddsOf_ne_nan _ _ _
  · simp

theorem rank_pos_iff (cfg : IDSDConfig) (df : Frame) (target : Str × Str) (p : Pattern) :
    0 < computedRank ρ cfg df target p ↔ cfg.covT ≤ computedCov ρ df target p.sels := by
  unfold computedRank computedCriteria
  by_cases c1 : cfg.covT ≤ computedCov ρ df target p.sels <;> simp [c1]

/-- `_handle_individual_result` on a pattern of the data -/
theorem handle_eq (cfg : IDSDConfig) (hm : MaskOK df target mask) (hn : 0 < df.nrows) {p : Pattern}
    (hp : ∀ s ∈ p.sels, s ∈ (selectorPairs df target.1).map (·.1)) (st : IDSDState) (ha : AppsOK df target st.apps) :
    handle ρ cfg (tpOf df target []) (fpOf df target []) mask p (covBits df p.sels) st =
      .ok { st with top := topKUpdate cfg.num st.top (computedEntry ρ cfg df target p), calls := st.calls ++ [p] } := by
  unfold handle
  simp only
  rw [ones_mask_covBits hm, ones_covBits (target := target), Nat.add_sub_cancel_left]
  have hc : compute ρ (appearanceOr ρ st.apps mask) p = .ok (computedContrib ρ df target p) := by
    have h1 : compute ρ (appearanceOr ρ st.apps mask) p =
        compute ρ (fun q => .ok (computedOdds ρ df target q.sels)) p := by
      apply compute_congr
      · intro h2
        apply appearanceOr_eq hm ha hp
        intro h; rw [Pattern.len, h] at h2; simp at h2
      · intro h2 s
        apply appearanceOr_eq hm ha
        · intro t ht
          exact hp t (remove_subset p.copy s t ht)
        · intro h
          have := remove_length p.copy s
          rw [h] at this
          simp only [Pattern.copy, List.length_nil] at this
          rw [Pattern.len] at h2
          omega
    obtain ⟨r, hr⟩ := compute_ok (fun q => computedOdds ρ df target q.sels) p
    rw [h1, computedContrib, hr]
  rw [hc]
  obtain ⟨c, h1, h2, h3⟩ := credibility_eq (df := df) (target := target) cfg (p := p) hn
  subst h2
  rw [h1]
  simp only [h3]
  rfl

theorem covOf_congr {X Y : List Selector} (h : ∀ s, s ∈ X ↔ s ∈ Y) : computedCov ρ df target X = computedCov ρ df target Y := by
  unfold computedCov; rw [IDSD.covOf_congr h]

section
variable [hρ : RoundsFor ρ df.nrows]

theorem covOf_mono (hn : 0 < df.nrows) {X Y : List Selector} (h : ∀ s ∈ X, s ∈ Y) : computedCov ρ df target Y ≤ computedCov ρ df target X :=
  hρ.mono (IDSD.covOf_mono hn h)

/-- a description that occurs has a positive calculated coverage -/
theorem computedCov_zero (hn : 0 < df.nrows) (X : List Selector) : computedCov ρ df target X = 0 ↔ ¬ OccursIn df X := by
  have hp : (0 : Rat) < df.nrows := by exact_mod_cast hn
  rw [← occurs_iff (target := target)]
  constructor
  · intro h h1
    have h2 : (1 : Rat) / df.nrows ≤ covOf df target X := by
      unfold covOf
      rw [div_le_div_iff_of_pos_right hp]
      exact_mod_cast h1
    have h3 := lt_of_lt_of_le hρ.pos (hρ.mono h2)
    unfold computedCov at h
    rw [h] at h3
    exact lt_irrefl _ h3
  · intro h
    have : tpOf df target X + fpOf df target X = 0 := by omega
    unfold computedCov covOf
    rw [this]
    simp [hρ.zero]
end

/-! ### the list of the best subgroups along a search -/

/-- what holds after evaluating the patterns `C` -/
structure SInv (ρ : Rat → Rat) (cfg : IDSDConfig) (df : Frame) (target : Str × Str) (C : List Pattern) (top : List IDSDEntry) : Prop where
  inv : TopInv cfg.num top
  exact : ∀ e ∈ top, e.pat ∈ C ∧ e = computedEntry ρ cfg df target e.pat
  refine : ∀ e ∈ top, ∀ f ∈ top, e.pat.len < f.pat.len → redundant e.pat f.pat = true → KeyLe f e
  dom : ∀ p ∈ C, ∃ h ∈ top, KeyLe (computedEntry ρ cfg df target p) h

theorem SInv.empty : SInv ρ cfg df target [] [] :=
  ⟨⟨by simp, by simp, by simp, by simp⟩, by simp, by simp, by simp⟩

theorem SInv.step (hnum : 0 < cfg.num) {C : List Pattern} {top : List IDSDEntry} (hi : SInv ρ cfg df target C top) {p : Pattern} (hp : p ∉ C)
    (hlen : ∀ q ∈ C, q.len ≤ p.len) :
    SInv ρ cfg df target (C ++ [p]) (topKUpdate cfg.num top (computedEntry ρ cfg df target p)) ∧ Dom top (topKUpdate cfg.num top (computedEntry ρ cfg df target p)) := by
  have hfresh : (computedEntry ρ cfg df target p).pat ∉ top.map (·.pat) := by
    intro h
    obtain ⟨e, he, h⟩ := List.mem_map.1 h
    apply hp
    have := (hi.exact e he).1
    rw [h] at this
    exact this
  obtain ⟨h1, h2, h3, h4⟩ := topKUpdate_spec hnum hi.inv (entryOf_num cfg df target p) hfresh
  refine ⟨⟨h1, ?_, ?_, ?_⟩, fun e he => h4 e (.inl he)⟩
  · intro e he
    rcases h2 e he with h | h
    · exact ⟨List.mem_append_left _ (hi.exact e h).1, (hi.exact e h).2⟩
    · rw [h]
      exact ⟨by simp [computedEntry], rfl⟩
  · intro e he f hf hl hr
    rcases h2 f hf with h | h
    · rcases h2 e he with h' | h'
      · exact hi.refine e h' f h hl hr
      · rw [h'] at hl
        have := hlen _ (hi.exact f h).1
        simp only [computedEntry] at hl
        omega
    · subst h
      apply h3 hf e he _ hr
      intro hc
      rw [hc] at hl
      omega
  · intro q hq
    rcases List.mem_append.1 hq with hq | hq
    · obtain ⟨g, hg, hk⟩ := hi.dom q hq
      obtain ⟨f, hf, hk'⟩ := h4 g (.inl hg)
      exact ⟨f, hf, KeyLe.trans (entryOf_num cfg df target q) (hi.inv.num g hg) (h1.num f hf) hk hk'⟩
    · rw [List.mem_singleton.1 hq]
      exact h4 _ (.inr rfl)

variable [hρ : RoundsFor ρ df.nrows]

/-! ### one node -/

theorem visit_cases (hm : MaskOK df target mask) (hn : 0 < df.nrows) (c : Nat) {p : Pattern} {X : List Selector}
    (hX : ∀ s, s ∈ p.sels ↔ s ∈ X) (hs : ∀ s ∈ X, s ∈ (selectorPairs df target.1).map (·.1)) (st : IDSDState) (ha : AppsOK df target st.apps) :
    ∃ st' b, visit ρ cfg c (tpOf df target []) (fpOf df target []) mask p (covBits df X) st = .ok (st', b) ∧ st'.apps = st.apps ∧
      ((b = false ∧ st'.top = st.top ∧ st'.calls = st.calls ∧
          (¬ OccursIn df X ∨ (computedCov ρ df target X < cfg.covT ∧ ∃ e ∈ st.top, 0 < e.rank))) ∨
       (b = false ∧ p.len = c ∧ OccursIn df X ∧ st'.top = topKUpdate cfg.num st.top (computedEntry ρ cfg df target p) ∧ st'.calls = st.calls ++ [p]) ∨
       (b = true ∧ p.len ≠ c ∧ OccursIn df X ∧ st'.top = st.top ∧ st'.calls = st.calls)) := by
  have hcov : coverage ρ (covBits df X).ones 0 (tpOf df target []) (fpOf df target []) = .ok (computedCov ρ df target X) := by
    rw [coverage_eq (by rw [nrows_eq]; exact hn), nrows_eq, Nat.add_zero, ones_covBits (target := target)]
    rfl
  have h0 := computedCov_zero (ρ := ρ) (target := target) hn X
  unfold visit
  simp only
  rw [hcov]
  simp only
  by_cases ho : OccursIn df X
  · rw [if_neg (fun h => (h0.1 h) ho)]
    split
    · rename_i h
      refine ⟨_, _, rfl, rfl, .inl ⟨rfl, rfl, rfl, .inr ⟨lt_of_not_ge h.2.2, ?_⟩⟩⟩
      have h2 := h.2.1
      unfold lastRankPos at h2
      split at h2
      · rename_i w hw
        exact ⟨w, List.mem_of_getLast? hw, by simpa using h2⟩
      · cases h2
    · split
      · rename_i hl
        rw [covBits_congr (df := df) (fun s => (hX s).symm), handle_eq cfg hm hn (fun s h => hs s ((hX s).1 h)) _ (by exact ha)]
        exact ⟨_, _, rfl, rfl, .inr (.inl ⟨rfl, hl, ho, rfl, rfl⟩)⟩
      · rename_i hl
        exact ⟨_, _, rfl, rfl, .inr (.inr ⟨rfl, hl, ho, rfl, rfl⟩)⟩
  · rw [if_pos (h0.2 ho)]
    exact ⟨_, _, rfl, rfl, .inl ⟨rfl, rfl, rfl, .inl ho⟩⟩

/-! ### the tree -/

/-- what the search below `Y` with the selectors `l` does; `N` are the extensions that are evaluated -/
structure GrowSpec (ρ : Rat → Rat) (cfg : IDSDConfig) (df : Frame) (target : Str × Str) (c : Nat) (Y l : List Selector) (st st' : IDSDState) (N : List (List Selector)) : Prop where
  apps : st'.apps = st.apps
  calls : st'.calls = st.calls ++ N.map (fun W => Pattern.new (Y ++ W))
  good : ∀ W ∈ N, W.Sublist l ∧ Y.length + W.length = c ∧ OccursIn df (Y ++ W)
  nodup : N.Nodup
  inv : SInv ρ cfg df target st'.calls st'.top
  mono : Dom st.top st'.top
  all : ∀ W, W.Sublist l → Y.length + W.length = c → OccursIn df (Y ++ W) →
    W ∈ N ∨ (computedCov ρ df target (Y ++ W) < cfg.covT ∧ ∃ e ∈ st'.top, 0 < e.rank)

theorem growLoop_spec (hf : NominalFrame df target) (hm : MaskOK df target mask) (hn : 0 < df.nrows) (hnum : 0 < cfg.num) (c : Nat) (l : List Selector) :
    ∀ (Y : List Selector) (st : IDSDState), (Y ++ l).Sublist ((selectorPairs df target.1).map (·.1)) → Y.length < c → AppsOK df target st.apps →
      SInv ρ cfg df target st.calls st.top → (∀ q ∈ st.calls, q.len ≤ c) →
      (∀ W, W.Sublist l → Y.length + W.length = c → Pattern.new (Y ++ W) ∉ st.calls) →
      ∃ st' N, growLoop ρ cfg c (tpOf df target []) (fpOf df target []) mask l (Pattern.new Y) (covBits df Y) st = .ok st' ∧
        GrowSpec ρ cfg df target c Y l st st' N := by
  have hnod := nodup_sels hf
  have htext : ∀ s ∈ (selectorPairs df target.1).map (·.1), TextEq s := fun s hs => ((mem_sels hf).1 hs).1.2
  induction l with
  | nil =>
    intro Y st _ hY _ hi _ _
    refine ⟨st, [], rfl, rfl, by simp, by simp, by simp, hi, fun e he => ⟨e, he, KeyLe.refl⟩, ?_⟩
    intro W hW hl
    rw [List.sublist_nil.1 hW] at hl
    simp at hl
    omega
  | cons s rest ih =>
    intro Y st hsub hY ha hi hlen hfresh
    have hsubY' : ((Y ++ [s]) ++ rest).Sublist ((selectorPairs df target.1).map (·.1)) := by simpa using hsub
    have hsubY : (Y ++ rest).Sublist ((selectorPairs df target.1).map (·.1)) :=
      ((List.Sublist.refl Y).append (List.sublist_cons_self s rest)).trans hsub
    have hYmem : ∀ t ∈ Y, t ∈ (selectorPairs df target.1).map (·.1) := fun t ht => hsub.subset (List.mem_append_left _ ht)
    have hsmem : s ∈ (selectorPairs df target.1).map (·.1) := hsub.subset (by simp)
    have hY'mem : ∀ t ∈ Y ++ [s], t ∈ (selectorPairs df target.1).map (·.1) := fun t ht => by
      rcases List.mem_append.1 ht with h | h
      · exact hYmem t h
      · rw [List.mem_singleton.1 h]; exact hsmem
    have hY't : ∀ t ∈ Y ++ [s], TextEq t := fun t ht => htext t (hY'mem t ht)
    have hnY : (Y ++ s :: rest).Nodup := hsub.nodup hnod
    have hnY' : (Y ++ [s]).Nodup := (List.sublist_append_left (Y ++ [s]) rest).nodup (by simpa using hnY)
    have hsY : s ∉ Y := fun h => by
      rw [List.nodup_append] at hnY
      exact hnY.2.2 s h s (by simp) rfl
    have hsrest : s ∉ rest := by
      rw [List.nodup_append] at hnY
      exact (List.nodup_cons.1 hnY.2.1).1
    have hplen : (Pattern.new (Y ++ [s])).len = Y.length + 1 := by rw [new_len hY't hnY']; simp
    rw [growLoop, ha.lookup s hsmem]
    simp only
    rw [add_new (fun t ht => htext t (hYmem t ht)) (htext s hsmem), alignAnd_covBits]
    obtain ⟨st1, b, hv, ha1, hcase⟩ := visit_cases (ρ := ρ) (cfg := cfg) hm hn c (mem_new hY't) hY'mem st ha
    rw [hv]
    have happs1 : AppsOK df target st1.apps := by rw [ha1]; exact ha
    -- the subsets of `s :: rest`
    have hsplit : ∀ W : List Selector, W.Sublist (s :: rest) → W.Sublist rest ∨ ∃ W', W = s :: W' ∧ W'.Sublist rest := by
      intro W hW
      rcases List.sublist_cons_iff.1 hW with h | ⟨W', h1, h2⟩
      · exact .inl h
      · exact .inr ⟨W', h1, h2⟩
    have happ : ∀ W' : List Selector, Y ++ [s] ++ W' = Y ++ s :: W' := fun W' => by simp
    -- patterns with `s` are different from those without it
    have hdiff : ∀ W W' : List Selector, W.Sublist rest → W'.Sublist rest → Pattern.new (Y ++ W) ≠ Pattern.new (Y ++ s :: W') := by
      intro W W' h1 h2 h
      have t1 : ∀ t ∈ Y ++ W, TextEq t := fun t ht => htext t (hsubY.subset (by
        rcases List.mem_append.1 ht with h | h
        · exact List.mem_append_left _ h
        · exact List.mem_append_right _ (h1.subset h)))
      have t2 : ∀ t ∈ Y ++ s :: W', TextEq t := fun t ht => htext t (hsub.subset (by
        rcases List.mem_append.1 ht with h | h
        · exact List.mem_append_left _ h
        · rcases List.mem_cons.1 h with h | h
          · rw [h]; simp
          · exact List.mem_append_right _ (List.mem_cons_of_mem _ (h2.subset h))))
      have := (mem_new t2 s).2 (by simp)
      rw [← h, mem_new t1] at this
      rcases List.mem_append.1 this with h | h
      · exact hsY h
      · exact hsrest (h1.subset h)
    rcases hcase with ⟨rfl, ht, hcl, hno⟩ | ⟨rfl, hpl, ho, ht, hcl⟩ | ⟨rfl, hpl, ho, ht, hcl⟩
    · -- pruned
      simp only
      obtain ⟨st', N, hg, hG⟩ := ih Y st1 hsubY hY happs1 (by rw [ht, hcl]; exact hi) (by rw [hcl]; exact hlen)
        (fun W hW => by rw [hcl]; exact hfresh W (hW.cons s))
      refine ⟨st', N, hg, hG.apps.trans ha1, by rw [hG.calls, hcl], fun W hW => ⟨(hG.good W hW).1.cons s, (hG.good W hW).2⟩, hG.nodup, hG.inv,
        by rw [← ht]; exact hG.mono, ?_⟩
      intro W hW hl hoc
      rcases hsplit W hW with h | ⟨W', rfl, h⟩
      · exact hG.all W h hl hoc
      · right
        have hin : ∀ t ∈ Y ++ [s], t ∈ Y ++ s :: W' := fun t ht => by
          rcases List.mem_append.1 ht with h | h
          · exact List.mem_append_left _ h
          · rw [List.mem_singleton.1 h]; simp
        rcases hno with hno | ⟨hno, hr⟩
        · exact absurd (occursIn_mono hin hoc) hno
        · refine ⟨lt_of_le_of_lt (covOf_mono (ρ := ρ) hn hin) hno, ?_⟩
          refine Dom.rank hG.mono ?_ hG.inv.inv.num ?_
          · rw [ht]; exact hi.inv.num
          · rw [ht]; exact hr
    · -- evaluated
      simp only
      have hpf : Pattern.new (Y ++ [s]) ∉ st.calls := hfresh [s] (by simp) (by rw [← hpl, hplen]; rfl)
      obtain ⟨hi1, hd1⟩ := hi.step hnum hpf (by rw [hpl]; exact hlen)
      rw [← ht, ← hcl] at hi1
      rw [← ht] at hd1
      obtain ⟨st', N, hg, hG⟩ := ih Y st1 hsubY hY happs1 hi1
        (by
          rw [hcl]
          intro q hq
          rcases List.mem_append.1 hq with hq | hq
          · exact hlen q hq
          · rw [List.mem_singleton.1 hq, hpl])
        (fun W hW hl => by
          rw [hcl, List.mem_append]
          rintro (h | h)
          · exact hfresh W (hW.cons s) hl h
          · exact hdiff W [] hW (by simp) (List.mem_singleton.1 h))
      refine ⟨st', [s] :: N, hg, hG.apps.trans ha1, ?_, ?_, ?_, hG.inv, Dom.trans hi.inv.num hi1.inv.num hG.inv.inv.num hd1 hG.mono, ?_⟩
      · rw [hG.calls, hcl]; simp
      · intro W hW
        rcases List.mem_cons.1 hW with rfl | hW
        · exact ⟨by simp, by rw [← hpl, hplen]; rfl, ho⟩
        · exact ⟨(hG.good W hW).1.cons s, (hG.good W hW).2⟩
      · rw [List.nodup_cons]
        exact ⟨fun h => hsrest ((hG.good _ h).1.subset (by simp)), hG.nodup⟩
      · intro W hW hl hoc
        rcases hsplit W hW with h | ⟨W', rfl, h⟩
        · rcases hG.all W h hl hoc with h | h
          · exact .inl (by simp [h])
          · exact .inr h
        · left
          have : W'.length = 0 := by
            simp only [List.length_cons] at hl
            omega
          rw [List.length_eq_zero_iff.1 this]
          simp
    · -- the tree grows
      simp only
      have hY'c : (Y ++ [s]).length < c := by
        rw [hplen] at hpl
        simp only [List.length_append, List.length_singleton]
        omega
      obtain ⟨st2, N1, hg1, hG1⟩ := ih (Y ++ [s]) st1 hsubY' hY'c happs1 (by rw [ht, hcl]; exact hi) (by rw [hcl]; exact hlen)
        (fun W hW hl => by
          rw [hcl, happ]
          exact hfresh (s :: W) (hW.cons_cons s) (by simpa [Nat.add_assoc, Nat.add_comm 1] using hl))
      rw [hg1]
      simp only
      have hlen2 : ∀ q ∈ st2.calls, q.len ≤ c := by
        rw [hG1.calls, hcl]
        intro q hq
        rcases List.mem_append.1 hq with hq | hq
        · exact hlen q hq
        · obtain ⟨W, hW, rfl⟩ := List.mem_map.1 hq
          obtain ⟨g1, g2, _⟩ := hG1.good W hW
          have hs2 : (Y ++ [s] ++ W).Sublist ((selectorPairs df target.1).map (·.1)) := ((List.Sublist.refl (Y ++ [s])).append g1).trans hsubY'
          rw [new_len (fun t ht => htext t (hs2.subset ht)) (hs2.nodup hnod), List.length_append]
          omega
      obtain ⟨st', N2, hg2, hG2⟩ := ih Y st2 hsubY hY (by rw [hG1.apps]; exact happs1) hG1.inv hlen2
        (fun W hW hl => by
          rw [hG1.calls, hcl, List.mem_append]
          rintro (h | h)
          · exact hfresh W (hW.cons s) hl h
          · obtain ⟨W', hW', h⟩ := List.mem_map.1 h
            rw [happ] at h
            exact hdiff W W' hW (hG1.good W' hW').1 h.symm)
      refine ⟨st', N1.map (fun W => s :: W) ++ N2, hg2, (hG2.apps.trans hG1.apps).trans ha1, ?_, ?_, ?_, hG2.inv, ?_, ?_⟩
      · rw [hG2.calls, hG1.calls, hcl]
        simp [List.map_append, List.map_map, Function.comp_def]
      · intro W hW
        rcases List.mem_append.1 hW with hW | hW
        · obtain ⟨W', hW', rfl⟩ := List.mem_map.1 hW
          obtain ⟨g1, g2, g3⟩ := hG1.good W' hW'
          refine ⟨g1.cons_cons s, ?_, by rw [← happ]; exact g3⟩
          simp only [List.length_append, List.length_nil, List.length_cons] at g2 ⊢
          omega
        · exact ⟨(hG2.good W hW).1.cons s, (hG2.good W hW).2⟩
      · rw [List.nodup_append]
        refine ⟨hG1.nodup.map (fun a b h => by simpa using h), hG2.nodup, ?_⟩
        rintro W hW W2 hW2 rfl
        obtain ⟨W', _, rfl⟩ := List.mem_map.1 hW
        exact hsrest ((hG2.good _ hW2).1.subset (by simp))
      · refine Dom.trans hi.inv.num hG1.inv.inv.num hG2.inv.inv.num ?_ hG2.mono
        rw [← ht]; exact hG1.mono
      · intro W hW hl hoc
        rcases hsplit W hW with h | ⟨W', rfl, h⟩
        · rcases hG2.all W h hl hoc with h | h
          · exact .inl (by simp [h])
          · exact .inr h
        · rw [← happ] at hoc ⊢
          rcases hG1.all W' h (by simp only [List.length_append, List.length_nil, List.length_cons] at hl ⊢; omega) hoc with h | ⟨h1, h2⟩
          · exact .inl (by simp [h])
          · exact .inr ⟨h1, Dom.rank hG2.mono hG1.inv.inv.num hG2.inv.inv.num h2⟩

/-! ### iterative deepening -/

/-- what holds after the iterations up to the complexity `c` -/
structure DeepSpec (ρ : Rat → Rat) (cfg : IDSDConfig) (df : Frame) (target : Str × Str) (c : Nat) (st : IDSDState) (N : List (List Selector)) : Prop where
  calls : st.calls = N.map Pattern.new
  good : ∀ X ∈ N, X.Sublist ((selectorPairs df target.1).map (·.1)) ∧ X ≠ [] ∧ X.length ≤ c ∧ OccursIn df X
  nodup : N.Nodup
  inv : SInv ρ cfg df target st.calls st.top
  all : ∀ X, X.Sublist ((selectorPairs df target.1).map (·.1)) → X ≠ [] → X.length ≤ c → OccursIn df X →
    X ∈ N ∨ (computedCov ρ df target X < cfg.covT ∧ ∃ e ∈ st.top, 0 < e.rank)

theorem growTree_spec (hf : NominalFrame df target) (hm : MaskOK df target mask) (hn : 0 < df.nrows) (hnum : 0 < cfg.num) (c : Nat) (st : IDSDState)
    (N : List (List Selector)) (ha : AppsOK df target st.apps) (hD : DeepSpec ρ cfg df target c st N) :
    ∃ st' N', growTree ρ cfg (c + 1) (tpOf df target []) (fpOf df target []) mask ((selectorPairs df target.1).map (·.1)) (Pattern.new [])
        (List.replicate df.nrows true) st = .ok st' ∧ st'.apps = st.apps ∧ DeepSpec ρ cfg df target (c + 1) st' N' := by
  have hnod := nodup_sels hf
  have htext : ∀ s ∈ (selectorPairs df target.1).map (·.1), TextEq s := fun s hs => ((mem_sels hf).1 hs).1.2
  have hsl : ∀ X : List Selector, X.Sublist ((selectorPairs df target.1).map (·.1)) → (Pattern.new X).len = X.length := fun X hX =>
    new_len (fun t ht => htext t (hX.subset ht)) (hX.nodup hnod)
  have hlen : ∀ q ∈ st.calls, q.len ≤ c := by
    rw [hD.calls]
    intro q hq
    obtain ⟨X, hX, rfl⟩ := List.mem_map.1 hq
    rw [hsl X (hD.good X hX).1]
    exact (hD.good X hX).2.2.1
  unfold growTree
  rw [replicate_eq_covBits]
  obtain ⟨st1, b, hv, ha1, hcase⟩ := visit_cases (ρ := ρ) (cfg := cfg) hm hn (c + 1) (p := Pattern.new []) (X := []) (mem_new (by simp)) (by simp) st ha
  rw [hv]
  have happs1 : AppsOK df target st1.apps := by rw [ha1]; exact ha
  have hl0 : (Pattern.new []).len = 0 := new_len (X := []) (by simp) (by simp)
  have hocc : OccursIn df [] := ⟨0, hn, fun s hs => by simp at hs⟩
  rcases hcase with ⟨rfl, ht, hcl, hno⟩ | ⟨rfl, hpl, _⟩ | ⟨rfl, hpl, ho, ht, hcl⟩
  · simp only
    refine ⟨st1, N, rfl, ha1, by rw [hcl]; exact hD.calls, fun X hX => ?_, hD.nodup, by rw [ht, hcl]; exact hD.inv, ?_⟩
    · obtain ⟨h1, h2, h3, h4⟩ := hD.good X hX
      exact ⟨h1, h2, by omega, h4⟩
    · intro X h1 h2 h3 h4
      right
      rcases hno with hno | ⟨hno, hr⟩
      · exact absurd hocc hno
      · exact ⟨lt_of_le_of_lt (covOf_mono (ρ := ρ) hn (by simp)) hno, by rw [ht]; exact hr⟩
  · rw [hl0] at hpl; omega
  · simp only
    obtain ⟨st', M, hg, hG⟩ := growLoop_spec (ρ := ρ) (cfg := cfg) hf hm hn hnum (c + 1) ((selectorPairs df target.1).map (·.1)) [] st1 (by simp) (by simp) happs1
      (by rw [ht, hcl]; exact hD.inv) (by rw [hcl]; intro q hq; have := hlen q hq; omega)
      (fun W hW hl hmem => by
        rw [hcl] at hmem
        have := hlen _ hmem
        simp only [List.nil_append, List.length_nil, Nat.zero_add] at this hl
        rw [hsl W hW] at this
        omega)
    refine ⟨st', N ++ M, hg, hG.apps.trans ha1, ?_, ?_, ?_, hG.inv, ?_⟩
    · rw [hG.calls, hcl, hD.calls]; simp
    · intro X hX
      rcases List.mem_append.1 hX with hX | hX
      · obtain ⟨h1, h2, h3, h4⟩ := hD.good X hX
        exact ⟨h1, h2, by omega, h4⟩
      · obtain ⟨h1, h2, h3⟩ := hG.good X hX
        simp only [List.length_nil, Nat.zero_add, List.nil_append] at h2 h3
        exact ⟨h1, by rintro rfl; simp at h2, by omega, h3⟩
    · rw [List.nodup_append]
      refine ⟨hD.nodup, hG.nodup, ?_⟩
      rintro X hX X' hX' rfl
      have h1 := (hD.good X hX).2.2.1
      have h2 := (hG.good X hX').2.1
      simp only [List.length_nil, Nat.zero_add] at h2
      omega
    · intro X h1 h2 h3 h4
      rcases Nat.lt_or_ge c X.length with h | h
      · rcases hG.all X h1 (by simp; omega) (by simpa using h4) with h | h
        · exact .inl (by simp [h])
        · exact .inr (by simpa using h)
      · rcases hD.all X h1 h2 h h4 with h | ⟨h5, h6⟩
        · exact .inl (by simp [h])
        · refine .inr ⟨h5, Dom.rank hG.mono ?_ hG.inv.inv.num ?_⟩
          · rw [ht]; exact hD.inv.inv.num
          · rw [ht]; exact h6

theorem deepen_spec (hf : NominalFrame df target) (hm : MaskOK df target mask) (hn : 0 < df.nrows) (hnum : 0 < cfg.num) (k : Nat) :
    ∀ (c : Nat) (st : IDSDState) (N : List (List Selector)), AppsOK df target st.apps → DeepSpec ρ cfg df target c st N →
    ∃ st' N', deepen ρ cfg (tpOf df target []) (fpOf df target []) mask ((selectorPairs df target.1).map (·.1)) df.nrows
        ((List.range k).map (fun i => c + i + 1)) st = .ok st' ∧ st'.apps = st.apps ∧ DeepSpec ρ cfg df target (c + k) st' N' := by
  induction k with
  | zero => intro c st N _ hD; exact ⟨st, N, rfl, rfl, hD⟩
  | succ k ih =>
    intro c st N ha hD
    rw [List.range_succ_eq_map, List.map_cons, List.map_map, deepen]
    obtain ⟨st1, N1, hg, ha1, hD1⟩ := growTree_spec hf hm hn hnum c st N ha hD
    rw [Nat.add_zero, hg]
    simp only
    obtain ⟨st', N', h1, h2, h3⟩ := ih (c + 1) st1 N1 (by rw [ha1]; exact ha) hD1
    refine ⟨st', N', ?_, h2.trans ha1, ?_⟩
    · rw [← h1]
      congr 1
      apply List.map_congr_left
      intro i _
      simp only [Function.comp]
      omega
    · have : c + (k + 1) = c + 1 + k := by omega
      rw [this]; exact h3

theorem fit_spec (hf : NominalFrame df target) (ht : OccursIn df [targetSel target]) (hnum : 0 < cfg.num) (st : IDSDState)
    (hA : ∀ a ∈ st.apps.head?, df.nrows ≤ a.2.length) :
    ∃ st' N, fit ρ cfg st df target = .ok st' ∧
      st'.apps = (selectorPairs (reduceCategories cfg.ties cfg.cats df target.1) target.1).foldl (fun d e => setApp d e.1 e.2) st.apps ∧
      DeepSpec ρ cfg (reduceCategories cfg.ties cfg.cats df target.1) target (maxComplexity cfg (reduceCategories cfg.ties cfg.cats df target.1)) st' N := by
  obtain ⟨mask, hm0, hm1, hm2⟩ := targetMask_ok hf
  have hf' := reduce_nominal hf (ties := cfg.ties) cfg.cats
  have hm' : MaskOK (reduceCategories cfg.ties cfg.cats df target.1) target mask := by
    obtain ⟨mask', h0, h1, h2⟩ := targetMask_ok hf'
    rw [reduce_target, hm0] at h0
    cases h0
    exact ⟨h1, h2⟩
  have hn : 0 < (reduceCategories cfg.ties cfg.cats df target.1).nrows := by
    rw [reduce_nrows]
    obtain ⟨i, hi, _⟩ := ht
    omega
  unfold fit
  rw [nominal_of hf, hm0]
  simp only [Bool.not_true, Bool.false_eq_true, if_false]
  rw [(matches_iff ⟨hm1, hm2⟩).2 ht]
  simp only [Bool.not_true, Bool.false_eq_true, if_false]
  generalize hdf : reduceCategories cfg.ties cfg.cats df target.1 = df' at *
  have hr : df.nrows = df'.nrows := by rw [← hdf, reduce_nrows]
  haveI : RoundsFor ρ df'.nrows := hr ▸ hρ
  obtain ⟨hc1, hc2⟩ := count_true_mask hf' hm'.len hm'.iff
  rw [hr, hc2, hc1]
  obtain ⟨st', N, h1, h2, h3⟩ := deepen_spec (ρ := ρ) (cfg := cfg) hf' hm' hn hnum (maxComplexity cfg df') 0
    { st with top := [], calls := [], apps := (selectorPairs df' target.1).foldl (fun d e => setApp d e.1 e.2) st.apps } []
    (appsOK_fold hf' (by rw [← hr]; exact hA))
    ⟨rfl, by simp, by simp, SInv.empty, by
      intro X _ h2 h3
      exact absurd (List.length_eq_zero_iff.1 (Nat.le_zero.1 h3)) h2⟩
  refine ⟨st', N, ?_, h2, by simpa using h3⟩
  rw [← h1]
  congr 1
  apply List.map_congr_left
  intro i _
  omega

theorem visit_shift (hm : MaskOK df target mask) (hn : 0 < df.nrows) {A : List (Selector × Bits)} (hA : AppsOK df target A) (a b d c : Nat)
    {p : Pattern} {X : List Selector} (hX : ∀ s, s ∈ p.sels ↔ s ∈ X) (hs : ∀ s ∈ X, s ∈ (selectorPairs df target.1).map (·.1)) (st : IDSDState)
    (ha : AppsOK df target st.apps) :
    visit ρ cfg c (tpOf df target []) (fpOf df target []) mask p (covBits df X) (shift A a b d st) =
      (visit ρ cfg c (tpOf df target []) (fpOf df target []) mask p (covBits df X) st).map (fun r => (shift A a b d r.1, r.2)) := by
  unfold visit
  simp only
  split
  · rfl
  · split
    · simp only [Except.map, shift, Nat.add_assoc]
    · rename_i cov _ _
      simp only [shift]
      by_cases h1 : st.top.length = cfg.num ∧ lastRankPos st.top = true ∧ ¬ (cov ≥ cfg.covT)
      · rw [if_pos h1]
        refine (if_pos h1).trans ?_
        simp only [Except.map, Nat.add_assoc]
      · rw [if_neg h1]
        refine (if_neg h1).trans ?_
        by_cases h2 : p.len = c
        · simp only [if_pos h2]
          rw [covBits_congr (df := df) (fun s => (hX s).symm), handle_eq cfg hm hn (fun s h => hs s ((hX s).1 h)) _ hA,
            handle_eq cfg hm hn (fun s h => hs s ((hX s).1 h)) _ (by exact ha)]
          simp only [Except.map, Nat.add_assoc]
        · simp only [if_neg h2]
          simp only [Except.map, Nat.add_assoc]

theorem visit_apps {c TP FP : Nat} {p : Pattern} {app : Bits} {st st' : IDSDState} {b : Bool} (h : visit ρ cfg c TP FP mask p app st = .ok (st', b)) :
    st'.apps = st.apps := by
  have hh : ∀ {st1 st2 : IDSDState}, handle ρ cfg TP FP mask p app st1 = .ok st2 → st2.apps = st1.apps := by
    intro st1 st2 h
    unfold handle at h
    simp only at h
    split at h
    · cases h
    · cases h; rfl
  unfold visit at h
  simp only at h
  split at h
  · cases h
  · by_cases h1 : ‹Rat› = 0
    · rw [if_pos h1] at h
      cases h; rfl
    · rw [if_neg h1] at h
      by_cases h2 : st.top.length = cfg.num ∧ lastRankPos st.top = true ∧ ¬ (‹Rat› ≥ cfg.covT)
      · have h := (if_pos h2).symm.trans h
        cases h; rfl
      · have h := (if_neg h2).symm.trans h
        by_cases h3 : p.len = c
        · simp only [if_pos h3] at h
          split at h
          · cases h
          · rename_i h4
            cases h
            have := hh h4
            exact this
        · simp only [if_neg h3] at h
          cases h; rfl

theorem growLoop_apps {c TP FP : Nat} (l : List Selector) : ∀ {p : Pattern} {app : Bits} {st st' : IDSDState},
    growLoop ρ cfg c TP FP mask l p app st = .ok st' → st'.apps = st.apps := by
  induction l with
  | nil => intro p app st st' h; cases h; rfl
  | cons s l ih =>
    intro p app st st' h
    rw [growLoop] at h
    split at h
    · cases h
    · split at h
      · cases h
      · rename_i hv
        exact (ih h).trans (visit_apps hv)
      · rename_i hv
        split at h
        · cases h
        · rename_i h1
          exact ((ih h).trans (ih h1)).trans (visit_apps hv)

theorem growLoop_shift (hf : NominalFrame df target) (hm : MaskOK df target mask) (hn : 0 < df.nrows) {A : List (Selector × Bits)} (hA : AppsOK df target A)
    (a b d c : Nat) (l : List Selector) (hl : ∀ s ∈ l, s ∈ (selectorPairs df target.1).map (·.1)) :
    ∀ (Y : List Selector) (st : IDSDState), (∀ s ∈ Y, s ∈ (selectorPairs df target.1).map (·.1)) → AppsOK df target st.apps →
    growLoop ρ cfg c (tpOf df target []) (fpOf df target []) mask l (Pattern.new Y) (covBits df Y) (shift A a b d st) =
      (growLoop ρ cfg c (tpOf df target []) (fpOf df target []) mask l (Pattern.new Y) (covBits df Y) st).map (shift A a b d) := by
  have htext : ∀ s ∈ (selectorPairs df target.1).map (·.1), TextEq s := fun s hs => ((mem_sels hf).1 hs).1.2
  induction l with
  | nil => intro Y st _ _; rfl
  | cons s rest ih =>
    intro Y st hY ha
    have hsm := hl s (by simp)
    have hY' : ∀ t ∈ Y ++ [s], t ∈ (selectorPairs df target.1).map (·.1) := fun t ht => by
      rcases List.mem_append.1 ht with h | h
      · exact hY t h
      · rw [List.mem_singleton.1 h]; exact hsm
    have ih := ih (fun t ht => hl t (by simp [ht]))
    rw [growLoop, growLoop]
    have e1 : (shift A a b d st).apps.lookup s = some (covBits df [s]) := hA.lookup s hsm
    rw [e1, ha.lookup s hsm]
    simp only
    rw [add_new (fun t ht => htext t (hY t ht)) (htext s hsm), alignAnd_covBits,
      visit_shift hm hn hA a b d c (mem_new (fun t ht => htext t (hY' t ht))) hY' st ha]
    cases hv : visit ρ cfg c (tpOf df target []) (fpOf df target []) mask (Pattern.new (Y ++ [s])) (covBits df (Y ++ [s])) st with
    | error e => rfl
    | ok r =>
      obtain ⟨st1, g⟩ := r
      have ha1 : AppsOK df target st1.apps := by rw [visit_apps hv]; exact ha
      cases g
      · exact ih Y st1 hY ha1
      · simp only [Except.map]
        rw [ih (Y ++ [s]) st1 hY' ha1]
        cases hg : growLoop ρ cfg c (tpOf df target []) (fpOf df target []) mask rest (Pattern.new (Y ++ [s])) (covBits df (Y ++ [s])) st1 with
        | error e => rfl
        | ok st2 =>
          simp only [Except.map]
          rw [ih Y st2 hY (by rw [growLoop_apps rest hg]; exact ha1)]
          rfl

theorem deepen_shift (hf : NominalFrame df target) (hm : MaskOK df target mask) (hn : 0 < df.nrows) {A : List (Selector × Bits)} (hA : AppsOK df target A)
    (a b d : Nat) (cs : List Nat) : ∀ (st : IDSDState), AppsOK df target st.apps →
    deepen ρ cfg (tpOf df target []) (fpOf df target []) mask ((selectorPairs df target.1).map (·.1)) df.nrows cs (shift A a b d st) =
      (deepen ρ cfg (tpOf df target []) (fpOf df target []) mask ((selectorPairs df target.1).map (·.1)) df.nrows cs st).map (shift A a b d) := by
  induction cs with
  | nil => intro st _; rfl
  | cons c cs ih =>
    intro st ha
    rw [deepen, deepen]
    unfold growTree
    rw [replicate_eq_covBits, visit_shift hm hn hA a b d c (mem_new (by simp)) (by simp) st ha]
    cases hv : visit ρ cfg c (tpOf df target []) (fpOf df target []) mask (Pattern.new []) (covBits df []) st with
    | error e => rfl
    | ok r =>
      obtain ⟨st1, g⟩ := r
      have ha1 : AppsOK df target st1.apps := by rw [visit_apps hv]; exact ha
      cases g
      · exact ih st1 ha1
      · simp only [Except.map]
        rw [growLoop_shift hf hm hn hA a b d c _ (fun s h => h) [] st1 (by simp) ha1]
        cases hg : growLoop ρ cfg c (tpOf df target []) (fpOf df target []) mask ((selectorPairs df target.1).map (·.1)) (Pattern.new []) (covBits df []) st1 with
        | error e => rfl
        | ok st2 =>
          simp only [Except.map]
          rw [ih st2 (by rw [growLoop_apps _ hg]; exact ha1)]
          rfl

/-- a later `fit` gives the list of a new object, and the counters go on -/
theorem fit_shift (hf : NominalFrame df target) (ht : OccursIn df [targetSel target]) (st : IDSDState)
    (hA : ∀ a ∈ st.apps.head?, df.nrows ≤ a.2.length) :
    ∃ A, (∀ a ∈ A.head?, df.nrows ≤ a.2.length) ∧ fit ρ cfg st df target = (fit ρ cfg .init df target).map (shift A st.visited st.nonUnique st.pruned) := by
  obtain ⟨mask, hm0, hm1, hm2⟩ := targetMask_ok hf
  have hf' := reduce_nominal hf (ties := cfg.ties) cfg.cats
  have hm' : MaskOK (reduceCategories cfg.ties cfg.cats df target.1) target mask := by
    obtain ⟨mask', h0, h1, h2⟩ := targetMask_ok hf'
    rw [reduce_target, hm0] at h0
    cases h0
    exact ⟨h1, h2⟩
  have hn : 0 < (reduceCategories cfg.ties cfg.cats df target.1).nrows := by
    rw [reduce_nrows]
    obtain ⟨i, hi, _⟩ := ht
    omega
  unfold fit
  rw [nominal_of hf, hm0]
  simp only [Bool.not_true, Bool.false_eq_true, if_false]
  rw [(matches_iff ⟨hm1, hm2⟩).2 ht]
  simp only [Bool.not_true, Bool.false_eq_true, if_false]
  generalize hdf : reduceCategories cfg.ties cfg.cats df target.1 = df' at *
  have hr : df.nrows = df'.nrows := by rw [← hdf, reduce_nrows]
  haveI : RoundsFor ρ df'.nrows := hr ▸ hρ
  obtain ⟨hc1, hc2⟩ := count_true_mask hf' hm'.len hm'.iff
  rw [hr] at hA ⊢
  have hap := appsOK_fold hf' hA
  refine ⟨_, hap.first, ?_⟩
  rw [hc2, hc1]
  rw [← deepen_shift hf' hm' hn hap st.visited st.nonUnique st.pruned _ _ (appsOK_fold hf' (d := []) (by simp))]
  rfl

end
end Verif.IDSDRounded
