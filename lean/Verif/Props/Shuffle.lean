import Verif.Lemmas.Shuffle
import Verif.Props.Agree
import Verif.Props.IDSD
import Verif.Props.QFinder
/-! Property C94: the order of the rows and of the columns of the data does not matter. -/
namespace Verif
open Spec

section
open Classical
variable {df df' : Frame} {π : List Nat} {target : Str × Str}

/-! ## counts -/

/-- C94: row `i` of the shuffled data is covered by a set of selectors exactly when row `π[i]` of the original data is, and the number of covered rows with and
without the target is the same. -/
theorem C94_counts (h : Shuffled df df' π) (X : List Selector) :
    (∀ i j : Nat, π[i]? = some j → (Covers df' X i ↔ Covers df X j)) ∧ (OccursIn df' X ↔ OccursIn df X) ∧
    tpOf df' target X = tpOf df target X ∧ fpOf df' target X = fpOf df target X :=
  ⟨fun _ _ hj => shuffle_covers h.toIncludes (fun s _ => h.known s.attr) hj, shuffle_occurs h.toIncludes (fun s _ => h.known s.attr),
    shuffle_tpOf h.toIncludes (fun s _ => h.known s.attr) (h.known _), shuffle_fpOf h.toIncludes (fun s _ => h.known s.attr) (h.known _)⟩

theorem shuffled_tp (h : Shuffled df df' π) : tpOf df' target = tpOf df target := funext fun X => (C94_counts h X).2.2.1
theorem shuffled_fp (h : Shuffled df df' π) : fpOf df' target = fpOf df target := funext fun X => (C94_counts h X).2.2.2
theorem shuffled_occurs (h : Shuffled df df' π) : OccursIn df' = OccursIn df := funext fun X => propext (C94_counts (target := (([], []) : Str × Str)) h X).2.1

theorem shuffled_reportable (h : Shuffled df df' π) (th : Thresholds) (X : List Selector) : Reportable th df' target X ↔ Reportable th df target X := by
  unfold Reportable; rw [shuffled_tp h, shuffled_fp h, shuffled_occurs h]

theorem shuffled_quality (h : Shuffled df df' π) (cfg : SDMapConfig) : qualityOf cfg df' target = qualityOf cfg df target := by
  funext X; unfold qualityOf; rw [shuffled_tp h, shuffled_fp h]

theorem shuffled_line (h : Shuffled df df' π) : lineOf df' target = lineOf df target := by
  funext X q; unfold lineOf; rw [shuffled_tp h, shuffled_fp h]

/-! ## SDMap -/

/-- two calls of a result are the same when they are for the same pattern -/
theorem shuffled_calls {th : Thresholds} {c c' : List (Pattern × Cnt)} (hc : CallsExact th df target c)
    (hc' : CallsExact th df' target c') (h : Shuffled df df' π) : c.Perm c' := by
  refine (List.perm_ext_iff_of_nodup hc.distinct.of_map hc'.distinct.of_map).2 (fun r => ?_)
  constructor
  · intro hr
    obtain ⟨h1, h2⟩ := hc.sound r hr
    obtain ⟨r', hr', he⟩ := hc'.complete _ ((shuffled_reportable h th _).2 h1)
    obtain ⟨_, h4⟩ := hc'.sound r' hr'
    have : r' = r := by
      obtain ⟨⟨p⟩, n⟩ := r
      obtain ⟨⟨p'⟩, n'⟩ := r'
      simp only at he h2 h4
      subst he
      rw [h2, h4, shuffled_tp h, shuffled_fp h]
    rwa [← this]
  · intro hr
    obtain ⟨h1, h2⟩ := hc'.sound r hr
    obtain ⟨r', hr', he⟩ := hc.complete _ ((shuffled_reportable h th _).1 h1)
    obtain ⟨_, h4⟩ := hc.sound r' hr'
    have : r' = r := by
      obtain ⟨⟨p⟩, n⟩ := r
      obtain ⟨⟨p'⟩, n'⟩ := r'
      simp only at he h2 h4
      subst he
      rw [h2, h4, shuffled_tp h, shuffled_fp h]
    rwa [← this]

/-- C94, SDMap: on shuffled data `fit` ends without error exactly when it does on the original data, and then it evaluates the same descriptions with the same counts, writes the same
lines and ends with the same counters; only the order of the lines and of the evaluations may differ. -/
theorem C94_sdmap (h : Shuffled df df' π) (hf : NominalFrame df target) (hk : KeysFaithful df target) (cfg : SDMapConfig) (st : SDMapState) :
    ((∃ r, cfg.fit st df target = .ok r) ↔ ∃ r, cfg.fit st df' target = .ok r) ∧
    ∀ r r', cfg.fit st df target = .ok r → cfg.fit st df' target = .ok r' →
      r'.file.Perm r.file ∧ r'.selected = r.selected ∧ r'.unselected = r.unselected ∧
      ∃ c c', r.calls = st.calls ++ c ∧ r'.calls = st.calls ++ c' ∧ c'.Perm c := by
  have hf' := shuffle_nominal h hf
  have hk' := shuffle_keys h hf hk
  constructor
  · rw [C24_total cfg df target hf hk st, C24_total cfg df' target hf' hk' st]
    simp only [shuffled_reportable h, shuffled_quality h]
  · intro r r' hr hr'
    obtain ⟨c, a1, a2, a3, a4, a5⟩ := fit_spec hf hk hr
    obtain ⟨c', b1, b2, b3, b4, b5⟩ := fit_spec hf' hk' hr'
    have hp := shuffled_calls a1 b1 h
    by_cases hc : c = []
    · have hc' : c' = [] := by rw [hc] at hp; exact hp.symm.eq_nil
      rw [a4 hc, b4 hc']
      exact ⟨List.Perm.refl _, rfl, rfl, [], [], by simp, by simp, List.Perm.refl _⟩
    · have hc' : c' ≠ [] := fun hn => hc (by rw [hn] at hp; exact hp.eq_nil)
      obtain ⟨p1, p2, p3⟩ := a5 hc
      obtain ⟨q1, q2, q3⟩ := b5 hc'
      have hfile : r'.file.Perm r.file := by
        refine (List.perm_ext_iff_of_nodup (b1.distinct.sublist q2).of_map (a1.distinct.sublist p2).of_map).2 (fun l => ?_)
        rw [p3, q3]
        simp only [shuffled_reportable h, shuffled_quality h, shuffled_line h]
      have hlen := hfile.length_eq
      have hcl := hp.length_eq
      exact ⟨hfile, by omega, by omega, c, c', a2, b2, hp.symm⟩

/-- C94, SDMapStar with `num_subgroups = 0`: the same. -/
theorem C94_star (h : Shuffled df df' π) (hf : NominalFrame df target) (hk : KeysFaithful df target) (cfg : SDMapStarConfig) (h0 : cfg.num = 0) (st : StarState) :
    ((∃ r, cfg.fit st df target = .ok r) ↔ ∃ r, cfg.fit st df' target = .ok r) ∧
    ∀ r r', cfg.fit st df target = .ok r → cfg.fit st df' target = .ok r' →
      r'.base.file.Perm r.base.file ∧ r'.base.selected = r.base.selected ∧ r'.base.unselected = r.base.unselected := by
  obtain ⟨a1, a2⟩ := C26 cfg h0 df target hf hk st
  obtain ⟨b1, b2⟩ := C26 cfg h0 df' target (shuffle_nominal h hf) (shuffle_keys h hf hk) st
  obtain ⟨c1, c2⟩ := C94_sdmap h hf hk cfg.toSDMapConfig st.base
  refine ⟨by rw [a1, b1, c1], fun r r' hr hr' => ?_⟩
  obtain ⟨s, hs⟩ := a1.1 ⟨r, hr⟩
  obtain ⟨s', hs'⟩ := b1.1 ⟨r', hr'⟩
  obtain ⟨_, _, e1, e2, e3⟩ := a2 r s hr hs
  obtain ⟨_, _, f1, f2, f3⟩ := b2 r' s' hr' hs'
  obtain ⟨g1, g2, g3, _⟩ := c2 s s' hs hs'
  exact ⟨f1.trans (g1.trans e1.symm), by rw [f2, g2, e2], by rw [f3, g3, e3]⟩

/-! ## VLSD -/

theorem shuffled_vlQuality (h : Shuffled df df' π) (cfg : VLSDConfig) : vlQualityOf cfg df' target = vlQualityOf cfg df target := by
  funext X; unfold vlQualityOf; rw [shuffled_tp h, shuffled_fp h]

theorem shuffled_estimate (h : Shuffled df df' π) (cfg : VLSDConfig) : estimateOf cfg df' target = estimateOf cfg df target := by
  funext X; unfold estimateOf; rw [shuffled_tp h, shuffled_fp h]

theorem shuffled_suits (h : Shuffled df df' π) (cfg : VLSDConfig) : Suits cfg df' target ↔ Suits cfg df target := by
  have : ∀ d : Frame, Suits cfg d target ↔ BoundsRefinements cfg d target ∧ EstimateDefined cfg d target :=
    fun d => ⟨fun s => ⟨s.bounds, s.defined⟩, fun s => ⟨s.1, s.2⟩⟩
  rw [this, this]
  unfold BoundsRefinements EstimateDefined
  rw [shuffled_vlQuality h, shuffled_estimate h, shuffled_occurs h]

/-- the line of `df'` is that of `df`, with the rows renumbered -/
structure Spec.SameVLine {Seq : Type} (has : Seq → Nat → Prop) (π : List Nat) (l l' : VLine Seq) : Prop where
  seen : VLine.seen l' = VLine.seen l
  estimate : l'.estimate = l.estimate
  tpRows : ∀ i j : Nat, π[i]? = some j → (has l'.tpSeq i ↔ has l.tpSeq j)
  fpRows : ∀ i j : Nat, π[i]? = some j → (has l'.fpSeq i ↔ has l.fpSeq j)

theorem vlsd_shuffled {Seq : Type} {has : Seq → Nat → Prop} {cfg : VLSDConfig} (h : Shuffled df df' π) (hs : Suits cfg df target) (hle : cfg.minEstimate ≤ cfg.minQuality)
    {st r r' : VLState Seq} {c c' : List (VList Selector Seq)} (hr : VLSDRun has cfg df target st r c) (hr' : VLSDRun has cfg df' target st r' c') :
    (r'.file.map VLine.seen).Perm (r.file.map VLine.seen) ∧ r'.selected = r.selected ∧ ∀ l' ∈ r'.file, ∃ l ∈ r.file, SameVLine has π l l' := by
  have hs' := (shuffled_suits h cfg).2 hs
  have hperm : (r'.file.map VLine.seen).Perm (r.file.map VLine.seen) := by
    refine perm_seen (vlsd_seen_nodup hr') (vlsd_seen_nodup hr) (fun x => ?_)
    rw [vlsd_seen hr hs.bounds hs.defined hle, vlsd_seen hr' hs'.bounds hs'.defined hle, shuffled_vlQuality h, shuffled_tp h, shuffled_fp h, shuffled_occurs h]
  refine ⟨hperm, ?_, ?_⟩
  · have := hperm.length_eq
    rw [List.length_map, List.length_map] at this
    rw [hr.selected, hr'.selected, this]
  · intro l' hl'
    obtain ⟨X, hX⟩ := hr'.lines l' hl'
    have : VLine.seen l' ∈ r.file.map VLine.seen := hperm.mem_iff.1 (List.mem_map_of_mem hl')
    obtain ⟨l, hl, he⟩ := List.mem_map.1 this
    obtain ⟨Y, hY⟩ := hr.lines l hl
    have hXY : X = Y := by
      have := congrArg (·.1) he
      simp only [VLine.seen] at this
      rw [hY.subgroup, hX.subgroup] at this
      simpa using this.symm
    subst hXY
    have hrow : ∀ i j : Nat, π[i]? = some j → (i < df'.nrows ↔ j < df.nrows) := by
      intro i j hj
      have h1 : i < df'.nrows := by
        have := (List.getElem?_eq_some_iff.1 hj).1
        rw [h.perm.length_eq, List.length_range] at this
        rw [h.rows]; exact this
      have h2 : j < df.nrows := by
        obtain ⟨j', e, hlt⟩ := shuffle_row h.toIncludes (h.rows ▸ h1)
        rw [hj] at e; cases e; exact hlt
      exact ⟨fun _ => h2, fun _ => h1⟩
    refine ⟨l, hl, he.symm, ?_, ?_, ?_⟩
    · have h1 := hX.estimate
      rw [shuffled_estimate h, hY.estimate] at h1
      injection h1 with h1
      exact h1.symm
    · intro i j hj
      rw [hX.tpRows, hY.tpRows, hrow i j hj, (C94_counts (target := target) h X).1 i j hj, shuffle_matches h.toIncludes (h.known _) hj]
    · intro i j hj
      rw [hX.fpRows, hY.fpRows, hrow i j hj, (C94_counts (target := target) h X).1 i j hj, shuffle_matches h.toIncludes (h.known _) hj]

section
variable (measure : Params → Except PyErr Rat) (minQ : Rat) (estimate : Params → Except PyErr Rat) (minE : Rat) (x xo : Params)
  (s1 s2 : SortCriterion) (he : LookupOnly estimate)
  (h : Shuffled df df' π) (hf : NominalFrame df target) (hs : Suits (VLSDConfig.new measure minQ estimate minE x xo s1 s2) df target) (hle : minE ≤ minQ)
include he h hf hs hle

/-- C94, VLSD with bitsets, when the estimate suits the measure (C70) and its threshold is not above that of the quality: on shuffled data the same lines are written, up to the order:
the same subgroups with the same values, counts and estimates, and the bit of row `i` is that of row `π[i]` in the original data. -/
theorem C94_vlsd_bitsets (st r r' : VLState Bits) (hr : (VLSDConfig.new measure minQ estimate minE x xo s1 s2).fit .bitsets st df target = .ok r)
    (hr' : (VLSDConfig.new measure minQ estimate minE x xo s1 s2).fit .bitsets st df' target = .ok r') :
    (r'.file.map VLine.seen).Perm (r.file.map VLine.seen) ∧ r'.selected = r.selected ∧ ∀ l' ∈ r'.file, ∃ l ∈ r.file, SameVLine (fun s i => s.get i = true) π l l' := by
  obtain ⟨c, a⟩ := C29_bitsets measure minQ estimate minE x xo s1 s2 he df target hf st r hr
  obtain ⟨c', b⟩ := C29_bitsets measure minQ estimate minE x xo s1 s2 he df' target (shuffle_nominal h hf) st r' hr'
  exact vlsd_shuffled h hs hle a b

/-- C94, VLSD with sets of row numbers: the same. -/
theorem C94_vlsd_sets (st r r' : VLState (List Nat)) (hr : (VLSDConfig.new measure minQ estimate minE x xo s1 s2).fit .sets st df target = .ok r)
    (hr' : (VLSDConfig.new measure minQ estimate minE x xo s1 s2).fit .sets st df' target = .ok r') :
    (r'.file.map VLine.seen).Perm (r.file.map VLine.seen) ∧ r'.selected = r.selected ∧ ∀ l' ∈ r'.file, ∃ l ∈ r.file, SameVLine (fun s i => i ∈ s) π l l' := by
  obtain ⟨c, a⟩ := C29_sets measure minQ estimate minE x xo s1 s2 he df target hf st r hr
  obtain ⟨c', b⟩ := C29_sets measure minQ estimate minE x xo s1 s2 he df' target (shuffle_nominal h hf) st r' hr'
  exact vlsd_shuffled h hs hle a b
end

/-! ## BSD, CBSD, CPBSD -/

theorem shuffled_bsdQuality (h : Shuffled df df' π) (cfg : BSDConfig) : bsdQuality cfg df' target = bsdQuality cfg df target := by
  funext X; unfold bsdQuality; rw [shuffled_tp h, shuffled_fp h]
theorem shuffled_bsdEstimate (h : Shuffled df df' π) (cfg : BSDConfig) : bsdEstimate cfg df' target = bsdEstimate cfg df target := by
  funext X; unfold bsdEstimate; rw [shuffled_tp h, shuffled_fp h]

theorem shuffled_texts (h : Shuffled df df' π) : TextsFaithful df' target ↔ TextsFaithful df target := by
  unfold TextsFaithful; rw [shuffled_occurs h]

theorem shuffled_above (h : Shuffled df df' π) (cfg : BSDConfig) : BSDAbove cfg df' target ↔ BSDAbove cfg df target := by
  unfold BSDAbove; rw [shuffled_occurs h, shuffled_bsdQuality h]

theorem shuffled_bounds (h : Shuffled df df' π) (cfg : BSDConfig) : BSDBounds cfg df' target ↔ BSDBounds cfg df target := by
  unfold BSDBounds; rw [shuffled_occurs h, shuffled_bsdQuality h, shuffled_bsdEstimate h]

theorem shuffled_monotone (h : Shuffled df df' π) (cfg : BSDConfig) : BSDMonotone cfg df' target ↔ BSDMonotone cfg df target := by
  unfold BSDMonotone; rw [shuffled_occurs h, shuffled_bsdQuality h, shuffled_tp h, shuffled_fp h]

theorem bsd_best_le {cfg : BSDConfig} (hn : 0 < cfg.num) {a b : Frame}
    (hq : bsdQuality cfg b target = bsdQuality cfg a target) (ho : OccursIn b = OccursIn a) (htp : tpOf b target = tpOf a target)
    (haa : BSDAbove cfg a target) (hfa : NominalFrame a target) (hta : TextsFaithful a target)
    (hab : BSDAbove cfg b target) (hfb : NominalFrame b target) (htb : TextsFaithful b target) (hbb : BSDBounds cfg b target)
    (hm : cfg.variant = .bsd → BSDMonotone cfg b target) {r r' : BSDState} (hr : cfg.fit .fresh a target = .ok r) (hr' : cfg.fit .fresh b target = .ok r') :
    ∀ l ∈ r.file, ∃ l' ∈ r'.file, l.quality ≤ l'.quality := by
  intro l hl
  obtain ⟨e, he, hx⟩ := (C31_fit hn haa hfa hta r hr).2.2.1 l hl
  obtain ⟨_, h2, h3⟩ := (C34_exact hn haa hfa hta r hr).1 e he
  have hnod : e.pat.sels.Nodup := by
    refine hx.sorted.imp_of_mem ?_
    rintro u v hu hv huv rfl
    exact absurd ((TextEq.lt_key (textEq_of_describes hx.describes u hu) (textEq_of_describes hx.describes u hu)).1 huv) (lt_irrefl _)
  exact C53_best hn hab hfb htb hbb hm r' hr' e.pat.sels l.quality hx.describes.1 hnod
    (fun s hs => by have := h2 s hs; unfold BSDFrequentSel at this ⊢; rw [ho, htp]; exact this) h3 (by rw [ho]; exact hx.occurs) (by rw [hq]; exact hx.quality)

/-- C94, BSD, CBSD and CPBSD: under the conditions of C53 the best quality that is reported is the same on shuffled data (the reported subgroups may differ when several have the same
quality, see `C94_bsd_ties`). -/
theorem C94_bsd_best (h : Shuffled df df' π) (hf : NominalFrame df target) (ht : TextsFaithful df target) (cfg : BSDConfig) (hn : 0 < cfg.num) (ha : BSDAbove cfg df target)
    (hb : BSDBounds cfg df target) (hm : cfg.variant = .bsd → BSDMonotone cfg df target) (r r' : BSDState)
    (hr : cfg.fit .fresh df target = .ok r) (hr' : cfg.fit .fresh df' target = .ok r') :
    (∀ l ∈ r.file, ∃ l' ∈ r'.file, l.quality ≤ l'.quality) ∧ (∀ l' ∈ r'.file, ∃ l ∈ r.file, l'.quality ≤ l.quality) := by
  have hf' := shuffle_nominal h hf
  have ha' := (shuffled_above h cfg).2 ha
  have ht' := (shuffled_texts h).2 ht
  constructor
  · exact bsd_best_le hn (shuffled_bsdQuality h cfg) (shuffled_occurs h) (shuffled_tp h) ha hf ht ha' hf' ht' ((shuffled_bounds h cfg).2 hb)
      (fun hv => (shuffled_monotone h cfg).2 (hm hv)) hr hr'
  · exact bsd_best_le hn (shuffled_bsdQuality h cfg).symm (shuffled_occurs h).symm (shuffled_tp h).symm ha' hf' ht' ha hf ht hb hm hr' hr

/-! ## IDSD -/

theorem shuffled_entry (h : Shuffled df df' π) (cfg : IDSDConfig) (p : Pattern) : entryOf cfg df' target p = entryOf cfg df target p := by
  have h1 : oddsOf df' target = oddsOf df target := by funext X; unfold oddsOf; rw [shuffled_tp h, shuffled_fp h]
  have h2 : covOf df' target = covOf df target := by funext X; unfold covOf; rw [shuffled_tp h, shuffled_fp h, h.rows]
  have h3 : pvalOf cfg df' target = pvalOf cfg df target := by funext X; unfold pvalOf; rw [shuffled_tp h, shuffled_fp h]
  have h4 : contribOf df' target = contribOf df target := by funext X; unfold contribOf; rw [h1]
  have h5 : criteriaOf cfg df' target = criteriaOf cfg df target := by funext X; unfold criteriaOf; rw [h1, h2, h3, h4]
  have h6 : rankOf cfg df' target = rankOf cfg df target := by funext X; unfold rankOf; rw [h5]
  have h7 : credOf cfg df' target = credOf cfg df target := by funext X; unfold credOf; rw [h6, h1, h2, h3, h4]
  unfold entryOf
  rw [h6, h7]

theorem idsd_best_le {cfg : IDSDConfig} (hc : cfg.cats = -1) (hnum : 0 < cfg.num) {a b : Frame} (he : ∀ p, entryOf cfg b target p = entryOf cfg a target p)
    (ho : OccursIn b = OccursIn a) (hlen : b.cols.length = a.cols.length) (hfa : NominalFrame a target) (hta : OccursIn a [targetSel target])
    (hfb : NominalFrame b target) {r r' : IDSDState} (hr : IDSD.fit cfg .init a target = .ok r) (hr' : IDSD.fit cfg .init b target = .ok r') :
    ∀ e, r.top.head? = some e → ∃ e', r'.top.head? = some e' ∧ NotBetter e e' := by
  intro e hh
  have hm : e ∈ r.top := List.mem_of_mem_head? hh
  have red : ∀ d : Frame, searched cfg d target = d := fun d => by unfold searched IDSD.reduceCategories; rw [if_pos hc]
  obtain ⟨g1, g2, g3, g4, g5, g6⟩ := C36_exact hfa hta hnum hr e hm
  obtain ⟨st1, N, i1, i2⟩ := idsd_fit (cfg := cfg) hfa hta hnum (st := .init) (by simp [IDSDState.init])
  rw [i1] at hr
  cases hr
  have hcall := (i2.inv.exact e hm).1
  rw [i2.calls] at hcall
  obtain ⟨X, hX, hp⟩ := List.mem_map.1 hcall
  rw [red] at i2
  have htext : ∀ s ∈ X, TextEq s := fun s hs => ((IDSD.mem_sels hfa).1 ((i2.good X hX).1.subset hs)).1.2
  obtain ⟨n1, n2⟩ := new_text htext
  have hpat : Pattern.new e.pat.sels = e.pat := by
    refine (IDSD.new_sels_eq (fun s hs => ?_) ?_ (fun s => Iff.rfl)).symm
    · rw [← hp] at hs; exact htext s ((n2 s).1 hs)
    · rw [← hp]; exact n1
  have hl : (Pattern.new e.pat.sels).len ≤ maxSelectors cfg b := by
    rw [hpat]
    have : maxSelectors cfg b = maxSelectors cfg a := by unfold maxSelectors; rw [hlen]
    rw [this]; exact g3
  obtain ⟨e', h1, h2⟩ := C36_best hfb (by rw [ho]; exact hta) hnum hr' g1 (by rw [red, ho]; rw [red] at g2; exact g2) hl
  refine ⟨e', h1, ?_⟩
  rw [red, he, hpat] at h2
  rw [red] at g4 g5
  unfold NotBetter entryOf at h2
  unfold NotBetter
  rw [g6, g5, g4]
  exact h2

/-- C94, IDSD without limit on the categories: on shuffled data the best reported subgroup has the same rank and the same odds ratio, and there is none exactly when there was none
(the reported subgroups may differ when several are equally good, see `C94_idsd_ties`). -/
theorem C94_idsd_best (h : Shuffled df df' π) (hf : NominalFrame df target) (ht : OccursIn df [targetSel target]) (cfg : IDSDConfig) (hc : cfg.cats = -1) (hnum : 0 < cfg.num) :
    ∃ r r', IDSD.fit cfg .init df target = .ok r ∧ IDSD.fit cfg .init df' target = .ok r' ∧
      r'.top.head?.map (fun e => (e.rank, e.odds)) = r.top.head?.map (fun e => (e.rank, e.odds)) := by
  have hf' := shuffle_nominal h hf
  have ht' : OccursIn df' [targetSel target] := by rw [shuffled_occurs h]; exact ht
  obtain ⟨r, h1, _⟩ := C36_size_sorted (cfg := cfg) hf ht hnum
  obtain ⟨r', h1', _⟩ := C36_size_sorted (cfg := cfg) hf' ht' hnum
  refine ⟨r, r', h1, h1', ?_⟩
  have hlen : df'.cols.length = df.cols.length := by simpa using h.columns.length_eq
  have a := idsd_best_le hc hnum (shuffled_entry h cfg) (shuffled_occurs h) hlen hf ht hf' h1 h1'
  have b := idsd_best_le hc hnum (fun p => (shuffled_entry h cfg p).symm) (shuffled_occurs h).symm hlen.symm hf' ht' hf h1' h1
  cases hx : r.top.head? with
  | none =>
    cases hy : r'.top.head? with
    | none => rfl
    | some e' =>
      obtain ⟨e, e1, _⟩ := b e' hy
      rw [hx] at e1; cases e1
  | some e =>
    obtain ⟨e', e1, e2⟩ := a e hx
    obtain ⟨e0, e3, e4⟩ := b e' e1
    rw [hx] at e3; cases e3
    rw [e1]
    simp only [Option.map_some, Option.some.injEq, Prod.mk.injEq]
    unfold NotBetter at e2 e4
    rcases e2 with e2 | ⟨e2, e5⟩ <;> rcases e4 with e4 | ⟨e4, e6⟩
    · omega
    · omega
    · omega
    · exact ⟨e4, XF.le_antisymm ((XF.le_iff _ _).2 e6) ((XF.le_iff _ _).2 e5)⟩

/-! ## QFinder -/

/-- the regression depends on how many rows have each pair of values (covered or not, target or not), not on the order of the rows -/
def Spec.RowOrderFree (cfg : QFConfig) : Prop :=
  ∀ (ps ps' : List (Bool × Bool)), ps.Perm ps' →
    cfg.glmOr (ps.map (·.1)) (ps.map (·.2)) = cfg.glmOr (ps'.map (·.1)) (ps'.map (·.2)) ∧ cfg.glmP (ps.map (·.1)) (ps.map (·.2)) = cfg.glmP (ps'.map (·.1)) (ps'.map (·.2))

/-- no column has more values than `cats` allows, or there is no limit -/
def Spec.WithinCategories (cfg : QFConfig) (df : Frame) (target : Str × Str) : Prop :=
  ∀ c ∈ df.cols, c.1 ≠ target.1 → (c.2.dedup.length : Int) ≤ cfg.cats ∨ cfg.cats = -1

theorem shuffled_rowBits (h : Shuffled df df' π) (X Y : List Selector) :
    ∃ ps ps' : List (Bool × Bool), ps'.Perm ps ∧ rowBits df X = ps.map (·.1) ∧ rowBits df Y = ps.map (·.2) ∧ rowBits df' X = ps'.map (·.1) ∧ rowBits df' Y = ps'.map (·.2) := by
  refine ⟨(List.range df.nrows).map (fun i => (decide (Covers df X i), decide (Covers df Y i))),
    π.map (fun i => (decide (Covers df X i), decide (Covers df Y i))), h.perm.map _, ?_, ?_, ?_, ?_⟩
  · rw [List.map_map]; rfl
  · rw [List.map_map]; rfl
  all_goals
    rw [List.map_map]
    unfold rowBits
    have hl : π.length = df.nrows := by rw [h.perm.length_eq, List.length_range]
    apply List.ext_getElem (by simp [h.rows, hl])
    intro i h1 h2
    rw [List.length_map] at h2
    simp only [List.getElem_map, List.getElem_range, Function.comp_apply, decide_eq_decide]
    exact (C94_counts (target := (([], []) : Str × Str)) h _).1 i _ (List.getElem?_eq_getElem h2)

theorem shuffled_qfEntry (h : Shuffled df df' π) (cfg : QFConfig) (hg : RowOrderFree cfg) (n : Nat) : qfEntryOf cfg df' target n = qfEntryOf cfg df target n := by
  have h1 : glmOddsOf cfg df' target = glmOddsOf cfg df target := by
    funext X
    obtain ⟨ps, ps', p, a, b, c, d⟩ := shuffled_rowBits h X [targetSel target]
    unfold glmOddsOf; rw [a, b, c, d]; exact (hg _ _ p).1
  have h2 : glmPOf cfg df' target = glmPOf cfg df target := by
    funext X
    obtain ⟨ps, ps', p, a, b, c, d⟩ := shuffled_rowBits h X [targetSel target]
    unfold glmPOf; rw [a, b, c, d]; exact (hg _ _ p).2
  have h3 : covOf df' target = covOf df target := by funext X; unfold covOf; rw [shuffled_tp h, shuffled_fp h, h.rows]
  have h4 : glmContribOf cfg df' target = glmContribOf cfg df target := by funext X; unfold glmContribOf; rw [h1]
  funext p
  unfold qfEntryOf
  rw [h1, h2, h3, h4]

theorem lengthsLoop_congr {cfg : QFConfig} {E E' : List QFEntry} (h : ∀ n, E.filter (fun e => decide (e.pat.len = n)) = E'.filter (fun e => decide (e.pat.len = n))) (ns : List Nat) (top : List QFEntry) :
    QFinder.lengthsLoop cfg E ns top = QFinder.lengthsLoop cfg E' ns top := by
  induction ns generalizing top with
  | nil => rfl
  | cons n ns ih =>
    unfold QFinder.lengthsLoop
    rw [h]
    split
    · rfl
    · exact ih _

theorem selectTopK_congr {cfg : QFConfig} {E E' : List QFEntry} (h : ∀ n, E.filter (fun e => decide (e.pat.len = n)) = E'.filter (fun e => decide (e.pat.len = n)))
    (hp : E.Perm E') : QFinder.selectTopK cfg E = QFinder.selectTopK cfg E' := by
  obtain ⟨a1, a2⟩ := QFinder.lengths_spec E
  obtain ⟨b1, b2⟩ := QFinder.lengths_spec E'
  have he : stableSort (fun a b : Nat => decide (a ≤ b)) (E.map (·.pat.len)).dedup = stableSort (fun a b : Nat => decide (a ≤ b)) (E'.map (·.pat.len)).dedup := by
    refine List.Perm.eq_of_pairwise (fun _ _ _ _ => fun x y => absurd (lt_trans x y) (lt_irrefl _)) a1 b1 ?_
    refine (List.perm_ext_iff_of_nodup (a1.imp (fun h => ne_of_lt h)) (b1.imp (fun h => ne_of_lt h))).2 (fun n => ?_)
    rw [a2, b2]
    exact ⟨fun ⟨e, x, y⟩ => ⟨e, hp.mem_iff.1 x, y⟩, fun ⟨e, x, y⟩ => ⟨e, hp.mem_iff.2 x, y⟩⟩
  unfold QFinder.selectTopK
  rw [he]
  exact lengthsLoop_congr h _ _

/-- C94, QFinder, when no column has more values than `cats` allows, the regression does not look at the order of the rows, the p-values are numbers, and candidates of the same size and
rank have different p-values: on shuffled data `fit` gives the same result, in the same order, from the same candidates. -/
theorem C94_qfinder (h : Shuffled df df' π) (hf : NominalFrame df target) (hs : SafeTexts df target) (cfg : QFConfig) (hc : WithinCategories cfg df target) (hg : RowOrderFree cfg)
    (hp : ∀ X, Describes target X → OccursIn df X → glmPOf cfg df target X ≠ .nan) (st r r' : QFState)
    (hd : ∀ p q, p ∈ r.cands → q ∈ r.cands → p.len = q.len → qfRank cfg (qfEntryOf cfg df target r.cands.length p).cred = qfRank cfg (qfEntryOf cfg df target r.cands.length q).cred →
      glmPOf cfg df target p.sels = glmPOf cfg df target q.sels → p = q)
    (hr : QFinder.fit cfg st df target = .ok r) (hr' : QFinder.fit cfg st df' target = .ok r') :
    r'.cands.Perm r.cands ∧ r'.top = r.top := by
  have hf' := shuffle_nominal h hf
  have hs' : SafeTexts df' target := by unfold SafeTexts at hs ⊢; rw [shuffled_occurs h]; exact hs
  obtain ⟨a1, _, a3⟩ := fit_cands hf hs hr
  obtain ⟨b1, _, b3⟩ := fit_cands hf' hs' hr'
  have hlen : df'.cols.length = df.cols.length := by simpa using h.columns.length_eq
  have hmax : qfMaxSelectors cfg df' = qfMaxSelectors cfg df := by unfold qfMaxSelectors; rw [hlen]
  have hall : ∀ d : Frame, NominalFrame d target → WithinCategories cfg d target → ∀ p, p ∈ QFinder.occurring d (QFinder.candidates cfg d target.1) ↔
      ∃ X, p = Pattern.new X ∧ Describes target X ∧ OccursIn d X ∧ p.len ≤ qfMaxSelectors cfg d := by
    intro d hd1 hd2 p
    rw [mem_reported hd1]
    constructor
    · rintro ⟨X, e1, e2, e3, e4, _⟩; exact ⟨X, e1, e2, e3, e4⟩
    · rintro ⟨X, e1, e2, e3, e4⟩
      refine ⟨X, e1, e2, e3, e4, ?_⟩
      intro s hsX c hcd hca
      rw [QFinder.kept_all (by rw [pyUnique_dedup]; exact hd2 c hcd (by rw [hca]; exact (e2.2 s hsX).1))]
      obtain ⟨i, _, hcov⟩ := e3
      obtain ⟨col, v, m1, m2, m3⟩ := hcov s hsX
      rw [← hca, lookup_of_mem_nodup hd1.names hcd] at m1
      cases m1
      obtain ⟨_, hop, w, hw⟩ := e2.2 s hsX
      obtain ⟨u, hu⟩ := hd1.texts c hcd v (List.mem_of_getElem? m2)
      rw [hop, hw, hu] at m3
      have : u = w := by simpa [Op.evaluate, Val.eq] using m3
      rw [hw, ← this, ← hu]
      exact List.mem_of_getElem? m2
  have hc' : WithinCategories cfg df' target := by
    intro c hcd hca
    have : c.1 ∈ df.cols.map (·.1) := h.columns.mem_iff.1 (List.mem_map_of_mem hcd)
    obtain ⟨col, hl⟩ := lookup_of_name this
    obtain ⟨col', h3, h4⟩ := shuffle_mem h.toIncludes hf.wf hl
    rw [lookup_of_mem_nodup hf'.names hcd] at h3
    cases h3
    have he : c.2.dedup.length = col.dedup.length :=
      ((List.perm_ext_iff_of_nodup (List.nodup_dedup _) (List.nodup_dedup _)).2 (fun v => by rw [List.mem_dedup, List.mem_dedup, h4])).length_eq
    rw [he]
    exact hc _ (mem_of_lookup hl) hca
  have n1 : r.cands.Nodup := by rw [a1]; exact (QFinder.candidates_nodup hf).filter _
  have n2 : r'.cands.Nodup := by rw [b1]; exact (QFinder.candidates_nodup hf').filter _
  have hperm : r'.cands.Perm r.cands := by
    refine (List.perm_ext_iff_of_nodup n2 n1).2 (fun p => ?_)
    rw [a1, b1, hall df hf hc, hall df' hf' hc', shuffled_occurs h, hmax]
  refine ⟨hperm, ?_⟩
  have hn : r'.cands.length = r.cands.length := hperm.length_eq
  rw [shuffled_qfEntry h cfg hg, hn] at b3
  have hp1 := ((QFinder.rankPatterns_perm cfg (r'.cands.map (qfEntryOf cfg df target r.cands.length))).trans (hperm.map _)).trans
    (QFinder.rankPatterns_perm cfg (r.cands.map (qfEntryOf cfg df target r.cands.length))).symm
  have hpv : ∀ d : Frame, NominalFrame d target → WithinCategories cfg d target → OccursIn d = OccursIn df → ∀ p ∈ QFinder.occurring d (QFinder.candidates cfg d target.1),
      ((qfEntryOf cfg df target r.cands.length p).cred.pval ≠ .nan) := by
    intro d hd1 hd2 ho p hpm
    obtain ⟨X, rfl, e2, e3, _⟩ := (hall d hd1 hd2 p).1 hpm
    rw [ho] at e3
    have hmn := IDSD.mem_new (fun s hs => (e2.2 s hs).2)
    refine hp _ ⟨?_, fun s hs => e2.2 s ((hmn s).1 hs)⟩ (occursIn_mono (fun s hs => (hmn s).1 hs) e3)
    intro h0
    obtain ⟨s, hs⟩ := List.exists_mem_of_ne_nil _ e2.1
    have := (hmn s).2 hs
    rw [h0] at this; simp at this
  have s1 := QFinder.rankPatterns_sorted cfg (l := r.cands.map (qfEntryOf cfg df target r.cands.length)) (by
    intro e he
    obtain ⟨p, hpm, rfl⟩ := List.mem_map.1 he
    exact hpv df hf hc rfl p (a1 ▸ hpm))
  have s2 := QFinder.rankPatterns_sorted cfg (l := r'.cands.map (qfEntryOf cfg df target r.cands.length)) (by
    intro e he
    obtain ⟨p, hpm, rfl⟩ := List.mem_map.1 he
    exact hpv df' hf' hc' (shuffled_occurs h) p (b1 ▸ hpm))
  have hsel : QFinder.selectTopK cfg (QFinder.rankPatterns cfg (r'.cands.map (qfEntryOf cfg df target r.cands.length))) =
      QFinder.selectTopK cfg (QFinder.rankPatterns cfg (r.cands.map (qfEntryOf cfg df target r.cands.length))) := by
    refine selectTopK_congr (fun n => ?_) hp1
    refine List.Perm.eq_of_pairwise (le := QFinder.RankBefore cfg) ?_ (s2.sublist List.filter_sublist) (s1.sublist List.filter_sublist) (hp1.filter _)
    intro a b ha hb hab hba
    have ha' := (List.mem_filter.1 ha)
    have hb' := (List.mem_filter.1 hb)
    have e1 := (QFinder.rankPatterns_perm cfg _).mem_iff.1 ha'.1
    have e2 := (QFinder.rankPatterns_perm cfg _).mem_iff.1 hb'.1
    obtain ⟨p, hpm, rfl⟩ := List.mem_map.1 e1
    obtain ⟨q, hqm, rfl⟩ := List.mem_map.1 e2
    have hlp := ha'.2
    have hlq := hb'.2
    simp only [decide_eq_true_eq] at hlp hlq
    have hpl : p.len = q.len := by
      have u : (qfEntryOf cfg df target r.cands.length p).pat = p := rfl
      have v : (qfEntryOf cfg df target r.cands.length q).pat = q := rfl
      rw [u] at hlp; rw [v] at hlq; rw [hlp, hlq]
    unfold QFinder.RankBefore at hab hba
    have hrk : qfRank cfg (qfEntryOf cfg df target r.cands.length p).cred = qfRank cfg (qfEntryOf cfg df target r.cands.length q).cred := by
      rcases hab with x | ⟨x, _⟩ <;> rcases hba with y | ⟨y, _⟩ <;> omega
    have hpe : (qfEntryOf cfg df target r.cands.length p).cred.pval = (qfEntryOf cfg df target r.cands.length q).cred.pval := by
      rcases hab with x | ⟨_, x⟩
      · omega
      · rcases hba with y | ⟨_, y⟩
        · omega
        · exact XF.le_antisymm x y
    rw [hd p q (hperm.mem_iff.1 hpm) hqm hpl hrk hpe]
  rw [hsel, a3] at b3
  injection b3 with b3
  exact b3.symm
end

/-! ## examples, and what does depend on the order -/

theorem shuffled_of {df df' : Frame} {π : List Nat} (h1 : π.Perm (List.range df.nrows)) (h2 : df'.nrows = df.nrows)
    (h3 : ∀ c ∈ df.cols, (df'.cols.lookup c.1).map (·.map some) = some (π.map (fun i : Nat => c.2[i]?))) (h4 : (df'.cols.map (·.1)).Perm (df.cols.map (·.1))) : Shuffled df df' π := by
  refine ⟨⟨h1, h2, fun name col hl => ?_⟩, h4⟩
  have := h3 _ (mem_of_lookup hl)
  simp only at this
  cases hc : df'.cols.lookup name with
  | none => rw [hc] at this; cases this
  | some col' =>
    rw [hc] at this
    simp only [Option.map_some, Option.some.injEq] at this
    exact ⟨col', rfl, this⟩

/-- two subgroups of the same quality: `a = 'x'` and `b = 'p'` -/
def Spec.tieFrame : Frame :=
  ⟨3, [(c!"a", [.str c!"x", .str c!"y", .str c!"y"]), (c!"b", [.str c!"q", .str c!"p", .str c!"q"]), (c!"t", [.str c!"1", .str c!"1", .str c!"0"])]⟩
/-- the same rows with the columns in another order -/
def Spec.tieColumns : Frame :=
  ⟨3, [(c!"t", [.str c!"1", .str c!"1", .str c!"0"]), (c!"b", [.str c!"q", .str c!"p", .str c!"q"]), (c!"a", [.str c!"x", .str c!"y", .str c!"y"])]⟩
/-- the same columns with the first two rows swapped -/
def Spec.tieRows : Frame :=
  ⟨3, [(c!"a", [.str c!"y", .str c!"x", .str c!"y"]), (c!"b", [.str c!"p", .str c!"q", .str c!"q"]), (c!"t", [.str c!"1", .str c!"1", .str c!"0"])]⟩

theorem tieColumns_shuffled : Shuffled tieFrame tieColumns [0, 1, 2] :=
  shuffled_of (by decide +kernel) rfl (by decide +kernel) (by decide +kernel)
theorem tieRows_shuffled : Shuffled tieFrame tieRows [1, 0, 2] :=
  shuffled_of (by decide +kernel) rfl (by decide +kernel) (by decide +kernel)

theorem tieFrame_ok : NominalFrame tieFrame (c!"t", c!"1") := by
  refine ⟨?_, by decide +kernel, ?_, by decide +kernel⟩
  · intro c hc; simp [tieFrame] at hc; rcases hc with rfl | rfl | rfl <;> rfl
  · intro c hc; simp [tieFrame] at hc
    rcases hc with rfl | rfl | rfl <;> simp

theorem tieFrame_keys : KeysFaithful tieFrame (c!"t", c!"1") := by
  apply keysFaithful_of_no_quotes tieFrame_ok
  intro c hc; simp [tieFrame] at hc
  rcases hc with rfl | rfl | rfl <;> decide +kernel

theorem tieFrame_texts : TextsFaithful tieFrame (c!"t", c!"1") := by
  apply textsFaithful_of
  left
  intro c hc; simp [tieFrame] at hc; rcases hc with rfl | rfl | rfl <;> decide +kernel

/-- the descriptions of the lines that SDMap writes (WRAcc, minimum tp 1 and fp 0) -/
def Spec.tieSDMap (df : Frame) : Option (List Str) :=
  match (⟨Quality.wracc, 0, .tpFp 1 0, []⟩ : SDMapConfig).fit ⟨0, 0, [], []⟩ df (c!"t", c!"1") with
  | .ok st => some (st.file.map (fun l => l.subgroup.description.str))
  | .error _ => none

/-- C94: the order of SDMap's lines does depend on the order of the rows. -/
theorem C94_sdmap_order : Shuffled tieFrame tieRows [1, 0, 2] ∧ NominalFrame tieFrame (c!"t", c!"1") ∧ KeysFaithful tieFrame (c!"t", c!"1") ∧
    tieSDMap tieFrame = some [c!"[a = 'x']", c!"[a = 'x', b = 'q']", c!"[b = 'p']", c!"[a = 'y', b = 'p']"] ∧
    tieSDMap tieRows = some [c!"[b = 'p']", c!"[a = 'y', b = 'p']", c!"[a = 'x']", c!"[a = 'x', b = 'q']"] :=
  ⟨tieRows_shuffled, tieFrame_ok, tieFrame_keys, by decide +kernel, by decide +kernel⟩

/-- C94: among subgroups of the same quality, the one that BSD, CBSD or CPBSD reports depends on the order of the columns. -/
theorem C94_bsd_ties : Shuffled tieFrame tieColumns [0, 1, 2] ∧ NominalFrame tieFrame (c!"t", c!"1") ∧ TextsFaithful tieFrame (c!"t", c!"1") ∧
    (∀ v, (bsdRun v 1 0 tieFrame (c!"t", c!"1")).map (·.1) ≠ (bsdRun v 1 0 tieColumns (c!"t", c!"1")).map (·.1)) ∧
    okPart ((bsdRun .bsd 1 0 tieFrame (c!"t", c!"1")).map (·.1)) = some [(c!"[a = 'x']", 1 / 9)] ∧
    okPart ((bsdRun .bsd 1 0 tieColumns (c!"t", c!"1")).map (·.1)) = some [(c!"[b = 'p']", 1 / 9)] := by
  refine ⟨tieColumns_shuffled, tieFrame_ok, tieFrame_texts, ?_, by decide +kernel, by decide +kernel⟩
  intro v hv
  have h := congrArg okPart hv
  revert h
  cases v <;> decide +kernel

/-- C94: among subgroups of the same rank and odds ratio, the one that IDSD reports depends on the order of the columns. -/
theorem C94_idsd_ties : Shuffled tieFrame tieColumns [0, 1, 2] ∧ NominalFrame tieFrame (c!"t", c!"1") ∧
    IDSDWitness.shown (IDSD.fit ⟨1, -1, 1, 0, 0, 1, 0, 5, fun _ _ _ _ => .fin 1, .first⟩ .init tieFrame (c!"t", c!"1")) = [([⟨c!"a", .equal, .str c!"x"⟩], 5)] ∧
    IDSDWitness.shown (IDSD.fit ⟨1, -1, 1, 0, 0, 1, 0, 5, fun _ _ _ _ => .fin 1, .first⟩ .init tieColumns (c!"t", c!"1")) = [([⟨c!"b", .equal, .str c!"p"⟩], 5)] :=
  ⟨tieColumns_shuffled, tieFrame_ok, by decide +kernel, by decide +kernel⟩

/-- a regression that counts the covered rows, with one subgroup asked for -/
def Spec.tieQF (num : Int) : QFConfig := ⟨num, -1, 1, 0, 0, 1, 0, 5, 1/2, fun a _ => .fin (6 - (a.ones : Rat)), fun a b => .fin (((a.and b).ones : Rat) / 10), .first⟩

def Spec.qfShown (r : Except PyErr QFState) : Option (List Str) :=
  match r with
  | .ok st => some (st.top.map (fun e => e.pat.str))
  | .error _ => none

/-- C94: among candidates of the same size, rank and p-value, the one that QFinder reports depends on the order of the columns. -/
theorem C94_qfinder_ties : Shuffled tieFrame tieColumns [0, 1, 2] ∧ NominalFrame tieFrame (c!"t", c!"1") ∧
    qfShown (QFinder.fit (tieQF 1) ⟨[], [], []⟩ tieFrame (c!"t", c!"1")) ≠ qfShown (QFinder.fit (tieQF 1) ⟨[], [], []⟩ tieColumns (c!"t", c!"1")) :=
  ⟨tieColumns_shuffled, tieFrame_ok, by decide +kernel⟩

/-- five rows over four attributes; the rows, and the same with the four attributes in the opposite order -/
def Spec.missColumns : List (Str × List Val) :=
  [(c!"a", [.str c!"x", .str c!"y", .str c!"x", .str c!"y", .str c!"y"]), (c!"b", [.str c!"x", .str c!"x", .str c!"x", .str c!"y", .str c!"x"]),
    (c!"c", [.str c!"x", .str c!"x", .str c!"y", .str c!"x", .str c!"x"]), (c!"d", [.str c!"x", .str c!"y", .str c!"x", .str c!"x", .str c!"x"])]
def Spec.missTarget : Str × List Val := (c!"t", [.str c!"y", .str c!"x", .str c!"x", .str c!"x", .str c!"x"])

def Spec.vlWritten (df : Frame) (target : Str × Str) (cfg : VLSDConfig) (d : Str) : Option Bool :=
  match cfg.fit .bitsets freshVL df target with
  | .ok st => some (decide (d ∈ st.file.map (fun (l : VLine Bits) => l.subgroup.description.str)))
  | .error _ => none

/-- C94: the condition on the thresholds of VLSD is needed. With WRAcc and its estimate, a minimum estimate above the minimum quality and no sorting, the same subgroup is written or
not depending on the order of the columns. -/
theorem C94_vlsd_threshold : Shuffled ⟨5, missColumns ++ [missTarget]⟩ ⟨5, missColumns.reverse ++ [missTarget]⟩ [0, 1, 2, 3, 4] ∧
    vlWritten ⟨5, missColumns ++ [missTarget]⟩ (c!"t", c!"x") (VLSDConfig.new Measure.wracc.compute (-1) Measure.wraccOE1.compute (7/48) [] [] .noOrder .noOrder)
      c!"[a = 'y', b = 'x', c = 'x', d = 'x']" = some true ∧
    vlWritten ⟨5, missColumns.reverse ++ [missTarget]⟩ (c!"t", c!"x") (VLSDConfig.new Measure.wracc.compute (-1) Measure.wraccOE1.compute (7/48) [] [] .noOrder .noOrder)
      c!"[a = 'y', b = 'x', c = 'x', d = 'x']" = some false :=
  ⟨shuffled_of (by decide +kernel) rfl (by decide +kernel) (by decide +kernel), by decide +kernel, by decide +kernel⟩

/-! ### the hypotheses of `C94_qfinder` -/

/-- four candidates of one selector, covering 2, 3, 1 and 4 rows -/
def Spec.spreadFrame : Frame :=
  ⟨5, [(c!"a", [.str c!"x", .str c!"x", .str c!"w", .str c!"w", .str c!"w"]), (c!"b", [.str c!"y", .str c!"z", .str c!"z", .str c!"z", .str c!"z"]),
    (c!"t", [.str c!"1", .str c!"1", .str c!"0", .str c!"0", .str c!"1"])]⟩
def Spec.spreadShuffled : Frame :=
  ⟨5, [(c!"b", [.str c!"z", .str c!"y", .str c!"z", .str c!"z", .str c!"z"]), (c!"t", [.str c!"1", .str c!"1", .str c!"0", .str c!"1", .str c!"0"]),
    (c!"a", [.str c!"x", .str c!"x", .str c!"w", .str c!"w", .str c!"w"])]⟩
def Spec.spreadQF : QFConfig := ⟨3, -1, 1, 0, 0, 1, 0, 5, 1/2, fun a _ => .fin (6 - (a.ones : Rat)), fun a _ => .fin ((a.ones : Rat) / 10), .first⟩

theorem spread_shuffled : Shuffled spreadFrame spreadShuffled [1, 0, 2, 4, 3] :=
  shuffled_of (by decide +kernel) rfl (by decide +kernel) (by decide +kernel)

theorem spread_ok : NominalFrame spreadFrame (c!"t", c!"1") := by
  refine ⟨?_, by decide +kernel, ?_, by decide +kernel⟩
  · intro c hc; simp [spreadFrame] at hc; rcases hc with rfl | rfl | rfl <;> rfl
  · intro c hc; simp [spreadFrame] at hc
    rcases hc with rfl | rfl | rfl <;> simp

theorem spread_free : RowOrderFree spreadQF := by
  intro ps ps' hp
  have : (Bits.ones (ps.map (·.1))) = Bits.ones (ps'.map (·.1)) := (hp.map _).count_eq _
  simp only [spreadQF, this, and_self]

/-- the p-values of a run -/
def Spec.pvals (r : Except PyErr QFState) : List XF :=
  match r with
  | .ok st => st.table.map (·.2.pval)
  | .error _ => []

/-- the hypotheses of `C94_qfinder` are met by two runs that give the same three subgroups from differently ordered candidates -/
example : ∃ r r', QFinder.fit spreadQF ⟨[], [], []⟩ spreadFrame (c!"t", c!"1") = .ok r ∧ QFinder.fit spreadQF ⟨[], [], []⟩ spreadShuffled (c!"t", c!"1") = .ok r' ∧
    r'.cands.Perm r.cands ∧ r'.cands ≠ r.cands ∧ r'.top = r.top ∧ r.top.map (·.pat.str) = [c!"[b = 'y']", c!"[a = 'x']", c!"[a = 'w']"] := by
  have hs : SafeTexts spreadFrame (c!"t", c!"1") := safeTexts_of spread_ok (by decide +kernel)
  have hp : ∀ X, Describes (c!"t", c!"1") X → OccursIn spreadFrame X → glmPOf spreadQF spreadFrame (c!"t", c!"1") X ≠ .nan := by intro X _ _ h; cases h
  have hp' : ∀ X, Describes (c!"t", c!"1") X → OccursIn spreadShuffled X → glmPOf spreadQF spreadShuffled (c!"t", c!"1") X ≠ .nan := by intro X _ _ h; cases h
  have ho : OccursIn spreadShuffled = OccursIn spreadFrame := shuffled_occurs spread_shuffled
  obtain ⟨r, hr, _⟩ := C38_selection (cfg := spreadQF) spread_ok hs (by decide) hp ⟨[], [], []⟩
  obtain ⟨r', hr', _⟩ := C38_selection (cfg := spreadQF) (shuffle_nominal spread_shuffled spread_ok)
    (by unfold SafeTexts at hs ⊢; rw [ho]; exact hs) (by decide) hp' ⟨[], [], []⟩
  have hpv : pvals (QFinder.fit spreadQF ⟨[], [], []⟩ spreadFrame (c!"t", c!"1")) = [.fin (1/5), .fin (3/10), .fin (1/10), .fin (2/5)] := by decide +kernel
  have htop : qfShown (QFinder.fit spreadQF ⟨[], [], []⟩ spreadFrame (c!"t", c!"1")) = some [c!"[b = 'y']", c!"[a = 'x']", c!"[a = 'w']"] := by decide +kernel
  have hne : ((QFinder.fit spreadQF ⟨[], [], []⟩ spreadShuffled (c!"t", c!"1")).toOption.map (·.cands)) ≠
      ((QFinder.fit spreadQF ⟨[], [], []⟩ spreadFrame (c!"t", c!"1")).toOption.map (·.cands)) := by decide +kernel
  obtain ⟨h1, h2, _⟩ := fit_cands spread_ok hs hr
  rw [hr] at hpv htop hne
  rw [hr'] at hne
  simp only [pvals, h2, List.map_map] at hpv
  have hnod : (r.cands.map (fun p => glmPOf spreadQF spreadFrame (c!"t", c!"1") p.sels)).Nodup := by
    have : r.cands.map (fun p => glmPOf spreadQF spreadFrame (c!"t", c!"1") p.sels) = [.fin (1/5), .fin (3/10), .fin (1/10), .fin (2/5)] := hpv
    rw [this]
    decide +kernel
  have hres := C94_qfinder spread_shuffled spread_ok hs spreadQF (fun c _ _ => .inr rfl) spread_free hp ⟨[], [], []⟩ r r'
    (fun p q hpm hqm _ _ he => List.inj_on_of_nodup_map hnod hpm hqm he) hr hr'
  refine ⟨r, r', hr, hr', hres.1, ?_, hres.2, ?_⟩
  · intro h; exact hne (by simp [Except.toOption, h])
  · simpa [qfShown] using htop
end Verif
