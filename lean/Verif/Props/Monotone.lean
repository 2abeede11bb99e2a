import Verif.Props.Shuffle
/-! Property C95: stricter thresholds only remove lines, more columns only add lines. -/
namespace Verif
open Spec

/-- every pair of counts that meets the thresholds `b` meets the thresholds `a` -/
def Spec.Stricter (a b : Thresholds) : Prop := ∀ tp fp, Frequent b tp fp → Frequent a tp fp

/-- the description uses only columns of the data frame -/
def Spec.Over (df : Frame) (p : Pattern) : Prop := ∀ s ∈ p.sels, s.attr ∈ df.cols.map (·.1)

section
open Classical
variable {df df' : Frame} {π : List Nat} {target : Str × Str}

/-- the lines that SDMap writes into an empty file, also when there is no frequent description -/
theorem sdmap_lines {cfg : SDMapConfig} (hf : NominalFrame df target) (hk : KeysFaithful df target) {st r : SDMapState} (h0 : st.file = []) (hr : cfg.fit st df target = .ok r) :
    (r.file.map (·.subgroup.description)).Nodup ∧ ∀ l, l ∈ r.file ↔ ∃ X q, Reportable cfg.th df target X ∧ qualityOf cfg df target X = .ok q ∧ cfg.minQuality ≤ q ∧ l = lineOf df target X q := by
  by_cases hex : ∃ X, Reportable cfg.th df target X
  · exact ⟨(C25_selected cfg df target hf hk st r hr hex).2, C23_written cfg df target hf hk st r hr hex⟩
  · rw [C23_nothing cfg df target hf hk st r hr hex, h0]
    refine ⟨by simp, fun l => ⟨fun h => by simp at h, ?_⟩⟩
    rintro ⟨X, q, hX, _⟩
    exact absurd ⟨X, hX⟩ hex

/-- C95, SDMap: with the same measure and stricter thresholds (minimum quality, minimum counts), `fit` ends without error whenever it did, and writes exactly those of the lines that meet
the stricter thresholds. -/
theorem C95_sdmap (hf : NominalFrame df target) (hk : KeysFaithful df target) (cfg cfg' : SDMapConfig) (hm : cfg'.measure = cfg.measure) (hx : cfg'.extra = cfg.extra)
    (hq : cfg.minQuality ≤ cfg'.minQuality) (hth : Stricter cfg.th cfg'.th) (st : SDMapState) (h0 : st.file = []) :
    ((∃ r, cfg.fit st df target = .ok r) → ∃ r', cfg'.fit st df target = .ok r') ∧
    ∀ r r', cfg.fit st df target = .ok r → cfg'.fit st df target = .ok r' →
      r'.file.Perm (r.file.filter (fun l => decide (cfg'.minQuality ≤ l.quality ∧ Frequent cfg'.th l.tp l.fp))) := by
  have hqual : qualityOf cfg' df target = qualityOf cfg df target := by funext X; unfold qualityOf; rw [hm, hx]
  have hrep : ∀ X, Reportable cfg'.th df target X ↔ Reportable cfg.th df target X ∧ Frequent cfg'.th (tpOf df target X) (fpOf df target X) := by
    intro X
    unfold Reportable
    exact ⟨fun ⟨a, b, c, d⟩ => ⟨⟨a, b, c, hth _ _ d⟩, d⟩, fun ⟨⟨a, b, c, _⟩, d⟩ => ⟨a, b, c, d⟩⟩
  constructor
  · rw [C24_total cfg df target hf hk st, C24_total cfg' df target hf hk st]
    intro h X hX
    rw [hqual]
    exact h X ((hrep X).1 hX).1
  · intro r r' hr hr'
    obtain ⟨a1, a2⟩ := sdmap_lines hf hk h0 hr
    obtain ⟨b1, b2⟩ := sdmap_lines hf hk h0 hr'
    refine (List.perm_ext_iff_of_nodup b1.of_map (a1.of_map.filter _)).2 (fun l => ?_)
    rw [List.mem_filter, a2, b2, decide_eq_true_iff, hqual]
    constructor
    · rintro ⟨X, q, h1, h2, h3, rfl⟩
      obtain ⟨h4, h5⟩ := (hrep X).1 h1
      exact ⟨⟨X, q, h4, h2, le_trans hq h3, rfl⟩, h3, h5⟩
    · rintro ⟨⟨X, q, h1, h2, _, rfl⟩, h4, h5⟩
      exact ⟨X, q, (hrep X).2 ⟨h1, h5⟩, h2, h4, rfl⟩

/-- C95, SDMapStar with `num_subgroups = 0`: the same. -/
theorem C95_star (hf : NominalFrame df target) (hk : KeysFaithful df target) (cfg cfg' : SDMapStarConfig) (hn : cfg.num = 0) (hn' : cfg'.num = 0)
    (hm : cfg'.measure = cfg.measure) (hx : cfg'.extra = cfg.extra) (hq : cfg.minQuality ≤ cfg'.minQuality) (hth : Stricter cfg.th cfg'.th) (st : StarState) (h0 : st.base.file = []) :
    ((∃ r, cfg.fit st df target = .ok r) → ∃ r', cfg'.fit st df target = .ok r') ∧
    ∀ r r', cfg.fit st df target = .ok r → cfg'.fit st df target = .ok r' →
      r'.base.file.Perm (r.base.file.filter (fun l => decide (cfg'.minQuality ≤ l.quality ∧ Frequent cfg'.th l.tp l.fp))) := by
  obtain ⟨a1, a2⟩ := C26 cfg hn df target hf hk st
  obtain ⟨b1, b2⟩ := C26 cfg' hn' df target hf hk st
  obtain ⟨c1, c2⟩ := C95_sdmap hf hk cfg.toSDMapConfig cfg'.toSDMapConfig hm hx hq hth st.base h0
  refine ⟨fun h => b1.2 (c1 (a1.1 h)), fun r r' hr hr' => ?_⟩
  obtain ⟨s, hs⟩ := a1.1 ⟨r, hr⟩
  obtain ⟨s', hs'⟩ := b1.1 ⟨r', hr'⟩
  exact (b2 r' s' hr' hs').2.2.1.trans ((c2 s s' hs hs').trans ((a2 r s hr hs).2.2.1.symm.filter _))

/-- C95, VLSD with an estimate that suits the measure (C70): with a higher minimum quality and any minimum estimate not above it, exactly those of the lines are written that reach the
higher minimum. -/
theorem C95_vlsd (measure : Params → Except PyErr Rat) (minQ minQ' : Rat) (estimate : Params → Except PyErr Rat) (minE minE' : Rat) (x xo : Params) (s1 s2 s1' s2' : SortCriterion)
    (he : LookupOnly estimate) (hf : NominalFrame df target) (hs : Suits (VLSDConfig.new measure minQ estimate minE x xo s1 s2) df target)
    (hle : minE ≤ minQ) (hle' : minE' ≤ minQ') (hq : minQ ≤ minQ') (st r r' : VLState Bits)
    (hr : (VLSDConfig.new measure minQ estimate minE x xo s1 s2).fit .bitsets st df target = .ok r)
    (hr' : (VLSDConfig.new measure minQ' estimate minE' x xo s1' s2').fit .bitsets st df target = .ok r') :
    (r'.file.map VLine.seen).Perm ((r.file.map VLine.seen).filter (fun l => decide (minQ' ≤ l.2.1))) := by
  obtain ⟨c, a⟩ := C29_bitsets measure minQ estimate minE x xo s1 s2 he df target hf st r hr
  obtain ⟨c', b⟩ := C29_bitsets measure minQ' estimate minE' x xo s1' s2' he df target hf st r' hr'
  have hs' : Suits (VLSDConfig.new measure minQ' estimate minE' x xo s1' s2') df target := ⟨hs.bounds, hs.defined⟩
  have hqual : vlQualityOf (VLSDConfig.new measure minQ' estimate minE' x xo s1' s2') df target = vlQualityOf (VLSDConfig.new measure minQ estimate minE x xo s1 s2) df target := rfl
  refine perm_seen (vlsd_seen_nodup b) ((vlsd_seen_nodup a).sublist (List.filter_sublist.map _)) (fun y => ?_)
  rw [List.mem_filter, vlsd_seen a hs.bounds hs.defined hle, vlsd_seen b hs'.bounds hs'.defined hle', hqual, decide_eq_true_iff]
  constructor
  · rintro ⟨X, q, h1, h2, h3, h4, h5, rfl⟩
    exact ⟨⟨X, q, h1, h2, h3, h4, le_trans hq h5, rfl⟩, h5⟩
  · rintro ⟨⟨X, q, h1, h2, h3, h4, _, rfl⟩, h5⟩
    exact ⟨X, q, h1, h2, h3, h4, h5, rfl⟩

/-! ## more columns -/

theorem over_known (p : Pattern) (h : Over df p) : ∀ s ∈ p.sels, Known df df' s.attr := fun s hs => .inl (h s hs)

theorem describes_over {X : List Selector} (ho : OccursIn df X) : Over df ⟨X⟩ := by
  intro s hs
  obtain ⟨i, _, hc⟩ := ho
  obtain ⟨col, v, h1, _⟩ := hc s hs
  exact List.mem_map_of_mem (mem_of_lookup h1)

theorem includes_counts (h : Includes df df' π) (hf : NominalFrame df target) {X : List Selector} (hX : Over df ⟨X⟩) :
    tpOf df' target X = tpOf df target X ∧ fpOf df' target X = fpOf df target X ∧ (OccursIn df' X ↔ OccursIn df X) :=
  ⟨shuffle_tpOf h (over_known ⟨X⟩ hX) (.inl hf.target), shuffle_fpOf h (over_known ⟨X⟩ hX) (.inl hf.target), shuffle_occurs h (over_known ⟨X⟩ hX)⟩

theorem includes_lines (h : Includes df df' π) (hf : NominalFrame df target) (cfg : SDMapConfig) {X : List Selector} (hX : Over df ⟨X⟩) :
    (Reportable cfg.th df' target X ↔ Reportable cfg.th df target X) ∧ qualityOf cfg df' target X = qualityOf cfg df target X ∧ lineOf df' target X = lineOf df target X := by
  obtain ⟨h1, h2, h3⟩ := includes_counts h hf hX
  obtain ⟨g1, g2, _⟩ := includes_counts (X := []) h hf (by intro s hs; simp at hs)
  refine ⟨by unfold Reportable; rw [h1, h2, h3], by unfold qualityOf; rw [h1, h2, g1, g2], by funext q; unfold lineOf; rw [h1, h2, g1, g2]⟩

/-- C95, SDMap: with additional columns (and rows and columns in any order) `fit` succeeds only if it does without them, and the lines about the original columns are exactly the
lines written without the additional ones. -/
theorem C95_sdmap_columns (h : Includes df df' π) (hf : NominalFrame df target) (hf' : NominalFrame df' target) (hk' : KeysFaithful df' target) (cfg : SDMapConfig) (st : SDMapState)
    (h0 : st.file = []) :
    ((∃ r', cfg.fit st df' target = .ok r') → ∃ r, cfg.fit st df target = .ok r) ∧
    ∀ r r', cfg.fit st df target = .ok r → cfg.fit st df' target = .ok r' → r.file.Perm (r'.file.filter (fun l => decide (Over df l.subgroup.description))) := by
  have hk := keys_includes h hf hk'
  constructor
  · rw [C24_total cfg df target hf hk st, C24_total cfg df' target hf' hk' st]
    intro hall X hX
    obtain ⟨e1, e2, _⟩ := includes_lines h hf cfg (describes_over hX.2.2.1)
    rw [← e2]
    exact hall X (e1.2 hX)
  · intro r r' hr hr'
    obtain ⟨a1, a2⟩ := sdmap_lines hf hk h0 hr
    obtain ⟨b1, b2⟩ := sdmap_lines hf' hk' h0 hr'
    refine (List.perm_ext_iff_of_nodup a1.of_map (b1.of_map.filter _)).2 (fun l => ?_)
    rw [List.mem_filter, a2, b2, decide_eq_true_iff]
    constructor
    · rintro ⟨X, q, h1, h2, h3, rfl⟩
      have hov := describes_over h1.2.2.1
      obtain ⟨e1, e2, e3⟩ := includes_lines h hf cfg hov
      exact ⟨⟨X, q, e1.2 h1, by rw [e2]; exact h2, h3, by rw [e3]⟩, hov⟩
    · rintro ⟨⟨X, q, h1, h2, h3, rfl⟩, hov⟩
      obtain ⟨e1, e2, e3⟩ := includes_lines h hf cfg (X := X) hov
      exact ⟨X, q, e1.1 h1, by rw [← e2]; exact h2, h3, by rw [e3]⟩

/-- C95, SDMapStar with `num_subgroups = 0`: the same. -/
theorem C95_star_columns (h : Includes df df' π) (hf : NominalFrame df target) (hf' : NominalFrame df' target) (hk' : KeysFaithful df' target) (cfg : SDMapStarConfig) (hn : cfg.num = 0)
    (st : StarState) (h0 : st.base.file = []) :
    ((∃ r', cfg.fit st df' target = .ok r') → ∃ r, cfg.fit st df target = .ok r) ∧
    ∀ r r', cfg.fit st df target = .ok r → cfg.fit st df' target = .ok r' → r.base.file.Perm (r'.base.file.filter (fun l => decide (Over df l.subgroup.description))) := by
  obtain ⟨a1, a2⟩ := C26 cfg hn df target hf (keys_includes h hf hk') st
  obtain ⟨b1, b2⟩ := C26 cfg hn df' target hf' hk' st
  obtain ⟨c1, c2⟩ := C95_sdmap_columns h hf hf' hk' cfg.toSDMapConfig st.base h0
  refine ⟨fun x => a1.2 (c1 (b1.1 x)), fun r r' hr hr' => ?_⟩
  obtain ⟨s, hs⟩ := a1.1 ⟨r, hr⟩
  obtain ⟨s', hs'⟩ := b1.1 ⟨r', hr'⟩
  exact (a2 r s hr hs).2.2.1.trans ((c2 s s' hs hs').trans ((b2 r' s' hr' hs').2.2.1.symm.filter _))

/-- C95, VLSD with an estimate that suits the measure on the larger data: the same. -/
theorem C95_vlsd_columns (h : Includes df df' π) (measure : Params → Except PyErr Rat) (minQ : Rat) (estimate : Params → Except PyErr Rat) (minE : Rat) (x xo : Params)
    (s1 s2 : SortCriterion) (he : LookupOnly estimate) (hf : NominalFrame df target) (hf' : NominalFrame df' target)
    (hs : Suits (VLSDConfig.new measure minQ estimate minE x xo s1 s2) df target) (hs' : Suits (VLSDConfig.new measure minQ estimate minE x xo s1 s2) df' target)
    (hle : minE ≤ minQ) (st r r' : VLState Bits)
    (hr : (VLSDConfig.new measure minQ estimate minE x xo s1 s2).fit .bitsets st df target = .ok r)
    (hr' : (VLSDConfig.new measure minQ estimate minE x xo s1 s2).fit .bitsets st df' target = .ok r') :
    (r.file.map VLine.seen).Perm ((r'.file.map VLine.seen).filter (fun l => decide (Over df l.1.description))) := by
  obtain ⟨c, a⟩ := C29_bitsets measure minQ estimate minE x xo s1 s2 he df target hf st r hr
  obtain ⟨c', b⟩ := C29_bitsets measure minQ estimate minE x xo s1 s2 he df' target hf' st r' hr'
  obtain ⟨g1, g2, _⟩ := includes_counts (X := []) h hf (by intro s hs; simp at hs)
  have hqual : ∀ X, Over df ⟨X⟩ → vlQualityOf (VLSDConfig.new measure minQ estimate minE x xo s1 s2) df' target X = vlQualityOf (VLSDConfig.new measure minQ estimate minE x xo s1 s2) df target X := by
    intro X hX
    obtain ⟨h1, h2, _⟩ := includes_counts h hf hX
    unfold vlQualityOf; rw [h1, h2, g1, g2]
  refine perm_seen (vlsd_seen_nodup a) ((vlsd_seen_nodup b).sublist (List.filter_sublist.map _)) (fun y => ?_)
  rw [List.mem_filter, vlsd_seen a hs.bounds hs.defined hle, vlsd_seen b hs'.bounds hs'.defined hle, decide_eq_true_iff]
  constructor
  · rintro ⟨X, q, h1, h2, h3, h4, h5, rfl⟩
    have hov := describes_over h3
    obtain ⟨e1, e2, e3⟩ := includes_counts h hf hov
    exact ⟨⟨X, q, h1, h2, e3.2 h3, by rw [hqual X hov]; exact h4, h5, by rw [e1, e2, g1, g2]⟩, hov⟩
  · rintro ⟨⟨X, q, h1, h2, h3, h4, h5, rfl⟩, hov⟩
    obtain ⟨e1, e2, e3⟩ := includes_counts h hf (X := X) hov
    exact ⟨X, q, h1, h2, e3.1 h3, by rw [← hqual X hov]; exact h4, h5, by rw [e1, e2, g1, g2]⟩
end

/-! ## examples -/

example : Stricter (.tpFp 1 0) (.tpFp 1 1) ∧ Stricter (.tpFp 1 0) (.tpFp 2 0) ∧ Stricter (.n 1) (.n 3) := by
  refine ⟨?_, ?_, ?_⟩ <;> intro tp fp h <;> simp only [Frequent] at h ⊢ <;> omega

/-- the rows of `tieFrame` in another order, with one more column -/
def Spec.tieMore : Frame := ⟨3, (c!"e", [.str c!"u", .str c!"u", .str c!"v"]) :: tieRows.cols⟩

theorem tieMore_includes : Includes tieFrame tieMore [1, 0, 2] := by
  refine ⟨by decide +kernel, rfl, fun name col hl => ?_⟩
  obtain ⟨col', h1, h2⟩ := tieRows_shuffled.cells name col hl
  refine ⟨col', ?_, h2⟩
  have hn : name ≠ c!"e" := by
    rintro rfl
    have : tieFrame.cols.lookup c!"e" = none := by decide +kernel
    rw [this] at hl
    cases hl
  have : tieMore.cols.lookup name = tieRows.cols.lookup name := by
    unfold tieMore
    rw [List.lookup_cons, beq_false_of_ne hn]
  rw [this, h1]

/-- the descriptions of SDMap's lines (WRAcc, minimum tp 1 and fp 0) -/
def Spec.tieLines (minQ : Rat) (df : Frame) : Option (List Str) :=
  match (⟨Quality.wracc, minQ, .tpFp 1 0, []⟩ : SDMapConfig).fit ⟨0, 0, [], []⟩ df (c!"t", c!"1") with
  | .ok st => some (st.file.map (fun l => l.subgroup.description.str))
  | .error _ => none

/-- six lines; four of them with the minimum quality 1/9; seven more with another column -/
example : tieLines (-1) tieFrame = some [c!"[a = 'x']", c!"[a = 'x', b = 'q']", c!"[b = 'p']", c!"[a = 'y', b = 'p']", c!"[b = 'q']", c!"[a = 'y']"] ∧
    tieLines (1/9) tieFrame = some [c!"[a = 'x']", c!"[a = 'x', b = 'q']", c!"[b = 'p']", c!"[a = 'y', b = 'p']"] ∧
    (tieLines (-1) tieMore).map (·.length) = some 13 := by
  refine ⟨by decide +kernel, by decide +kernel, by decide +kernel⟩

theorem tieMore_ok : NominalFrame tieMore (c!"t", c!"1") ∧ KeysFaithful tieMore (c!"t", c!"1") := by
  have h : NominalFrame tieMore (c!"t", c!"1") := by
    refine ⟨?_, by decide +kernel, ?_, by decide +kernel⟩
    · intro c hc; simp [tieMore, tieRows] at hc; rcases hc with rfl | rfl | rfl | rfl <;> rfl
    · intro c hc; simp [tieMore, tieRows] at hc
      rcases hc with rfl | rfl | rfl | rfl <;> simp
  refine ⟨h, keysFaithful_of_no_quotes h ?_⟩
  intro c hc; simp [tieMore, tieRows] at hc
  rcases hc with rfl | rfl | rfl | rfl <;> decide +kernel

/-- the hypotheses of `C95_sdmap_columns` are met -/
example : ∃ r r', (⟨Quality.wracc, -1, .tpFp 1 0, []⟩ : SDMapConfig).fit ⟨0, 0, [], []⟩ tieFrame (c!"t", c!"1") = .ok r ∧
    (⟨Quality.wracc, -1, .tpFp 1 0, []⟩ : SDMapConfig).fit ⟨0, 0, [], []⟩ tieMore (c!"t", c!"1") = .ok r' ∧ r.file.length = 6 ∧ r'.file.length = 13 := by
  have h1 : (tieLines (-1) tieFrame).map (·.length) = some 6 := by decide +kernel
  have h2 : (tieLines (-1) tieMore).map (·.length) = some 13 := by decide +kernel
  unfold tieLines at h1 h2
  split at h1
  · rename_i r hr
    split at h2
    · rename_i r' hr'
      exact ⟨r, r', hr, hr', by simpa using h1, by simpa using h2⟩
    · cases h2
  · cases h1
end Verif
