import Verif.Lemmas.VLSDAgree
import Verif.Props.VLSD
import Verif.Props.SDMapStar
import Verif.Props.BSD
/-! Properties C69, C70: the algorithms agree with each other. -/
namespace Verif
open Spec

/-! ## C69: VLSD with sets and with bitsets -/

/-- C69: whatever the data frame (one cell per row and column), the target and the configuration, `fit` with vertical lists with sets and `fit` with
vertical lists with bitsets raise the same exception, or end with the same counters, the same lines in the same order (description, quality,
estimate, counts, and sequences that stand for the same rows) and after the same calls. -/
theorem C69_vlsd_same (cfg : VLSDConfig) (df : Frame) (hw : WF df) (target : Str × Str) (st : VLState (List Nat)) (st' : VLState Bits)
    (hs : SameVLState st st') : SameResult SameVLState (cfg.fit .sets st df target) (cfg.fit .bitsets st' df target) :=
  vlsd_fit_same hw hs

/-- C69: in particular for two new objects. -/
theorem C69_vlsd_new (cfg : VLSDConfig) (df : Frame) (hw : WF df) (target : Str × Str) :
    SameResult SameVLState (cfg.fit .sets ⟨0, 0, [], []⟩ df target) (cfg.fit .bitsets ⟨0, 0, [], []⟩ df target) :=
  vlsd_fit_same hw ⟨rfl, rfl, .nil, .nil⟩

/-- C69: and after any number of `fit`s, with any data and targets, as long as none fails: the two objects stay equivalent. -/
theorem C69_vlsd_history (cfg : VLSDConfig) (hist : List (Frame × (Str × Str))) (hw : ∀ h ∈ hist, WF h.1) (st : VLState (List Nat)) (st' : VLState Bits)
    (hs : SameVLState st st') :
    SameResult SameVLState (hist.foldlM (fun s h => cfg.fit .sets s h.1 h.2) st) (hist.foldlM (fun s h => cfg.fit .bitsets s h.1 h.2) st') := by
  induction hist generalizing st st' with
  | nil => exact hs
  | cons h t ih =>
    rw [List.foldlM_cons, List.foldlM_cons]
    have := vlsd_fit_same (cfg := cfg) (target := h.2) (hw h (by simp)) hs
    generalize cfg.fit .sets st h.1 h.2 = r at this ⊢
    generalize cfg.fit .bitsets st' h.1 h.2 = r' at this ⊢
    rcases r with e | a <;> rcases r' with e' | b <;> simp only [SameResult] at this
    · exact this
    · exact ih (fun k hk => hw k (by simp [hk])) a b this

/-! ## C70: SDMap, SDMapStar, VLSD and BSD on the same data -/

/-- what a reader sees of a line that all the algorithms write: subgroup, quality, tp, fp, TP, FP -/
abbrev Spec.Seen := Subgroup × Rat × Nat × Nat × Nat × Nat

def Spec.ResultLine.seen (l : ResultLine) : Seen := (l.subgroup, l.quality, l.tp, l.fp, l.TP, l.FP)
def Spec.VLine.seen {Seq : Type} (l : VLine Seq) : Seen := (l.subgroup, l.quality, l.tp, l.fp, l.TP, l.FP)
def Spec.BSDLine.seen (l : BSDLine) : Seen := (l.subgroup, l.quality, l.tp, l.fp, l.TP, l.FP)

section
open Classical

/-- a list of lines without repeated descriptions is determined, up to the order, by its elements -/
theorem perm_seen {a b : List Seen} (ha : (a.map (·.1.description)).Nodup) (hb : (b.map (·.1.description)).Nodup)
    (h : ∀ x, x ∈ a ↔ x ∈ b) : a.Perm b :=
  (List.perm_ext_iff_of_nodup ha.of_map hb.of_map).2 h

variable {Seq : Type} {has : Seq → Nat → Prop} {cfg : VLSDConfig} {df : Frame} {target : Str × Str} {vl vl' : VLState Seq}
    {calls : List (VList Selector Seq)}

/-- the lines of VLSD, when its estimate bounds the quality of refinements and its threshold does not exceed that of the quality -/
theorem vlsd_seen (h : VLSDRun has cfg df target vl vl' calls) (hb : BoundsRefinements cfg df target) (hd : EstimateDefined cfg df target)
    (hle : cfg.minEstimate ≤ cfg.minQuality) (x : Seen) :
    x ∈ vl'.file.map VLine.seen ↔ ∃ X q, Describes target X ∧ X.Pairwise (fun a b => a.lt b = true) ∧ OccursIn df X ∧
      vlQualityOf cfg df target X = .ok q ∧ cfg.minQuality ≤ q ∧
      x = (⟨⟨X⟩, targetSel target⟩, q, tpOf df target X, fpOf df target X, tpOf df target [], fpOf df target []) := by
  constructor
  · intro hx
    obtain ⟨l, hl, rfl⟩ := List.mem_map.1 hx
    obtain ⟨X, hX⟩ := h.lines l hl
    refine ⟨X, l.quality, hX.describes, hX.sorted, hX.occurs, hX.quality, hX.reachesQuality, ?_⟩
    unfold VLine.seen
    rw [hX.subgroup, hX.tp, hX.fp, hX.TP, hX.FP]
  · rintro ⟨X, q, h1, h2, h3, h4, h5, rfl⟩
    obtain ⟨l, hl, l1, l2, l3⟩ := (C30_bound h hb hd X h1 h3 q h4 (le_trans hle h5)).2 h5
    obtain ⟨Z, hZ⟩ := h.lines l hl
    rw [hZ.subgroup] at l1
    have hZX : Z = X := sorted_ext ((sorted_iff_lt (textEq_of_describes hZ.describes)).1 hZ.sorted)
      ((sorted_iff_lt (textEq_of_describes h1)).1 h2) (textEq_of_describes hZ.describes) l1
    subst hZX
    refine List.mem_map.2 ⟨l, hl, ?_⟩
    unfold VLine.seen
    rw [hZ.subgroup, hZ.tp, hZ.fp, hZ.TP, hZ.FP, l3]

theorem vlsd_seen_nodup (h : VLSDRun has cfg df target vl vl' calls) : ((vl'.file.map VLine.seen).map (·.1.description)).Nodup := by
  have := h.lines_once
  rw [List.map_map]
  exact this

/-- the lines of SDMap that reach the file, and VLSD's: same measure, same minimum quality and same additional parameters -/
theorem sdmap_vlsd {scfg : SDMapConfig} (hm : scfg.measure = cfg.measure) (hq : scfg.minQuality = cfg.minQuality) (hx : scfg.extra = cfg.extra)
    (hf : NominalFrame df target) (hk : KeysFaithful df target) {st st' : SDMapState} (h0 : st.file = []) (hs : scfg.fit st df target = .ok st')
    (h : VLSDRun has cfg df target vl vl' calls) (hb : BoundsRefinements cfg df target) (hd : EstimateDefined cfg df target)
    (hle : cfg.minEstimate ≤ cfg.minQuality) :
    (st'.file.map ResultLine.seen).Perm ((vl'.file.map VLine.seen).filter (fun x => decide (Frequent scfg.th x.2.2.1 x.2.2.2.1))) := by
  have hqual : ∀ X, qualityOf scfg df target X = vlQualityOf cfg df target X := fun X => by unfold qualityOf vlQualityOf; rw [hm, hx]
  have hn : (((vl'.file.map VLine.seen).filter (fun x => decide (Frequent scfg.th x.2.2.1 x.2.2.2.1))).map (·.1.description)).Nodup :=
    (vlsd_seen_nodup h).sublist (List.filter_sublist.map _)
  have hmem : ∀ x, x ∈ (vl'.file.map VLine.seen).filter (fun x => decide (Frequent scfg.th x.2.2.1 x.2.2.2.1)) ↔
      ∃ X q, Reportable scfg.th df target X ∧ qualityOf scfg df target X = .ok q ∧ scfg.minQuality ≤ q ∧
        x = (⟨⟨X⟩, targetSel target⟩, q, tpOf df target X, fpOf df target X, tpOf df target [], fpOf df target []) := by
    intro x
    rw [List.mem_filter, vlsd_seen h hb hd hle, decide_eq_true_iff]
    constructor
    · rintro ⟨⟨X, q, a, b, c, d, e, rfl⟩, f⟩
      exact ⟨X, q, ⟨a, b, c, f⟩, by rw [hqual]; exact d, by rw [hq]; exact e, rfl⟩
    · rintro ⟨X, q, ⟨a, b, c, f⟩, d, e, rfl⟩
      exact ⟨⟨X, q, a, b, c, by rw [← hqual]; exact d, by rw [← hq]; exact e, rfl⟩, f⟩
  by_cases hex : ∃ X, Reportable scfg.th df target X
  · refine perm_seen ?_ hn ?_
    · rw [List.map_map]
      exact (C25_selected scfg df target hf hk st st' hs hex).2
    · intro x
      rw [hmem]
      constructor
      · intro hx
        obtain ⟨l, hl, rfl⟩ := List.mem_map.1 hx
        obtain ⟨X, q, a, b, c, rfl⟩ := (C23_written scfg df target hf hk st st' hs hex l).1 hl
        exact ⟨X, q, a, b, c, rfl⟩
      · rintro ⟨X, q, a, b, c, rfl⟩
        exact List.mem_map.2 ⟨lineOf df target X q, (C23_written scfg df target hf hk st st' hs hex _).2 ⟨X, q, a, b, c, rfl⟩, rfl⟩
  · have := C23_nothing scfg df target hf hk st st' hs hex
    rw [this, h0]
    have he : (vl'.file.map VLine.seen).filter (fun x => decide (Frequent scfg.th x.2.2.1 x.2.2.2.1)) = [] := by
      rw [List.eq_nil_iff_forall_not_mem]
      intro x hx
      obtain ⟨X, q, a, _⟩ := (hmem x).1 hx
      exact hex ⟨X, a⟩
    rw [he]
    exact List.Perm.nil
end

/-- the estimate suits the measure on the data: it is defined on what occurs and bounds the quality of refinements -/
structure Spec.Suits (cfg : VLSDConfig) (df : Frame) (target : Str × Str) : Prop where
  bounds : BoundsRefinements cfg df target
  defined : EstimateDefined cfg df target

section
variable (measure : Params → Except PyErr Rat) (minQ : Rat) (estimate : Params → Except PyErr Rat) (minE : Rat) (x xo : Params)
  (s1 s2 : SortCriterion) (he : LookupOnly estimate) (df : Frame) (target : Str × Str) (hf : NominalFrame df target)
  (hsuit : Suits (VLSDConfig.new measure minQ estimate minE x xo s1 s2) df target) (hle : minE ≤ minQ)

open Classical in
include he hf hsuit hle in
/-- C70: SDMap and VLSD, with the same measure, minimum quality and additional parameters, write the same lines (subgroup, quality, tp, fp, TP, FP),
up to the order, except that SDMap leaves out those that do not meet its support thresholds. Here with the bitsets; by C69 the lines with sets are
the same. -/
theorem C70_sdmap_vlsd (hk : KeysFaithful df target) (minTp minFp minN : Option Int) (scfg : SDMapConfig)
    (hc : SDMapConfig.new measure minQ minTp minFp minN x = .ok scfg) (sd sd' : SDMapState) (h0 : sd.file = [])
    (h1 : scfg.fit sd df target = .ok sd') (vl vl' : VLState Bits)
    (h2 : (VLSDConfig.new measure minQ estimate minE x xo s1 s2).fit .bitsets vl df target = .ok vl') :
    (sd'.file.map ResultLine.seen).Perm ((vl'.file.map VLine.seen).filter (fun l => decide (Frequent scfg.th l.2.2.1 l.2.2.2.1))) := by
  obtain ⟨calls, hr⟩ := C29_bitsets measure minQ estimate minE x xo s1 s2 he df target hf vl vl' h2
  unfold SDMapConfig.new at hc
  split at hc
  · cases hc
    exact sdmap_vlsd (cfg := VLSDConfig.new measure minQ estimate minE x xo s1 s2) rfl rfl rfl hf hk h0 h1 hr hsuit.bounds hsuit.defined hle
  · cases hc

open Classical in
include he hf hsuit hle in
/-- C70: the same for SDMapStar with `num_subgroups = 0`. -/
theorem C70_star_vlsd (hk : KeysFaithful df target) (minTp minFp minN : Option Int) (est : Params → Except PyErr Rat) (y : Params) (scfg : SDMapStarConfig)
    (hc : SDMapStarConfig.new measure est minQ minTp minFp minN x y 0 = .ok scfg) (sd sd' : StarState) (h0 : sd.base.file = [])
    (h1 : scfg.fit sd df target = .ok sd') (vl vl' : VLState Bits)
    (h2 : (VLSDConfig.new measure minQ estimate minE x xo s1 s2).fit .bitsets vl df target = .ok vl') :
    (sd'.base.file.map ResultLine.seen).Perm ((vl'.file.map VLine.seen).filter (fun l => decide (Frequent scfg.th l.2.2.1 l.2.2.2.1))) := by
  unfold SDMapStarConfig.new at hc
  split at hc
  · rename_i th hth
    cases hc
    obtain ⟨g1, g2⟩ := C26 ⟨⟨measure, minQ, th, deleteSubgroupParameters x⟩, est, deleteSubgroupParameters y, 0⟩ rfl df target hf hk sd
    obtain ⟨b, hb⟩ := g1.1 ⟨_, h1⟩
    refine ((g2 _ _ h1 hb).2.2.1.map _).trans ?_
    exact C70_sdmap_vlsd measure minQ estimate minE x xo s1 s2 he df target hf hsuit hle hk minTp minFp minN _
      (by unfold SDMapConfig.new; rw [hth]) sd.base b h0 hb vl vl' h2
  · cases hc

include he hf hsuit hle in
/-- C70: BSD, CBSD and CPBSD report only lines that VLSD writes too (when their quality reaches VLSD's minimum), and the best quality they report is
that of VLSD's best line among the descriptions of at most `max_depth + 1` selectors with enough positive rows. -/
theorem C70_bsd_vlsd (ht : TextsFaithful df target) (v : BSDVariant) (minS : Rat) (num depth : Nat) (hn : 0 < num)
    (ha : BSDAbove (BSDConfig.new v minS measure estimate num depth x xo) df target)
    (hm : v = .bsd → BSDMonotone (BSDConfig.new v minS measure estimate num depth x xo) df target) (b' : BSDState)
    (h1 : (BSDConfig.new v minS measure estimate num depth x xo).fit .fresh df target = .ok b') (vl vl' : VLState Bits)
    (h2 : (VLSDConfig.new measure minQ estimate minE x xo s1 s2).fit .bitsets vl df target = .ok vl') :
    (∀ l ∈ b'.file, minQ ≤ l.quality → BSDLine.seen l ∈ vl'.file.map VLine.seen) ∧
    (∀ l ∈ vl'.file, l.subgroup.description.sels.length ≤ depth + 1 →
      (∀ s ∈ l.subgroup.description.sels, minS ≤ (tpOf df target [s] : Rat)) → ∃ k ∈ b'.file, l.quality ≤ k.quality) := by
  obtain ⟨calls, hr⟩ := C29_bitsets measure minQ estimate minE x xo s1 s2 he df target hf vl vl' h2
  have hbb : BSDBounds (BSDConfig.new v minS measure estimate num depth x xo) df target := by
    intro X Y o q hX hXY hY ho hq
    exact hsuit.bounds X Y o q hX.1 hXY hY ho hq
  constructor
  · intro l hl hq
    obtain ⟨e, _, hex⟩ := (C31_fit hn ha hf ht b' h1).2.2.1 l hl
    refine (vlsd_seen hr hsuit.bounds hsuit.defined hle _).2 ⟨e.pat.sels, l.quality, hex.describes, hex.sorted, hex.occurs, hex.quality, hq, ?_⟩
    unfold BSDLine.seen
    rw [hex.subgroup, hex.tp, hex.fp, hex.TP, hex.FP]
  · intro l hl hlen hsup
    obtain ⟨X, hX⟩ := hr.lines l hl
    rw [hX.subgroup] at hlen hsup
    have hsort := (sorted_iff_lt (textEq_of_describes hX.describes)).1 hX.sorted
    refine C53_best hn ha hf ht hbb hm b' h1 X l.quality hX.describes.1 ?_ ?_ hlen hX.occurs hX.quality
    · refine hX.sorted.imp_of_mem ?_
      rintro a b ha' hb' hab rfl
      have := (TextEq.lt_key (textEq_of_describes hX.describes a ha') (textEq_of_describes hX.describes a ha')).1 hab
      exact absurd this (lt_irrefl _)
    · intro s hs
      refine ⟨⟨by simp, fun t ht => ?_⟩, occursIn_mono (by simpa using hs) hX.occurs, hsup s hs⟩
      rw [List.mem_singleton.1 ht]
      exact hX.describes.2 s hs
end

/-- C70: the condition holds on every data frame for WRAcc with its estimate and for Piatetsky-Shapiro with either of its estimates, whatever the
additional parameters. -/
theorem C70_library (df : Frame) (target : Str × Str) (minQ minE : Rat) (x xo : Params) (s1 s2 : SortCriterion) (m oe : Measure)
    (h : (m, oe) ∈ [(Measure.wracc, Measure.wraccOE1), (Measure.piatetskyShapiro, Measure.psOE1), (Measure.piatetskyShapiro, Measure.psOE2)]) :
    LookupOnly oe.compute ∧ Suits (VLSDConfig.new m.compute minQ oe.compute minE x xo s1 s2) df target := by
  refine ⟨lookupOnly_measure _, ?_⟩
  obtain ⟨a, b, c⟩ := C30_library df target minQ minE x xo s1 s2
  simp only [List.mem_cons, Prod.mk.injEq, List.not_mem_nil, or_false] at h
  rcases h with ⟨rfl, rfl⟩ | ⟨rfl, rfl⟩ | ⟨rfl, rfl⟩
  · exact ⟨b, c⟩
  · exact ⟨(a _ (Or.inl rfl)).2.1, (a _ (Or.inl rfl)).2.2⟩
  · exact ⟨(a _ (Or.inr rfl)).2.1, (a _ (Or.inr rfl)).2.2⟩

/-! ## examples -/

/-- the lines of a run of each algorithm on `demoFrame`, as the texts of the descriptions with qualities and counts -/
def Spec.demoSeen (l : List Seen) : List (Str × Rat × Nat × Nat) := l.map (fun s => (s.1.description.str, s.2.1, s.2.2.1, s.2.2.2.1))

/-- SDMap with no support threshold writes what VLSD writes, in another order; with `minimum_tp = 2` it leaves out two lines; BSD reports the best ones -/
example :
    (match SDMapConfig.new Measure.wracc.compute (1/100) (some 0) (some 0) none [] with
      | .ok c => (match c.fit ⟨0, 0, [], []⟩ demoFrame (c!"t", c!"yes") with | .ok s => demoSeen (s.file.map ResultLine.seen) | .error _ => [])
      | .error _ => []) = [(c!"[a = 'y']", 1 / 8, 1, 0), (c!"[a = 'y', b = 'p']", 1 / 8, 1, 0), (c!"[b = 'p']", 1 / 8, 2, 1)] ∧
    (match (vlCfg (1/100) 0).fit .bitsets freshVL demoFrame (c!"t", c!"yes") with | .ok s => demoSeen (s.file.map VLine.seen) | .error _ => []) =
      [(c!"[a = 'y']", 1 / 8, 1, 0), (c!"[b = 'p']", 1 / 8, 2, 1), (c!"[a = 'y', b = 'p']", 1 / 8, 1, 0)] ∧
    (match SDMapConfig.new Measure.wracc.compute (1/100) (some 2) (some 0) none [] with
      | .ok c => (match c.fit ⟨0, 0, [], []⟩ demoFrame (c!"t", c!"yes") with | .ok s => demoSeen (s.file.map ResultLine.seen) | .error _ => [])
      | .error _ => []) = [(c!"[b = 'p']", 1 / 8, 2, 1)] ∧
    (match (bsdCfg .bsd 2 1).fit .fresh demoFrame (c!"t", c!"yes") with | .ok s => demoSeen (s.file.map BSDLine.seen) | .error _ => []) =
      [(c!"[b = 'p']", 1 / 8, 2, 1), (c!"[a = 'y']", 1 / 8, 1, 0)] := by
  refine ⟨by decide +kernel, by decide +kernel, by decide +kernel, by decide +kernel⟩

/-- both implementations refuse data that is not nominal, and a target that is not a column, in the same way -/
example : SameResult SameVLState ((vlCfg 0 0).fit .sets ⟨0, 0, [], []⟩ ⟨1, [(c!"a", [.int 1])]⟩ (c!"a", c!"x"))
    ((vlCfg 0 0).fit .bitsets ⟨0, 0, [], []⟩ ⟨1, [(c!"a", [.int 1])]⟩ (c!"a", c!"x")) ∧
    (vlCfg 0 0).fit .sets ⟨0, 0, [], []⟩ ⟨1, [(c!"a", [.int 1])]⟩ (c!"a", c!"x") = .error .datasetAttributeType :=
  ⟨C69_vlsd_new _ _ (by intro c hc; simp at hc; subst hc; rfl) _, rfl⟩

end Verif
