import Verif.Lemmas.VLSDFit
import Verif.Props.SDMap
import Verif.Props.QualityReal
/-! Properties C29, C30: VLSD. -/
namespace Verif
open Spec
section
open Classical

/-! ## specification -/
namespace Spec
variable {Seq : Type}

/-- the value of the quality measure for the counts of `X` in the data -/
noncomputable def vlQualityOf (cfg : VLSDConfig) (df : Frame) (target : Str × Str) (X : List Selector) : Except PyErr Rat :=
  cfg.measure (paramsFor (tpOf df target X) (fpOf df target X) (tpOf df target []) (fpOf df target []) cfg.extra)

/-- the vertical list is exactly that of its selectors: `has s i` says that row `i` is in the sequence `s` -/
structure ExactList (has : Seq → Nat → Prop) (cfg : VLSDConfig) (df : Frame) (target : Str × Str) (v : VList Selector Seq) : Prop where
  describes : Describes target v.sels
  nodup : v.sels.Nodup
  occurs : OccursIn df v.sels
  tp : v.tp = tpOf df target v.sels
  fp : v.fp = fpOf df target v.sels
  tpRows : ∀ i, has v.tpSeq i ↔ i < df.nrows ∧ Covers df v.sels i ∧ MatchesAt df (targetSel target) i
  fpRows : ∀ i, has v.fpSeq i ↔ i < df.nrows ∧ Covers df v.sels i ∧ ¬ MatchesAt df (targetSel target) i
  estimate : estimateOf cfg df target v.sels = .ok v.quality
  reaches : cfg.minEstimate ≤ v.quality

/-- the line is exactly that of the description `X`, with `X` in the order of the class `Pattern` -/
structure ExactLine (has : Seq → Nat → Prop) (cfg : VLSDConfig) (df : Frame) (target : Str × Str) (X : List Selector) (l : VLine Seq) : Prop where
  describes : Describes target X
  sorted : X.Pairwise (fun a b => a.lt b = true)
  occurs : OccursIn df X
  subgroup : l.subgroup = ⟨⟨X⟩, targetSel target⟩
  tp : l.tp = tpOf df target X
  fp : l.fp = fpOf df target X
  TP : l.TP = tpOf df target []
  FP : l.FP = fpOf df target []
  tpRows : ∀ i, has l.tpSeq i ↔ i < df.nrows ∧ Covers df X i ∧ MatchesAt df (targetSel target) i
  fpRows : ∀ i, has l.fpSeq i ↔ i < df.nrows ∧ Covers df X i ∧ ¬ MatchesAt df (targetSel target) i
  estimate : estimateOf cfg df target X = .ok l.estimate
  reachesEstimate : cfg.minEstimate ≤ l.estimate
  quality : vlQualityOf cfg df target X = .ok l.quality
  reachesQuality : cfg.minQuality ≤ l.quality

/-- `X` and `Y` are the same set of selectors -/
def SameSet (X Y : List Selector) : Prop := ∀ s, s ∈ X ↔ s ∈ Y

/-- `X` occurs in the data and its optimistic estimate reaches the threshold -/
def EstimateReached (cfg : VLSDConfig) (df : Frame) (target : Str × Str) (X : List Selector) : Prop :=
  OccursIn df X ∧ ∃ q, estimateOf cfg df target X = .ok q ∧ cfg.minEstimate ≤ q

/-- the optimistic estimate does not increase under refinement, on the descriptions of the data -/
def Antitone (cfg : VLSDConfig) (df : Frame) (target : Str × Str) : Prop :=
  ∀ X Y qX qY, X ≠ [] → (∀ s ∈ X, s ∈ Y) → OccursIn df Y → estimateOf cfg df target X = .ok qX → estimateOf cfg df target Y = .ok qY → qY ≤ qX

/-- the optimistic estimate bounds the quality of every refinement, on the descriptions of the data -/
def BoundsRefinements (cfg : VLSDConfig) (df : Frame) (target : Str × Str) : Prop :=
  ∀ X Y oX q, X ≠ [] → (∀ s ∈ X, s ∈ Y) → OccursIn df Y → estimateOf cfg df target X = .ok oX → vlQualityOf cfg df target Y = .ok q → q ≤ oX

/-- what one `fit` did: `calls` are the vertical lists handled -/
structure VLSDRun (has : Seq → Nat → Prop) (cfg : VLSDConfig) (df : Frame) (target : Str × Str) (st st' : VLState Seq)
    (calls : List (VList Selector Seq)) : Prop where
  calls_eq : st'.calls = st.calls ++ calls
  exact : ∀ v ∈ calls, ExactList has cfg df target v
  once : calls.Pairwise (fun u v => ¬ SameSet u.sels v.sels)
  visited : st'.selected + st'.unselected = st.selected + st.unselected + calls.length
  selected : st'.selected = st.selected + st'.file.length
  lines : ∀ l ∈ st'.file, ∃ X, ExactLine has cfg df target X l
  lines_once : (st'.file.map (·.subgroup.description)).Nodup
  written : ∀ v ∈ calls, ∀ q, vlQualityOf cfg df target v.sels = .ok q → cfg.minQuality ≤ q →
    ∃ l ∈ st'.file, l.subgroup = ⟨Pattern.new v.sels, targetSel target⟩
  complete : ∀ X, Describes target X → (∀ Y, Y ≠ [] → (∀ s ∈ Y, s ∈ X) → EstimateReached cfg df target Y) → ∃ v ∈ calls, SameSet v.sels X
end Spec

variable {Seq : Type} {I : VLImpl Seq} {df : Frame} {target : Str × Str}

theorem vl_handle_fold {cfg : VLSDConfig} {TP FP : Nat} (calls : List (VList Selector Seq)) (st st' : VLState Seq)
    (h : calls.foldlM (cfg.handle target TP FP) st = .ok st') :
    st'.calls = st.calls ++ calls ∧
    st'.selected + st'.unselected = st.selected + st.unselected + calls.length ∧
    ∃ lines, st'.file = st.file ++ lines ∧ st'.selected = st.selected + lines.length ∧
      (lines.map (·.subgroup.description)).Sublist (calls.map (fun v => Pattern.new v.sels)) ∧
      (∀ l ∈ lines, ∃ v ∈ calls, cfg.measure (paramsFor v.tp v.fp TP FP cfg.extra) = .ok l.quality ∧ cfg.minQuality ≤ l.quality ∧
        l = ⟨⟨Pattern.new v.sels, targetSel target⟩, v.tpSeq, v.fpSeq, l.quality, v.quality, v.tp, v.fp, TP, FP⟩) ∧
      (∀ v ∈ calls, ∀ q, cfg.measure (paramsFor v.tp v.fp TP FP cfg.extra) = .ok q → cfg.minQuality ≤ q →
        ∃ l ∈ lines, l.subgroup = ⟨Pattern.new v.sels, targetSel target⟩) := by
  induction calls generalizing st with
  | nil =>
    simp only [List.foldlM_nil] at h
    cases h
    exact ⟨by simp, by simp, [], by simp, by simp, by simp, by simp, by simp⟩
  | cons r calls ih =>
    rw [List.foldlM_cons] at h
    cases hq : cfg.measure (paramsFor r.tp r.fp TP FP cfg.extra) with
    | error e =>
      have : cfg.handle target TP FP st r = .error e := by unfold VLSDConfig.handle; rw [hq]
      rw [this] at h
      cases h
    | ok q =>
      by_cases hge : q ≥ cfg.minQuality
      · have heq : cfg.handle target TP FP st r = .ok { st with
          selected := st.selected + 1
          file := st.file ++ [⟨⟨Pattern.new r.sels, ⟨target.1, .equal, .str target.2⟩⟩, r.tpSeq, r.fpSeq, q, r.quality, r.tp, r.fp, TP, FP⟩]
          calls := st.calls ++ [r] } := by
          unfold VLSDConfig.handle; rw [hq]; simp only; rw [if_pos hge]
        rw [heq] at h
        obtain ⟨h1, h2, lines, h3, h4, h5, h6, h7⟩ := ih _ h
        refine ⟨by rw [h1]; simp, by rw [h2]; simp; omega, _ :: lines, by rw [h3, List.append_assoc, List.singleton_append],
          by rw [h4]; simp; omega, ?_, ?_, ?_⟩
        · simp only [List.map_cons]
          exact h5.cons_cons _
        · intro l hl
          rcases List.mem_cons.1 hl with rfl | hl
          · exact ⟨r, by simp, hq, hge, rfl⟩
          · obtain ⟨v, hv, hh⟩ := h6 l hl
            exact ⟨v, by simp [hv], hh⟩
        · intro v hv q' hq' hle
          rcases List.mem_cons.1 hv with rfl | hv
          · exact ⟨_, List.mem_cons_self, rfl⟩
          · obtain ⟨l, hl, hh⟩ := h7 v hv q' hq' hle
            exact ⟨l, by simp [hl], hh⟩
      · have heq : cfg.handle target TP FP st r = .ok { st with unselected := st.unselected + 1, calls := st.calls ++ [r] } := by
          unfold VLSDConfig.handle; rw [hq]; simp only; rw [if_neg hge]
        rw [heq] at h
        obtain ⟨h1, h2, lines, h3, h4, h5, h6, h7⟩ := ih _ h
        refine ⟨by rw [h1]; simp, by rw [h2]; simp; omega, lines, h3, h4, ?_, ?_, ?_⟩
        · simp only [List.map_cons]
          exact h5.trans (List.sublist_cons_self _ _)
        · intro l hl
          obtain ⟨v, hv, hh⟩ := h6 l hl
          exact ⟨v, by simp [hv], hh⟩
        · intro v hv q' hq' hle
          rcases List.mem_cons.1 hv with rfl | hv
          · rw [hq] at hq'; cases hq'; exact absurd hle hge
          · exact h7 v hv q' hq' hle

/-- one successful `fit`, for any lawful implementation -/
theorem vlsd_run (L : I.Laws) (has : Seq → Nat → Prop) (hL : ∀ s A, L.den df.nrows s A → ∀ i, has s i ↔ i < df.nrows ∧ A i)
    {cfg : VLSDConfig} (hc : CfgOK cfg) (hf : NominalFrame df target) {st st' : VLState Seq} (h : cfg.fit I st df target = .ok st') :
    ∃ calls, VLSDRun has cfg df target st st' calls := by
  obtain ⟨S1, C, f1, f2, f3, f4, f5, f6⟩ := (vlsd_fit_spec L hc hf st).1 st' h
  -- every call
  have hrep : ∀ v ∈ S1 ++ C, Repr L cfg df target v ∧ v.sels ≠ [] ∧ v.sels.Nodup ∧ ∀ s ∈ v.sels, IsSel target s := by
    intro v hv
    rcases List.mem_append.1 hv with hv | hv
    · obtain ⟨h1, h2⟩ := f2 v hv
      refine ⟨h1, by rw [h2]; simp, by rw [h2]; simp, ?_⟩
      intro s hs
      rw [h2] at hs
      simp only [List.nil_append, List.mem_singleton] at hs
      rw [hs]
      exact f4 _ (List.mem_map_of_mem hv)
    · obtain ⟨h1, Z, h2, h3, h4, h5⟩ := f6.sound v hv
      simp only [List.nil_append] at h2
      refine ⟨h1, ?_, by rw [h2]; exact h3, ?_⟩
      · rw [h2]; rintro rfl; simp at h5
      · rw [h2]; exact fun s hs => f4 s (h4 s hs)
  have hex : ∀ v ∈ S1 ++ C, ExactList has cfg df target v := by
    intro v hv
    obtain ⟨h1, h2, h3, h4⟩ := hrep v hv
    exact ⟨⟨h2, h4⟩, h3, h1.occurs, h1.tp, h1.fp, hL _ _ h1.tpSeq, hL _ _ h1.fpSeq, h1.est, h1.reach⟩
  have honce : (S1 ++ C).Pairwise (fun u v => ¬ SameSet u.sels v.sels) := by
    rw [List.pairwise_append]
    refine ⟨?_, f6.distinct, ?_⟩
    · rw [List.Nodup, List.pairwise_map] at f3
      refine f3.imp_of_mem ?_
      intro u v hu hv hne hs
      have h1 := (hs (lst u)).1 (by rw [(f2 u hu).2]; simp)
      rw [(f2 v hv).2] at h1
      simp only [List.nil_append, List.mem_singleton] at h1
      exact hne h1
    · intro u hu v hv hs
      obtain ⟨_, Z, h2, h3, h4, h5⟩ := f6.sound v hv
      simp only [List.nil_append] at h2
      match Z, h5 with
      | z1 :: z2 :: Z, _ =>
        have : ∀ z ∈ z1 :: z2 :: Z, z = lst u := by
          intro z hz
          have h1 := (hs z).2 (by rw [h2]; exact hz)
          rw [(f2 u hu).2] at h1
          simpa using h1
        rw [this z1 (by simp), this z2 (by simp)] at h3
        simp at h3
  obtain ⟨g1, g2, lines, g3, g4, g5, g6, g7⟩ := vl_handle_fold _ _ _ f1
  simp only [List.nil_append] at g3
  have hnew : ∀ v ∈ S1 ++ C, Pattern.Sorted (Pattern.new v.sels).sels ∧ ∀ s, s ∈ (Pattern.new v.sels).sels ↔ s ∈ v.sels :=
    fun v hv => new_text (textEq_of_describes (hex v hv).describes)
  refine ⟨S1 ++ C, g1, hex, honce, by simpa using g2, by rw [g4, g3], ?_, ?_, ?_, ?_⟩
  · intro l hl
    rw [g3] at hl
    obtain ⟨v, hv, q1, q2, q3⟩ := g6 l hl
    obtain ⟨n1, n2⟩ := hnew v hv
    have e := hex v hv
    have hcov : ∀ i, Covers df (Pattern.new v.sels).sels i ↔ Covers df v.sels i := fun i => covers_congr n2 i
    refine ⟨(Pattern.new v.sels).sels, ?_⟩
    rw [q3]
    refine ⟨⟨?_, fun s hs => e.describes.2 s ((n2 s).1 hs)⟩, ?_, ?_, rfl, ?_, ?_, rfl, rfl, ?_, ?_, ?_, e.reaches, ?_, q2⟩
    · intro hn
      obtain ⟨x, l', hxl⟩ := List.exists_cons_of_ne_nil e.describes.1
      have := (n2 x).2 (by rw [hxl]; simp)
      rw [hn] at this; simp at this
    · exact (sorted_iff_lt (fun s hs => textEq_of_describes e.describes s ((n2 s).1 hs))).2 n1
    · obtain ⟨i, hi, hcv⟩ := e.occurs
      exact ⟨i, hi, (hcov i).2 hcv⟩
    · rw [tpOf_congr n2]; exact e.tp
    · rw [fpOf_congr n2]; exact e.fp
    · intro i; rw [hcov]; exact e.tpRows i
    · intro i; rw [hcov]; exact e.fpRows i
    · rw [estimateOf_congr n2]; exact e.estimate
    · unfold vlQualityOf
      rw [tpOf_congr n2, fpOf_congr n2, ← e.tp, ← e.fp]
      exact q1
  · rw [g3]
    refine g5.nodup ?_
    rw [List.Nodup, List.pairwise_map]
    refine honce.imp_of_mem ?_
    intro u v hu hv hd hh
    apply hd
    intro s
    rw [← (hnew u hu).2 s, ← (hnew v hv).2 s, hh]
  · intro v hv q hq hle
    rw [g3]
    have e := hex v hv
    refine g7 v hv q ?_ hle
    rw [e.tp, e.fp]; exact hq
  · intro X hX hall
    have hall' : AllReach cfg df target X := hall
    by_cases h1 : X.dedup.length = 1
    · obtain ⟨s, hs⟩ := List.length_eq_one_iff.1 h1
      have hsX : ∀ t, t ∈ X ↔ t = s := by
        intro t; rw [← List.mem_dedup, hs]; simp
      have := f5 s (hX.2 s ((hsX s).2 rfl)) (hall' [s] (by simp) (by intro t ht; rw [hsX]; simpa using ht))
      obtain ⟨v, hv, hvs⟩ := List.mem_map.1 this
      refine ⟨v, by simp [hv], fun t => ?_⟩
      rw [(f2 v hv).2, hvs, hsX]; simp
    · have h2 : 2 ≤ X.dedup.length := by
        obtain ⟨x, l', hxl⟩ := List.exists_cons_of_ne_nil hX.1
        have : x ∈ X.dedup := List.mem_dedup.2 (by rw [hxl]; simp)
        have : 0 < X.dedup.length := List.length_pos_of_mem this
        omega
      obtain ⟨v, hv, hvs⟩ := f6.complete X.dedup (List.nodup_dedup _) (by
          intro s hs
          have hs' := List.mem_dedup.1 hs
          exact f5 s (hX.2 s hs') (hall' [s] (by simp) (by intro t ht; rw [List.mem_singleton.1 ht]; exact hs'))) h2
        (by simpa using hall'.mono (fun s hs => List.mem_dedup.1 hs))
      refine ⟨v, by simp [hv], fun t => ?_⟩
      rw [hvs]; simp

/-- the configurations that the constructor makes, with an estimate that reads its dictionary by key -/
theorem cfgOK_new (measure : Params → Except PyErr Rat) (minQ : Rat) (estimate : Params → Except PyErr Rat) (minE : Rat) (x xo : Params)
    (s1 s2 : SortCriterion) (he : LookupOnly estimate) : CfgOK (VLSDConfig.new measure minQ estimate minE x xo s1 s2) := by
  refine ⟨he, ?_, ?_⟩
  · simp only [VLSDConfig.new, deleteSubgroupParameters, lookup_del]; simp
  · simp only [VLSDConfig.new, deleteSubgroupParameters, lookup_del]; simp

/-- every measure of the library reads its dictionary by key -/
theorem lookupOnly_measure (m : Measure) : LookupOnly m.compute := fun d e h => C15_only_needed m d e (fun k _ => h k)

end

/-- C29 for the implementation with sets: whatever the data, the thresholds and the sort criteria, one `fit` handles only exact
vertical lists of descriptions that occur, once each, and writes exactly those whose quality reaches the minimum. -/
theorem C29_sets (measure : Params → Except PyErr Rat) (minQ : Rat) (estimate : Params → Except PyErr Rat) (minE : Rat) (x xo : Params)
    (s1 s2 : SortCriterion) (he : LookupOnly estimate) (df : Frame) (target : Str × Str) (hf : NominalFrame df target)
    (st st' : VLState (List Nat))
    (h : (VLSDConfig.new measure minQ estimate minE x xo s1 s2).fit .sets st df target = .ok st') :
    ∃ calls, VLSDRun (fun s i => i ∈ s) (VLSDConfig.new measure minQ estimate minE x xo s1 s2) df target st st' calls :=
  vlsd_run lawsSets _ (fun _ _ h => h.2) (cfgOK_new _ _ _ _ _ _ _ _ he) hf h

/-- C29 for the implementation with bitsets. -/
theorem C29_bitsets (measure : Params → Except PyErr Rat) (minQ : Rat) (estimate : Params → Except PyErr Rat) (minE : Rat) (x xo : Params)
    (s1 s2 : SortCriterion) (he : LookupOnly estimate) (df : Frame) (target : Str × Str) (hf : NominalFrame df target)
    (st st' : VLState Bits)
    (h : (VLSDConfig.new measure minQ estimate minE x xo s1 s2).fit .bitsets st df target = .ok st') :
    ∃ calls, VLSDRun (fun s i => s.get i = true) (VLSDConfig.new measure minQ estimate minE x xo s1 s2) df target st st' calls :=
  vlsd_run lawsBits _ (fun _ _ h => h.2) (cfgOK_new _ _ _ _ _ _ _ _ he) hf h

theorem vlsd_total {Seq : Type} (I : VLImpl Seq) (L : I.Laws) (measure : Params → Except PyErr Rat) (minQ : Rat) (estimate : Params → Except PyErr Rat) (minE : Rat) (x xo : Params)
    (s1 s2 : SortCriterion) (he : LookupOnly estimate) (df : Frame) (target : Str × Str) (hf : NominalFrame df target) (st : VLState Seq)
    (h1 : ∀ X, OccursIn df X → ∃ q, estimateOf (VLSDConfig.new measure minQ estimate minE x xo s1 s2) df target X = .ok q)
    (h2 : ∀ X, OccursIn df X → ∃ q, vlQualityOf (VLSDConfig.new measure minQ estimate minE x xo s1 s2) df target X = .ok q) :
    ∃ st', (VLSDConfig.new measure minQ estimate minE x xo s1 s2).fit I st df target = .ok st' := by
  refine (vlsd_fit_spec L (cfgOK_new _ _ _ _ _ _ _ _ he) hf st).2 ⟨h1, ?_⟩
  intro st v hv
  obtain ⟨q, hq⟩ := h2 _ hv.occurs
  unfold vlQualityOf at hq
  rw [← hv.tp, ← hv.fp] at hq
  unfold VLSDConfig.handle
  rw [hq]
  simp only
  split <;> exact ⟨_, rfl⟩

/-- C29: `fit` succeeds when both measures are defined on every description that occurs in the data (implementation with sets). -/
theorem C29_total_sets (measure : Params → Except PyErr Rat) (minQ : Rat) (estimate : Params → Except PyErr Rat) (minE : Rat) (x xo : Params)
    (s1 s2 : SortCriterion) (he : LookupOnly estimate) (df : Frame) (target : Str × Str) (hf : NominalFrame df target) (st : VLState (List Nat))
    (h1 : ∀ X, OccursIn df X → ∃ q, estimateOf (VLSDConfig.new measure minQ estimate minE x xo s1 s2) df target X = .ok q)
    (h2 : ∀ X, OccursIn df X → ∃ q, vlQualityOf (VLSDConfig.new measure minQ estimate minE x xo s1 s2) df target X = .ok q) :
    ∃ st', (VLSDConfig.new measure minQ estimate minE x xo s1 s2).fit .sets st df target = .ok st' :=
  vlsd_total .sets lawsSets measure minQ estimate minE x xo s1 s2 he df target hf st h1 h2

/-- C29: the same for the implementation with bitsets. -/
theorem C29_total_bitsets (measure : Params → Except PyErr Rat) (minQ : Rat) (estimate : Params → Except PyErr Rat) (minE : Rat) (x xo : Params)
    (s1 s2 : SortCriterion) (he : LookupOnly estimate) (df : Frame) (target : Str × Str) (hf : NominalFrame df target) (st : VLState Bits)
    (h1 : ∀ X, OccursIn df X → ∃ q, estimateOf (VLSDConfig.new measure minQ estimate minE x xo s1 s2) df target X = .ok q)
    (h2 : ∀ X, OccursIn df X → ∃ q, vlQualityOf (VLSDConfig.new measure minQ estimate minE x xo s1 s2) df target X = .ok q) :
    ∃ st', (VLSDConfig.new measure minQ estimate minE x xo s1 s2).fit .bitsets st df target = .ok st' :=
  vlsd_total .bitsets lawsBits measure minQ estimate minE x xo s1 s2 he df target hf st h1 h2

/-- C30: a description all of whose sub-descriptions reach the threshold is handled. -/
theorem C30_complete {Seq : Type} {has : Seq → Nat → Prop} {cfg : VLSDConfig} {df : Frame} {target : Str × Str} {st st' : VLState Seq}
    {calls : List (VList Selector Seq)} (h : VLSDRun has cfg df target st st' calls) (X : List Selector) (hX : Describes target X)
    (hall : ∀ Y, Y ≠ [] → (∀ s ∈ Y, s ∈ X) → EstimateReached cfg df target Y) : ∃ v ∈ calls, SameSet v.sels X :=
  h.complete X hX hall

/-- the estimate is defined on every non-empty description that occurs -/
def Spec.EstimateDefined (cfg : VLSDConfig) (df : Frame) (target : Str × Str) : Prop :=
  ∀ X, X ≠ [] → OccursIn df X → ∃ q, estimateOf cfg df target X = .ok q

/-- C30: if the optimistic estimate does not increase under refinement, then the descriptions handled are exactly those that occur
and whose estimate reaches the threshold: nothing is missed. -/
theorem C30_antitone {Seq : Type} {has : Seq → Nat → Prop} {cfg : VLSDConfig} {df : Frame} {target : Str × Str} {st st' : VLState Seq}
    {calls : List (VList Selector Seq)} (h : VLSDRun has cfg df target st st' calls) (ha : Antitone cfg df target)
    (hd : EstimateDefined cfg df target) (X : List Selector) (hX : Describes target X) :
    (∃ v ∈ calls, SameSet v.sels X) ↔ EstimateReached cfg df target X := by
  constructor
  · rintro ⟨v, hv, hs⟩
    have e := h.exact v hv
    exact (reaches_congr hs).1 ⟨e.occurs, _, e.estimate, e.reaches⟩
  · rintro ⟨ho, q, hq, hle⟩
    refine h.complete X hX ?_
    intro Y hY hYs
    have hoY := occursIn_mono hYs ho
    obtain ⟨qY, hqY⟩ := hd Y hY hoY
    exact ⟨hoY, qY, hqY, le_trans hle (ha Y X qY q hY hYs ho hqY hq)⟩

/-- C30: if the optimistic estimate bounds the quality of every refinement (which is what the library calls an optimistic estimate),
then every description whose quality reaches the threshold of the estimate is handled, and it is written if its quality reaches the
minimum. -/
theorem C30_bound {Seq : Type} {has : Seq → Nat → Prop} {cfg : VLSDConfig} {df : Frame} {target : Str × Str} {st st' : VLState Seq}
    {calls : List (VList Selector Seq)} (h : VLSDRun has cfg df target st st' calls) (hb : BoundsRefinements cfg df target)
    (hd : EstimateDefined cfg df target) (X : List Selector) (hX : Describes target X) (ho : OccursIn df X) (q : Rat)
    (hq : vlQualityOf cfg df target X = .ok q) (hle : cfg.minEstimate ≤ q) :
    (∃ v ∈ calls, SameSet v.sels X) ∧
    (cfg.minQuality ≤ q → ∃ l ∈ st'.file, SameSet l.subgroup.description.sels X ∧ l.subgroup.target = targetSel target ∧ l.quality = q) := by
  have hc : ∃ v ∈ calls, SameSet v.sels X := by
    refine h.complete X hX ?_
    intro Y hY hYs
    have hoY := occursIn_mono hYs ho
    obtain ⟨qY, hqY⟩ := hd Y hY hoY
    exact ⟨hoY, qY, hqY, le_trans hle (hb Y X qY q hY hYs ho hqY hq)⟩
  refine ⟨hc, fun hmin => ?_⟩
  obtain ⟨v, hv, hs⟩ := hc
  have hqv : vlQualityOf cfg df target v.sels = .ok q := by
    unfold vlQualityOf at hq ⊢
    rw [tpOf_congr hs, fpOf_congr hs]; exact hq
  obtain ⟨l, hl, hls⟩ := h.written v hv q hqv hmin
  obtain ⟨Z, hZ⟩ := h.lines l hl
  have hn := (new_text (textEq_of_describes (h.exact v hv).describes)).2
  have hset : SameSet l.subgroup.description.sels X := by
    rw [hls]; exact fun s => (hn s).trans (hs s)
  refine ⟨l, hl, hset, by rw [hls], ?_⟩
  have hZX : SameSet Z X := by rw [hZ.subgroup] at hset; exact hset
  have := hZ.quality
  unfold vlQualityOf at this hq
  rw [tpOf_congr hZX, fpOf_congr hZX, hq] at this
  exact (Except.ok.inj this).symm

/-- C30 on the file: with an estimate that does not increase under refinement, the lines of the file are exactly the descriptions
that occur, whose estimate reaches its threshold and whose quality reaches the minimum. -/
theorem C30_file {Seq : Type} {has : Seq → Nat → Prop} {cfg : VLSDConfig} {df : Frame} {target : Str × Str} {st st' : VLState Seq}
    {calls : List (VList Selector Seq)} (h : VLSDRun has cfg df target st st' calls) (ha : Antitone cfg df target)
    (hd : EstimateDefined cfg df target) (X : List Selector) (hX : Describes target X) (hs : X.Pairwise (fun a b => a.lt b = true)) :
    (∃ l ∈ st'.file, l.subgroup = ⟨⟨X⟩, targetSel target⟩) ↔
      EstimateReached cfg df target X ∧ ∃ q, vlQualityOf cfg df target X = .ok q ∧ cfg.minQuality ≤ q := by
  constructor
  · rintro ⟨l, hl, hls⟩
    obtain ⟨Z, hZ⟩ := h.lines l hl
    have : Z = X := by
      have := hZ.subgroup
      rw [hls] at this
      simpa using this.symm
    subst this
    exact ⟨⟨hZ.occurs, _, hZ.estimate, hZ.reachesEstimate⟩, _, hZ.quality, hZ.reachesQuality⟩
  · rintro ⟨hr, q, hq, hle⟩
    obtain ⟨v, hv, hvs⟩ := (C30_antitone h ha hd X hX).2 hr
    have hqv : vlQualityOf cfg df target v.sels = .ok q := by
      unfold vlQualityOf at hq ⊢
      rw [tpOf_congr hvs, fpOf_congr hvs]; exact hq
    obtain ⟨l, hl, hls⟩ := h.written v hv q hqv hle
    refine ⟨l, hl, ?_⟩
    rw [hls]
    have ht := textEq_of_describes (h.exact v hv).describes
    obtain ⟨n1, n2⟩ := new_text ht
    have : (Pattern.new v.sels).sels = X := sorted_ext n1 ((sorted_iff_lt (textEq_of_describes hX)).1 hs) (fun s hss => ht s ((n2 s).1 hss))
      (fun s => (n2 s).trans (hvs s))
    congr 1
    cases hp : Pattern.new v.sels
    rw [hp] at this
    rw [← this]


/-! ## the measures of the library -/

theorem paramsFor_counts (m : Measure) (hm : ∀ k ∈ needs m, k = kTp ∨ k = kFp ∨ k = kTP ∨ k = kFP) (tp fp TP FP : Nat) (x : Params) :
    m.compute (paramsFor tp fp TP FP (deleteSubgroupParameters x)) = m.compute (counts tp fp TP FP) := by
  apply C15_only_needed
  intro k hk
  unfold paramsFor
  rw [lookup_update]
  · rfl
  · simp only [deleteSubgroupParameters, lookup_del]
    rcases hm k hk with rfl | rfl | rfl | rfl <;> simp

section
open Classical

/-- C30 for the measures of the library, whatever the additional parameters: both estimates of Piatetsky-Shapiro do not increase under
refinement and bound the quality of refinements; that of WRAcc bounds it. All are defined on what occurs. -/
theorem C30_library (df : Frame) (target : Str × Str) (minQ minE : Rat) (x xo : Params) (s1 s2 : SortCriterion) :
    (∀ oe, oe = Measure.psOE1 ∨ oe = Measure.psOE2 →
      Antitone (VLSDConfig.new Measure.piatetskyShapiro.compute minQ oe.compute minE x xo s1 s2) df target ∧
      BoundsRefinements (VLSDConfig.new Measure.piatetskyShapiro.compute minQ oe.compute minE x xo s1 s2) df target ∧
      EstimateDefined (VLSDConfig.new Measure.piatetskyShapiro.compute minQ oe.compute minE x xo s1 s2) df target) ∧
    BoundsRefinements (VLSDConfig.new Measure.wracc.compute minQ Measure.wraccOE1.compute minE x xo s1 s2) df target ∧
    EstimateDefined (VLSDConfig.new Measure.wracc.compute minQ Measure.wraccOE1.compute minE x xo s1 s2) df target := by
  have hn : ∀ m, m = Measure.piatetskyShapiro ∨ m = Measure.psOE1 ∨ m = Measure.psOE2 ∨ m = Measure.wracc ∨ m = Measure.wraccOE1 →
      ∀ k ∈ needs m, k = kTp ∨ k = kFp ∨ k = kTP ∨ k = kFP := by
    rintro m (rfl | rfl | rfl | rfl | rfl) k hk <;> simp [needs] at hk <;> tauto
  have hle : ∀ X, tpOf df target X ≤ tpOf df target [] ∧ fpOf df target X ≤ fpOf df target [] :=
    fun X => ⟨tpOf_mono (by simp), fpOf_mono (by simp)⟩
  have hpos : ∀ X, OccursIn df X → 0 < tpOf df target X + fpOf df target X := fun X h => (occurs_iff (target := target)).2 h
  have hb : ∀ X, OccursIn df X → _ := fun X h =>
    C16_bound (tpOf df target X) (fpOf df target X) (tpOf df target []) (fpOf df target []) _ _ (hle X).1 (hle X).2 le_rfl le_rfl (hpos X h)
  refine ⟨?_, ?_, ?_⟩
  · intro oe hoe
    refine ⟨?_, ?_, ?_⟩
    · intro X Y qX qY _ hXY hY h1 h2
      have hX := hpos Y hY
      have h0 := hle Y
      obtain ⟨⟨a, b, m1, m2, m3⟩, a', b', m1', m2', m3'⟩ := C16_monotone (tpOf df target X) (fpOf df target X) (tpOf df target []) (fpOf df target [])
        (tpOf df target Y) (fpOf df target Y) (tpOf_mono hXY) (fpOf_mono hXY) (by omega)
      unfold estimateOf at h1 h2
      simp only [VLSDConfig.new] at h1 h2
      rcases hoe with rfl | rfl
      · rw [paramsFor_counts _ (hn _ (by simp))] at h1 h2
        rw [m2] at h1; rw [m1] at h2
        cases h1; cases h2; exact m3
      · rw [paramsFor_counts _ (hn _ (by simp))] at h1 h2
        rw [m2'] at h1; rw [m1'] at h2
        cases h1; cases h2; exact m3'
    · intro X Y oX q _ hXY hY h1 h2
      obtain ⟨⟨q', o1, o2, m1, m2, m3, m4, m5⟩, _⟩ := C16_bound (tpOf df target X) (fpOf df target X) (tpOf df target []) (fpOf df target [])
        (tpOf df target Y) (fpOf df target Y) (hle X).1 (hle X).2 (tpOf_mono hXY) (fpOf_mono hXY) (hpos Y hY)
      unfold estimateOf at h1
      unfold vlQualityOf at h2
      simp only [VLSDConfig.new] at h1 h2
      rw [paramsFor_counts _ (hn _ (by simp)), m1] at h2
      cases h2
      rcases hoe with rfl | rfl
      · rw [paramsFor_counts _ (hn _ (by simp)), m2] at h1
        cases h1; exact m4.trans m5
      · rw [paramsFor_counts _ (hn _ (by simp)), m3] at h1
        cases h1; exact m4
    · intro X _ hX
      obtain ⟨⟨q', o1, o2, m1, m2, m3, m4, m5⟩, _⟩ := hb X hX
      unfold estimateOf
      simp only [VLSDConfig.new]
      rcases hoe with rfl | rfl
      · rw [paramsFor_counts _ (hn _ (by simp)), m2]; exact ⟨_, rfl⟩
      · rw [paramsFor_counts _ (hn _ (by simp)), m3]; exact ⟨_, rfl⟩
  · intro X Y oX q _ hXY hY h1 h2
    obtain ⟨_, q', o, m1, m2, m3⟩ := C16_bound (tpOf df target X) (fpOf df target X) (tpOf df target []) (fpOf df target [])
      (tpOf df target Y) (fpOf df target Y) (hle X).1 (hle X).2 (tpOf_mono hXY) (fpOf_mono hXY) (hpos Y hY)
    unfold estimateOf at h1
    unfold vlQualityOf at h2
    simp only [VLSDConfig.new] at h1 h2
    rw [paramsFor_counts _ (hn _ (by simp)), m1] at h2
    rw [paramsFor_counts _ (hn _ (by simp)), m2] at h1
    cases h2; cases h1; exact m3
  · intro X _ hX
    obtain ⟨_, q', o, m1, m2, m3⟩ := hb X hX
    unfold estimateOf
    simp only [VLSDConfig.new]
    rw [paramsFor_counts _ (hn _ (by simp)), m2]; exact ⟨_, rfl⟩
end


/-! ## examples -/

/-- a configuration with WRAcc and its estimate -/
def Spec.vlCfg (minQ minE : Rat) : VLSDConfig :=
  VLSDConfig.new Measure.wracc.compute minQ Measure.wraccOE1.compute minE [] [] .noOrder .descending

def Spec.freshVL {Seq : Type} : VLState Seq := ⟨0, 0, [], []⟩

/-- observable part of a run -/
def Spec.vlRun {Seq : Type} (I : VLImpl Seq) (cfg : VLSDConfig) (df : Frame) (target : Str × Str) :
    Option (List (List Selector × Nat × Nat × Rat) × List (Str × Rat) × Nat × Nat) :=
  match cfg.fit I freshVL df target with
  | .ok st => some (st.calls.map (fun v => (v.sels, v.tp, v.fp, v.quality)), st.file.map (fun l => (l.subgroup.description.str, l.quality)),
      st.selected, st.unselected)
  | .error _ => none


/-- the hypotheses hold for a concrete run, and both implementations handle and write the same -/
example : LookupOnly Measure.wraccOE1.compute ∧ (vlRun .sets (vlCfg (1/100) 0) demoFrame (c!"t", c!"yes")).map (fun r => (r.1.map (fun a => (a.2.1, a.2.2.1)), r.2)) =
      some ([(1, 2), (1, 0), (2, 1), (0, 1), (1, 1), (0, 1), (1, 0)],
        [(c!"[a = 'y']", 1 / 8), (c!"[b = 'p']", 1 / 8), (c!"[a = 'y', b = 'p']", 1 / 8)], 3, 4) ∧
    (vlRun .bitsets (vlCfg (1/100) 0) demoFrame (c!"t", c!"yes")).map (fun r => (r.1.map (fun a => (a.2.1, a.2.2.1)), r.2)) =
      some ([(1, 2), (1, 0), (2, 1), (0, 1), (1, 1), (0, 1), (1, 0)],
        [(c!"[a = 'y']", 1 / 8), (c!"[b = 'p']", 1 / 8), (c!"[a = 'y', b = 'p']", 1 / 8)], 3, 4) :=
  ⟨lookupOnly_measure _, by decide +kernel, by decide +kernel⟩

/-- four rows: the descriptions `a = x` and `b = y` cover one positive and one negative row each, both together only the positive one -/
def Spec.missFrame : Frame :=
  ⟨4, [(c!"a", [.str c!"x", .str c!"x", .str c!"z", .str c!"z"]), (c!"b", [.str c!"y", .str c!"w", .str c!"y", .str c!"w"]),
    (c!"t", [.str c!"y", .str c!"n", .str c!"n", .str c!"y"])]⟩

theorem missFrame_ok : NominalFrame missFrame (c!"t", c!"y") := by
  refine ⟨?_, by decide +kernel, ?_, by decide +kernel⟩
  · intro c hc; simp [missFrame] at hc; rcases hc with rfl | rfl | rfl <;> rfl
  · intro c hc; simp [missFrame] at hc
    rcases hc with rfl | rfl | rfl <;> simp


/-- C30 without the monotonicity of the estimate: with WRAcc and its estimate, which bounds the quality of refinements but increases
under refinement, a description that occurs and whose estimate reaches the threshold is not handled. -/
theorem C30_not_antitone : ∃ (df : Frame) (target : Str × Str) (minQ minE : Rat) (st' : VLState Bits) (X : List Selector),
    NominalFrame df target ∧ (vlCfg minQ minE).fit .bitsets freshVL df target = .ok st' ∧ Describes target X ∧
    EstimateReached (vlCfg minQ minE) df target X ∧ st'.calls = [] ∧ st'.file = [] := by
  have h0 : (vlRun .bitsets (vlCfg (-1) 0) missFrame (c!"t", c!"y")).map
      (fun r => decide (([⟨c!"a", .equal, .str c!"x"⟩, ⟨c!"b", .equal, .str c!"y"⟩], 1, 0, 1/2) ∈ r.1)) = some true := by decide +kernel
  have h1 : (vlRun .bitsets (vlCfg (-1) (1/2)) missFrame (c!"t", c!"y")).map
      (fun r => decide (r.1 = [] ∧ r.2.1 = [])) = some true := by decide +kernel
  unfold vlRun at h0 h1
  split at h0
  · rename_i st hst
    split at h1
    · rename_i st1 hst1
      simp only [Option.map_some, Option.some.injEq, decide_eq_true_eq, List.map_eq_nil_iff] at h0 h1
      obtain ⟨v, hv, hve⟩ := List.mem_map.1 h0
      obtain ⟨calls, hr⟩ := C29_bitsets _ _ _ _ _ _ _ _ (lookupOnly_measure _) _ _ missFrame_ok _ _ hst
      have hv' : v ∈ calls := by
        have := hr.calls_eq
        simp only [freshVL, List.nil_append] at this
        rw [← this]; exact hv
      have e := hr.exact v hv'
      simp only [Prod.mk.injEq] at hve
      obtain ⟨e1, _, _, e4⟩ := hve
      refine ⟨missFrame, (c!"t", c!"y"), -1, 1/2, st1, v.sels, missFrame_ok, hst1, e.describes, ⟨e.occurs, v.quality, e.estimate, ?_⟩, h1.1, h1.2⟩
      rw [e4]; exact le_refl _
    · simp at h1
  · simp at h0

end Verif
