import Verif.Lemmas.FloatQFinder
import Verif.Props.QFinder
import Verif.Props.FloatIDSD
/-! Property C110: QFinder with rounding. -/
namespace Verif
open Spec QFinder BSD
open IDSD (mem_new new_len new_sels_eq sublist_ext covBits)

section
open Classical
variable {ρ : Rat → Rat} {cfg : QFConfig} {df : Frame} {target : Str × Str}

theorem QFinderRounded.fit_cands (hf : NominalFrame df target) (hs : SafeTexts df target) {st st' : QFState} (h : QFinderRounded.fit ρ cfg st df target = .ok st') :
    st'.cands = occurring df (candidates cfg df target.1) ∧
    st'.table = st'.cands.map (fun p => (p.str, (computedQFEntry ρ cfg df target st'.cands.length p).cred)) ∧
    QFinderRounded.selectTopK ρ cfg (rankPatterns cfg (st'.cands.map (computedQFEntry ρ cfg df target st'.cands.length))) = .ok st'.top := by
  rw [QFinderRounded.fit_eq hf hs] at h
  split at h
  · cases h
  · rename_i top ht
    cases h
    exact ⟨rfl, rfl, ht⟩

/-- C110: the patterns that are ranked are all different, and they are exactly the descriptions that occur in the data, with at most `max_complexity` selectors, all of them
on the kept values: all the values of the attribute when they are at most `cats`, otherwise its `cats - 1` most frequent ones. -/
theorem C110_candidates (hf : NominalFrame df target) (hs : SafeTexts df target) {st st' : QFState} (h : QFinderRounded.fit ρ cfg st df target = .ok st') :
    st'.cands.Nodup ∧ ∃ K : Str → List Val, (∀ c ∈ df.cols, c.1 ≠ target.1 → QFKept cfg.cats c.2 (K c.1)) ∧
      ∀ p, p ∈ st'.cands ↔ ∃ X, p = Pattern.new X ∧ Describes target X ∧ OccursIn df X ∧ p.len ≤ qfMaxSelectors cfg df ∧ ∀ s ∈ X, s.val ∈ K s.attr := by
  obtain ⟨h1, _, _⟩ := QFinderRounded.fit_cands hf hs h
  rw [h1]
  refine ⟨(candidates_nodup hf).filter _, fun a => match df.cols.lookup a with | some col => keptVals cfg.ties cfg.cats col | none => [], ?_, ?_⟩
  · intro c hc _
    simp only
    rw [lookup_of_mem_nodup hf.names hc]
    exact keptVals_spec _ _
  · intro p
    rw [mem_reported hf]
    constructor
    · rintro ⟨X, rfl, hX, ho, hl, hk⟩
      refine ⟨X, rfl, hX, ho, hl, fun s hs' => ?_⟩
      obtain ⟨i, _, hi⟩ := ho
      obtain ⟨col, v, h1, _⟩ := hi s hs'
      simp only
      rw [h1]
      exact hk s hs' (s.attr, col) (mem_of_lookup h1) rfl
    · rintro ⟨X, rfl, hX, ho, hl, hk⟩
      refine ⟨X, rfl, hX, ho, hl, fun s hs' c hc hcs => ?_⟩
      have := hk s hs'
      simp only at this
      rw [← hcs, lookup_of_mem_nodup hf.names hc] at this
      exact this

theorem QFinderRounded.ranked_good (hf : NominalFrame df target) (hp : ∀ X, Describes target X → OccursIn df X → glmPOf cfg df target X ≠ .nan) :
    Good (rankPatterns cfg ((occurring df (candidates cfg df target.1)).map (computedQFEntry ρ cfg df target (occurring df (candidates cfg df target.1)).length))) ∧
    (rankPatterns cfg ((occurring df (candidates cfg df target.1)).map (computedQFEntry ρ cfg df target (occurring df (candidates cfg df target.1)).length))).Pairwise (RankBefore cfg) := by
  set Q := occurring df (candidates cfg df target.1) with hQ
  have hpat : ∀ e ∈ Q.map (computedQFEntry ρ cfg df target Q.length), e.pat ∈ Q := by
    intro e he
    obtain ⟨p, hp, rfl⟩ := List.mem_map.1 he
    exact hp
  have hpv : ∀ e ∈ Q.map (computedQFEntry ρ cfg df target Q.length), e.cred.pval ≠ .nan := by
    intro e he
    obtain ⟨p, hp', rfl⟩ := List.mem_map.1 he
    rw [hQ, mem_occurring] at hp'
    exact hp p.sels (inCols_describes (candidates_cols hf hp'.1)) hp'.2
  have hperm := rankPatterns_perm cfg (Q.map (computedQFEntry ρ cfg df target Q.length))
  have hc : ∀ p ∈ Q, (∀ s ∈ p.sels, TextEq s) ∧ Pattern.Sorted p.sels := by
    intro p hp'
    rw [hQ, mem_occurring] at hp'
    have h := candidates_cols hf hp'.1
    have h1 := hp'.1
    rw [candidates_eq hf] at h1
    obtain ⟨X, hX, rfl⟩ := List.mem_map.1 h1
    exact ⟨fun s hs => (h.2 s hs).1.2, (new_text (fun s hs => (candSets_sel hf hX s hs).1.2)).1⟩
  refine ⟨⟨?_, ?_, ?_, ?_⟩, rankPatterns_sorted cfg hpv⟩
  · rw [(hperm.map (·.pat)).nodup_iff, List.map_map]
    have : ((fun e : QFEntry => e.pat) ∘ computedQFEntry ρ cfg df target Q.length) = id := rfl
    rw [this, List.map_id]
    exact (candidates_nodup hf).filter _
  · exact fun e he => (hc _ (hpat e (hperm.mem_iff.1 he))).2
  · exact fun e he => (hc _ (hpat e (hperm.mem_iff.1 he))).1
  · exact fun e he => hpv e (hperm.mem_iff.1 he)

/-- C110: with at least one subgroup asked for and p-values that are numbers, `fit` ends without error, whatever the object has done before. Let `E` be the candidates that occur in the
data, with their calculated credibility values. The result has at most `num_subgroups` elements of `E`, all different, in the order of `QFBefore`; when one generalises another, the odds ratio of the
refinement exceeds the calculated sum of its own and `delta`; for every element of `E` that is not in the result there is a reason of `AbsenceReasonRounded`; and when a reported pattern should have been
replaced by a reported refinement, there is the reason of `StayReasonRounded`. -/
theorem C110_selection (hf : NominalFrame df target) (hs : SafeTexts df target) (hnum : 1 ≤ cfg.num)
    (hp : ∀ X, Describes target X → OccursIn df X → glmPOf cfg df target X ≠ .nan) (st : QFState) :
    ∃ st', QFinderRounded.fit ρ cfg st df target = .ok st' ∧
      (st'.top.length : Int) ≤ cfg.num ∧ (st'.top.map (·.pat)).Nodup ∧
      (∀ e ∈ st'.top, e.pat ∈ st'.cands ∧ e = computedQFEntry ρ cfg df target st'.cands.length e.pat) ∧
      st'.top.Pairwise (QFBefore cfg) ∧
      (∀ a ∈ st'.top, ∀ b ∈ st'.top, Generalises a b → ExceedsRounded ρ cfg b a) ∧
      (∀ p ∈ st'.cands, p ∈ st'.top.map (·.pat) ∨
        AbsenceReasonRounded ρ cfg (st'.cands.map (computedQFEntry ρ cfg df target st'.cands.length)) (computedQFEntry ρ cfg df target st'.cands.length p)) ∧
      ∀ a ∈ st'.top, ∀ b ∈ st'.top, Generalises a b → (roundX ρ (a.cred.odds.addFin cfg.delta)).lt b.cred.odds = true → b.cred.pval.lt a.cred.pval = true →
        StayReasonRounded ρ cfg (st'.cands.map (computedQFEntry ρ cfg df target st'.cands.length)) st'.top b a := by
  obtain ⟨hg, hr⟩ := QFinderRounded.ranked_good (ρ := ρ) (cfg := cfg) hf hp
  have hfit := QFinderRounded.fit_eq (ρ := ρ) (cfg := cfg) hf hs st
  set Q := occurring df (candidates cfg df target.1) with hQ
  have hperm := rankPatterns_perm cfg (Q.map (computedQFEntry ρ cfg df target Q.length))
  obtain ⟨top, h1, h2, h3, h4, h5, h6, h7, h8⟩ := QFinderRounded.selectTopK_spec (ρ := ρ) (cfg := cfg) hg hnum hr
  rw [h1] at hfit
  simp only at hfit
  have hE : ∀ e, e ∈ rankPatterns cfg (Q.map (computedQFEntry ρ cfg df target Q.length)) ↔ e ∈ Q.map (computedQFEntry ρ cfg df target Q.length) := fun e => hperm.mem_iff
  refine ⟨_, hfit, h2, ?_, ?_, h5, h6, ?_, ?_⟩
  · exact List.Nodup.map_on (fun a ha b hb hab => hg.eq_of_pat (h3 a ha) (h3 b hb) hab) h4
  · intro e he
    obtain ⟨p, hp', rfl⟩ := List.mem_map.1 (hperm.mem_iff.1 (h3 e he))
    exact ⟨hp', rfl⟩
  · intro p hp'
    rcases h7 (computedQFEntry ρ cfg df target Q.length p) (hperm.mem_iff.2 (List.mem_map_of_mem hp')) with h | h
    · exact .inl (List.mem_map.2 ⟨_, h, rfl⟩)
    · refine .inr ?_
      unfold AbsenceReasonRounded at h ⊢
      simp only [hE] at h
      exact h
  · intro a ha b hb g1 g2 g3
    have h := h8 a ha b hb g1 g2 g3
    unfold StayReasonRounded at h ⊢
    simp only [hE] at h
    exact h

/-- C110: `unselected_subgroups` is the number of the candidates that occur in the data and are not reported. -/
theorem C110_unselected (hf : NominalFrame df target) (hs : SafeTexts df target) (hnum : 1 ≤ cfg.num)
    (hp : ∀ X, Describes target X → OccursIn df X → glmPOf cfg df target X ≠ .nan) {st st' : QFState} (h : QFinderRounded.fit ρ cfg st df target = .ok st') :
    getUnselected st' = ((st'.cands.filter (fun p => decide (p ∉ st'.top.map (·.pat)))).length : Int) := by
  obtain ⟨st1, h1, _, h3, h4, _⟩ := C110_selection (ρ := ρ) hf hs hnum hp st
  rw [h] at h1
  cases h1
  obtain ⟨hc, _, _⟩ := QFinderRounded.fit_cands hf hs h
  have hn : st'.cands.Nodup := by rw [hc]; exact (candidates_nodup hf).filter _
  have hl := List.length_eq_length_filter_add (l := st'.cands) (fun p => decide (p ∈ st'.top.map (·.pat)))
  have hp' : (st'.cands.filter (fun p => decide (p ∈ st'.top.map (·.pat)))).Perm (st'.top.map (·.pat)) := by
    refine (List.perm_ext_iff_of_nodup (hn.filter _) h3).2 (fun p => ?_)
    rw [List.mem_filter, decide_eq_true_eq]
    refine ⟨fun h => h.2, fun h => ⟨?_, h⟩⟩
    obtain ⟨e, he, rfl⟩ := List.mem_map.1 h
    exact (h4 e he).1
  rw [hp'.length_eq, List.length_map] at hl
  have e : (fun p => !decide (p ∈ st'.top.map (·.pat))) = fun p => decide (p ∉ st'.top.map (·.pat)) := by
    funext p; rw [Bool.eq_iff_iff]; simp
  rw [e] at hl
  unfold getUnselected
  omega

variable {df2 : Frame}

/-- `test_subgroups`, exactly -/
theorem QFinderRounded.testSubgroups_eq (hf2 : NominalFrame df2 target) {st : QFState} (hd : (st.top.map (·.pat)).Nodup) (hr : ∀ p ∈ st.top.map (·.pat), Readable p)
    (hc : ∀ p ∈ st.top.map (·.pat), p.sels ≠ [] ∧ ∀ s ∈ p.sels, InCols df2 target s) :
    QFinderRounded.testSubgroups ρ cfg st df2 target =
      if ∀ p ∈ occurring df2 (st.top.map (·.pat)), 2 ≤ p.len → ∀ s ∈ p.sels, p.copy.remove s ∈ occurring df2 (st.top.map (·.pat)) then
        .ok ((occurring df2 (st.top.map (·.pat))).map (fun p => (p.str, (computedQFEntry ρ cfg df2 target (occurring df2 (st.top.map (·.pat))).length p).cred)))
      else .error .keyError := by
  set T := occurring df2 (st.top.map (·.pat)) with hT
  have hTn : T.Nodup := occurring_nodup hd
  have hTr : ∀ p ∈ T, Readable p := fun p hp => hr p (mem_occurring.1 hp).1
  have hb := bitsetLoop_eq hf2 (st.top.map (·.pat)) [] hc (by rw [List.map_nil, List.nil_append]; exact strs_nodup hTn hTr)
  rw [List.nil_append] at hb
  unfold QFinderRounded.testSubgroups
  rw [targetMask_eq hf2, hb]
  simp only
  have e : List.map (fun p => (p.str, covBits df2 p.sels)) (occurring df2 (st.top.map (·.pat))) = cols df2 T := rfl
  rw [e]
  by_cases h : ∀ p ∈ T, 2 ≤ p.len → ∀ s ∈ p.sels, p.copy.remove s ∈ T
  · rw [if_pos h, QFinderRounded.credTable_ok cfg hTn hTr h]
  · rw [if_neg h]
    push Not at h
    exact QFinderRounded.credTable_error cfg hTn hTr h

theorem QFinderRounded.top_facts (hf : NominalFrame df target) (hs : SafeTexts df target) (hnum : 1 ≤ cfg.num)
    (hp : ∀ X, Describes target X → OccursIn df X → glmPOf cfg df target X ≠ .nan) {st st' : QFState} (h : QFinderRounded.fit ρ cfg st df target = .ok st') :
    (st'.top.map (·.pat)).Nodup ∧ ∀ p ∈ st'.top.map (·.pat), Readable p ∧ p.sels ≠ [] ∧ (∀ s ∈ p.sels, InCols df target s) ∧ p ∈ st'.cands := by
  obtain ⟨st1, h1, _, h3, h4, _⟩ := C110_selection (ρ := ρ) hf hs hnum hp st
  rw [h] at h1
  cases h1
  obtain ⟨hc, _, _⟩ := QFinderRounded.fit_cands hf hs h
  refine ⟨h3, fun p hp' => ?_⟩
  obtain ⟨e, he, rfl⟩ := List.mem_map.1 hp'
  have h5 := (h4 e he).1
  have h6 := h5
  rw [hc] at h5
  have h7 := candidates_cols hf (mem_occurring.1 h5).1
  exact ⟨occurring_readable hf hs _ h5, h7.1, h7.2, h6⟩

/-- C110: `test_subgroups` on data with (at least) the attributes of the data of `fit`. Let `T` be the reported patterns that occur in the test data. If every pattern of `T` with two or more
selectors has in `T` all the patterns made by removing one of its selectors, the result is the table of the credibility values of the patterns of `T` on the test data; otherwise
it fails with a `KeyError`. -/
theorem C110_test (hf : NominalFrame df target) (hs : SafeTexts df target) (hnum : 1 ≤ cfg.num)
    (hp : ∀ X, Describes target X → OccursIn df X → glmPOf cfg df target X ≠ .nan) {st st' : QFState} (h : QFinderRounded.fit ρ cfg st df target = .ok st')
    (hf2 : NominalFrame df2 target) (hcols : ∀ a ∈ df.cols.map (·.1), a ∈ df2.cols.map (·.1)) :
    let T := (st'.top.map (·.pat)).filter (fun p => decide (OccursIn df2 p.sels))
    ((∀ p ∈ T, 2 ≤ p.len → ∀ s ∈ p.sels, p.copy.remove s ∈ T) →
      QFinderRounded.testSubgroups ρ cfg st' df2 target = .ok (T.map (fun p => (p.str, (computedQFEntry ρ cfg df2 target T.length p).cred)))) ∧
    ((∃ p ∈ T, 2 ≤ p.len ∧ ∃ s ∈ p.sels, p.copy.remove s ∉ T) → QFinderRounded.testSubgroups ρ cfg st' df2 target = .error .keyError) := by
  intro T
  obtain ⟨h1, h2⟩ := QFinderRounded.top_facts hf hs hnum hp h
  have e := QFinderRounded.testSubgroups_eq (ρ := ρ) (cfg := cfg) hf2 h1 (fun p hp => (h2 p hp).1) (fun p hp => ⟨(h2 p hp).2.1, fun s hs =>
    ⟨((h2 p hp).2.2.1 s hs).1, hcols _ ((h2 p hp).2.2.1 s hs).2⟩⟩)
  have eT : occurring df2 (st'.top.map (·.pat)) = T := rfl
  rw [eT] at e
  constructor
  · intro hh; rw [e, if_pos hh]
  · rintro ⟨p, hp, h2, s, hs, hn⟩; rw [e, if_neg (fun hh => hn (hh p hp h2 s hs))]

/-- C110: the file of `fit` has one line for each reported pattern, with its credibility values. That of `test_subgroups` too, with the values on the test data, if all the reported
patterns occur in the test data and `test_subgroups` itself does not fail; otherwise writing it fails with a `KeyError`. -/
theorem C110_files (hf : NominalFrame df target) (hs : SafeTexts df target) (hnum : 1 ≤ cfg.num)
    (hp : ∀ X, Describes target X → OccursIn df X → glmPOf cfg df target X ≠ .nan) {st st' : QFState} (h : QFinderRounded.fit ρ cfg st df target = .ok st')
    (hf2 : NominalFrame df2 target) (hcols : ∀ a ∈ df.cols.map (·.1), a ∈ df2.cols.map (·.1)) :
    fitFile st' = .ok (st'.top.map (fun e => (e.pat.str, e.cred))) ∧
    ((∃ e ∈ st'.top, ¬ OccursIn df2 e.pat.sels) → QFinderRounded.testFile ρ cfg st' df2 target = .error .keyError) ∧
    ((∀ e ∈ st'.top, OccursIn df2 e.pat.sels) → (∃ t, QFinderRounded.testSubgroups ρ cfg st' df2 target = .ok t) →
      QFinderRounded.testFile ρ cfg st' df2 target = .ok (st'.top.map (fun e => (e.pat.str, (computedQFEntry ρ cfg df2 target st'.top.length e.pat).cred)))) := by
  obtain ⟨h1, h2⟩ := QFinderRounded.top_facts hf hs hnum hp h
  obtain ⟨hc, ht, _⟩ := QFinderRounded.fit_cands hf hs h
  have hcr : ∀ p ∈ st'.cands, Readable p := by rw [hc]; exact occurring_readable hf hs
  have hcn : st'.cands.Nodup := by rw [hc]; exact (candidates_nodup hf).filter _
  have e2 := QFinderRounded.testSubgroups_eq (ρ := ρ) (cfg := cfg) hf2 h1 (fun p hp => (h2 p hp).1) (fun p hp => ⟨(h2 p hp).2.1, fun s hs =>
    ⟨((h2 p hp).2.2.1 s hs).1, hcols _ ((h2 p hp).2.2.1 s hs).2⟩⟩)
  refine ⟨?_, ?_, ?_⟩
  · unfold fitFile
    rw [ht, fileLines_eq hcn hcr (fun p => (computedQFEntry ρ cfg df target st'.cands.length p).cred) _ (fun p hp => (h2 p hp).1), if_pos (fun p hp => (h2 p hp).2.2.2)]
    rw [List.map_map]
    congr 1
    apply List.map_congr_left
    intro e he
    obtain ⟨st1, g1, _, _, g4, _⟩ := C110_selection (ρ := ρ) hf hs hnum hp st
    rw [h] at g1
    cases g1
    have := (g4 e he).2
    simp only [Function.comp, Prod.mk.injEq, true_and]
    rw [← this]
  · rintro ⟨e, he, hne⟩
    unfold QFinderRounded.testFile
    by_cases hh : ∀ p ∈ occurring df2 (st'.top.map (·.pat)), 2 ≤ p.len → ∀ s ∈ p.sels, p.copy.remove s ∈ occurring df2 (st'.top.map (·.pat))
    · rw [if_pos hh] at e2
      rw [e2]
      simp only
      rw [fileLines_eq (occurring_nodup h1) (fun p hp => (h2 p (mem_occurring.1 hp).1).1) (fun p => (computedQFEntry ρ cfg df2 target
        (occurring df2 (st'.top.map (·.pat))).length p).cred) _ (fun p hp => (h2 p hp).1), if_neg]
      intro hall
      exact hne (mem_occurring.1 (hall e.pat (List.mem_map_of_mem he))).2
    · rw [if_neg hh] at e2
      rw [e2]

  · rintro hall ⟨t, ht⟩
    have eT : occurring df2 (st'.top.map (·.pat)) = st'.top.map (·.pat) := by
      unfold occurring
      rw [List.filter_eq_self]
      intro p hp
      obtain ⟨e, he, rfl⟩ := List.mem_map.1 hp
      exact decide_eq_true (hall e he)
    rw [eT] at e2
    unfold QFinderRounded.testFile
    by_cases hh : ∀ p ∈ st'.top.map (·.pat), 2 ≤ p.len → ∀ s ∈ p.sels, p.copy.remove s ∈ st'.top.map (·.pat)
    · rw [if_pos hh] at e2
      rw [e2]
      simp only
      rw [fileLines_eq h1 (fun p hp => (h2 p hp).1) (fun p => (computedQFEntry ρ cfg df2 target (st'.top.map (·.pat)).length p).cred) _ (fun p hp => (h2 p hp).1),
        if_pos (fun p hp => hp), List.map_map, List.length_map]
      rfl
    · rw [if_neg hh] at e2
      rw [e2] at ht
      cases ht

end

section
variable {ρ : Rat → Rat} {cfg : QFConfig} {df : Frame} {target : Str × Str}

/-! ## exact numbers -/

/-- C110: with exact numbers, `fit` and `test_subgroups` are those of C38 and C60. -/
theorem C110_exact (cfg : QFConfig) (st : QFState) (df : Frame) (target : Str × Str) :
    QFinderRounded.fit id cfg st df target = QFinder.fit cfg st df target ∧ QFinderRounded.testSubgroups id cfg st df target = QFinder.testSubgroups cfg st df target := by
  have h1 : QFinderRounded.addDelta id = XF.addFin := by funext x d; cases x <;> rfl
  have h2 : QFinderRounded.adjusted id = XF.mulPos := by funext x d; cases x <;> rfl
  have h4 : IDSDRounded.sub id = XF.sub := by
    funext a b
    cases a <;> cases b <;> rfl
  have h5 : IDSDRounded.div id = XF.div := by
    funext a b
    cases a <;> cases b <;> rfl
  have h6 : ∀ (orOf : Pattern → Except PyErr XF) p o l mn mx, SelectorContribution.loop orOf none p o l mn mx = (IDSDRounded.loop id orOf p o l mn mx).map Sum.inr := by
    intro orOf p o l
    induction l with
    | nil => intro mn mx; rfl
    | cons s l ih =>
      intro mn mx
      rw [SelectorContribution.loop, IDSDRounded.loop]
      cases orOf (p.copy.remove s) with
      | error e => rfl
      | ok o' => simp only [h4, Bool.false_eq_true, if_false]; exact ih _ _
  have h7 : ∀ (orOf : Pattern → Except PyErr XF) p, IDSDRounded.compute id orOf p = SelectorContribution.compute orOf none p := by
    intro orOf p
    unfold IDSDRounded.compute SelectorContribution.compute IDSDRounded.ratio SelectorContribution.ratio
    rw [h5]
    split
    · rfl
    · split
      · rfl
      · cases orOf p with
        | error e => rfl
        | ok o =>
          simp only [h6]
          cases IDSDRounded.loop id orOf p o p.sels .inf .ninf with
          | error e => rfl
          | ok r => rfl
  have h8 : QFinderRounded.credOfCol id = QFinder.credOfCol := by
    funext cfg bits t n e
    unfold QFinderRounded.credOfCol QFinder.credOfCol
    simp only [h7, h2]
    rfl
  have h9 : QFinderRounded.credTable id = QFinder.credTable := by
    funext cfg bits t n
    unfold QFinderRounded.credTable QFinder.credTable
    rw [h8]
  have h10 : QFinderRounded.consider id = QFinder.consider := by
    funext cfg top e
    unfold QFinderRounded.consider QFinder.consider QFinderRounded.rejected QFinder.rejected QFinderRounded.replaces QFinder.replaces
    simp only [h1]
  have h11 : ∀ cfg l top, QFinderRounded.lengthLoop id cfg l top = QFinder.lengthLoop cfg l top := by
    intro cfg l
    induction l with
    | nil => intro top; rfl
    | cons e l ih =>
      intro top
      rw [QFinderRounded.lengthLoop, QFinder.lengthLoop, h10]
      cases QFinder.leave cfg.num top e with
      | error e => rfl
      | ok b => cases b; exacts [ih _, rfl]
  have h12 : ∀ cfg E l top, QFinderRounded.lengthsLoop id cfg E l top = QFinder.lengthsLoop cfg E l top := by
    intro cfg E l
    induction l with
    | nil => intro top; rfl
    | cons e l ih =>
      intro top
      rw [QFinderRounded.lengthsLoop, QFinder.lengthsLoop, h11]
      cases QFinder.lengthLoop cfg (E.filter (fun x => decide (x.pat.len = e))) top with
      | error e => rfl
      | ok b => exact ih _
  have h13 : QFinderRounded.selectTopK id = QFinder.selectTopK := by
    funext cfg E
    exact h12 _ _ _ _
  constructor
  · unfold QFinderRounded.fit QFinder.fit
    simp only [h9, h13]
    rfl
  · unfold QFinderRounded.testSubgroups QFinder.testSubgroups
    simp only [h9]
    rfl

/-! ## calculated and exact values -/

theorem roundX_le (hρ : ∀ x y : Rat, x ≤ y → ρ x ≤ ρ y) {a b : XF} (h : a.le b = true) : (roundX ρ a).le (roundX ρ b) = true := by
  cases a <;> cases b <;> simp_all [XF.le, roundX]

theorem roundX_nan {a : XF} : roundX ρ a = .nan ↔ a = .nan := by cases a <;> simp [roundX]

theorem roundX_min (hρ : ∀ x y : Rat, x ≤ y → ρ x ≤ ρ y) (a b : XF) : roundX ρ (a.pyMin b) = (roundX ρ a).pyMin (roundX ρ b) := by
  unfold XF.pyMin
  by_cases h : b.lt a = true
  · rw [if_pos h]
    have h1 := roundX_le hρ (XF.lt_le h)
    by_cases h2 : (roundX ρ b).lt (roundX ρ a) = true
    · rw [if_pos h2]
    · rw [if_neg h2]
      have hn := XF.ne_nan_of_le h1
      rw [XF.lt_iff hn.1 hn.2, not_not] at h2
      exact XF.le_antisymm h1 h2
  · rw [if_neg h, if_neg]
    intro h2
    have hn := XF.ne_nan_of_le (XF.lt_le h2)
    rw [XF.lt_iff (fun e => hn.1 (roundX_nan.2 e)) (fun e => hn.2 (roundX_nan.2 e)), not_not] at h
    rw [XF.not_lt_of_le (roundX_le hρ h)] at h2
    cases h2

theorem roundX_max (hρ : ∀ x y : Rat, x ≤ y → ρ x ≤ ρ y) (a b : XF) : roundX ρ (a.pyMax b) = (roundX ρ a).pyMax (roundX ρ b) := by
  unfold XF.pyMax
  by_cases h : a.lt b = true
  · rw [if_pos h]
    have h1 := roundX_le hρ (XF.lt_le h)
    by_cases h2 : (roundX ρ a).lt (roundX ρ b) = true
    · rw [if_pos h2]
    · rw [if_neg h2]
      have hn := XF.ne_nan_of_le h1
      rw [XF.lt_iff hn.1 hn.2, not_not] at h2
      exact XF.le_antisymm h2 h1
  · rw [if_neg h, if_neg]
    intro h2
    have hn := XF.ne_nan_of_le (XF.lt_le h2)
    rw [XF.lt_iff (fun e => hn.1 (roundX_nan.2 e)) (fun e => hn.2 (roundX_nan.2 e)), not_not] at h
    rw [XF.not_lt_of_le (roundX_le hρ h)] at h2
    cases h2

theorem loop_rounds (hρ : ∀ x y : Rat, x ≤ y → ρ x ≤ ρ y) (w : Pattern → XF) (p : Pattern) (o : XF) (l : List Selector) : ∀ mn mx : XF, ∃ mn' mx',
    SelectorContribution.loop (fun q => .ok (w q)) none p o l mn mx = .ok (.inr (mn', mx')) ∧
    IDSDRounded.loop ρ (fun q => .ok (w q)) p o l (roundX ρ mn) (roundX ρ mx) = .ok (roundX ρ mn', roundX ρ mx') := by
  induction l with
  | nil => intro mn mx; exact ⟨mn, mx, rfl, rfl⟩
  | cons s l ih =>
    intro mn mx
    rw [SelectorContribution.loop, IDSDRounded.loop]
    simp only [Bool.false_eq_true, if_false, IDSDRounded.sub_eq]
    rw [← roundX_min hρ, ← roundX_max hρ]
    exact ih _ _

/-- C110: when rounding keeps the order, the calculated absolute contribution of a pattern is the rounded exact one (with the same odds ratios). -/
theorem C110_contribution (hρ : ∀ x y : Rat, x ≤ y → ρ x ≤ ρ y) (h0 : ρ 0 = 0) (h1 : ρ 1 = 1) (p : Pattern) :
    (computedGlmContrib ρ cfg df target p).1 = roundX ρ (glmContribOf cfg df target p).1 := by
  obtain ⟨r, hr⟩ := IDSDRounded.compute_ok (ρ := ρ) (fun q => glmOddsOf cfg df target q.sels) p
  obtain ⟨r', hr'⟩ := IDSD.compute_ok (fun q => glmOddsOf cfg df target q.sels) p
  unfold computedGlmContrib glmContribOf
  rw [hr, hr']
  simp only
  unfold IDSDRounded.compute at hr
  unfold SelectorContribution.compute at hr'
  by_cases l0 : p.len = 0
  · rw [if_pos l0] at hr hr'
    cases hr; cases hr'
    simp [roundX, h0]
  rw [if_neg l0] at hr hr'
  by_cases l1 : p.len = 1
  · rw [if_pos l1] at hr hr'
    cases hr; cases hr'
    simp [roundX, h1]
  rw [if_neg l1] at hr hr'
  obtain ⟨mn, mx, e1, e2⟩ := loop_rounds hρ (fun q => glmOddsOf cfg df target q.sels) p (glmOddsOf cfg df target p.sels) p.sels .inf .ninf
  have e2' : IDSDRounded.loop ρ (fun q => .ok (glmOddsOf cfg df target q.sels)) p (glmOddsOf cfg df target p.sels) p.sels .inf .ninf = .ok (roundX ρ mn, roundX ρ mx) := e2
  simp only [e1] at hr'
  simp only [e2'] at hr
  split at hr
  · cases hr
  · split at hr'
    · cases hr'
    · cases hr; cases hr'
      rfl

theorem glmOdds_congr {X Y : List Selector} (h : ∀ s, s ∈ X ↔ s ∈ Y) : glmOddsOf cfg df target X = glmOddsOf cfg df target Y := by
  have e : rowBits df X = rowBits df Y := by
    unfold rowBits Covers
    apply List.map_congr_left
    intro i _
    exact decide_eq_decide.2 (by simp only [h])
  unfold glmOddsOf
  rw [e]

/-- C110: the calculated absolute contribution of a pattern of at least two selectors is the least of the rounded differences between its odds ratio and those of the patterns without one
selector, and the contribution ratio is the rounded quotient of the greatest difference by the least one (when no difference is the undefined difference of two infinities); it is 1 and 1 for one
selector. -/
theorem C110_ratio (X : List Selector) (hX : ∀ s ∈ X, TextEq s) :
    ((Pattern.new X).len = 1 → computedGlmContrib ρ cfg df target (Pattern.new X) = (.fin 1, .fin 1)) ∧
    (2 ≤ (Pattern.new X).len →
      (∀ s ∈ X, (glmOddsOf cfg df target X).sub (glmOddsOf cfg df target (X.filter (fun t => t ≠ s))) ≠ .nan) →
      ∃ m, (∃ s ∈ X, (computedGlmContrib ρ cfg df target (Pattern.new X)).1 = roundX ρ ((glmOddsOf cfg df target X).sub (glmOddsOf cfg df target (X.filter (fun t => t ≠ s))))) ∧
        (∀ s ∈ X, Le (computedGlmContrib ρ cfg df target (Pattern.new X)).1 (roundX ρ ((glmOddsOf cfg df target X).sub (glmOddsOf cfg df target (X.filter (fun t => t ≠ s)))))) ∧
        (∃ s ∈ X, m = roundX ρ ((glmOddsOf cfg df target X).sub (glmOddsOf cfg df target (X.filter (fun t => t ≠ s))))) ∧
        (∀ s ∈ X, Le (roundX ρ ((glmOddsOf cfg df target X).sub (glmOddsOf cfg df target (X.filter (fun t => t ≠ s))))) m) ∧
        IsComputedRatio ρ m (computedGlmContrib ρ cfg df target (Pattern.new X)).1 (computedGlmContrib ρ cfg df target (Pattern.new X)).2) := by
  constructor
  · intro hl
    unfold computedGlmContrib IDSDRounded.compute
    rw [if_neg (by omega), if_pos hl]
  intro hlen hnan
  obtain ⟨h1, h2⟩ := new_text hX
  generalize ho : glmOddsOf cfg df target X = o at hnan ⊢
  have ho' : glmOddsOf cfg df target (Pattern.new X).sels = o := by rw [glmOdds_congr h2, ho]
  generalize hwd : (fun s => glmOddsOf cfg df target (X.filter (fun t => t ≠ s))) = w
  have hwe : ∀ s, glmOddsOf cfg df target (X.filter (fun t => t ≠ s)) = w s := fun s => by rw [← hwd]
  simp only [hwe] at hnan ⊢
  have hw' : ∀ s ∈ (Pattern.new X).sels, (fun q : Pattern => (Except.ok (glmOddsOf cfg df target q.sels) : Except PyErr XF)) ((Pattern.new X).copy.remove s) = .ok (w s) := by
    intro s hs
    rw [remove_new hX ((h2 s).1 hs), ← hwe s]
    have hf : ∀ t ∈ X.filter (fun t => t ≠ s), TextEq t := fun t ht => hX t (List.mem_of_mem_filter ht)
    simp only [glmOdds_congr (new_text hf).2]
  have hfold := fold_minmax (fun s => roundX ρ (o.sub (w s))) (Pattern.new X).sels .inf .ninf (by simp) (by simp)
  simp only at hfold
  obtain ⟨b1, b2, _, _, b5, b6, b7⟩ := hfold
  have hne : ∃ s, s ∈ (Pattern.new X).sels := by
    have : 0 < (Pattern.new X).sels.length := by simp only [Pattern.len] at hlen; omega
    exact ⟨_, List.getElem_mem this⟩
  obtain ⟨s0, hs0⟩ := hne
  have hn : ∀ s ∈ (Pattern.new X).sels, roundX ρ (o.sub (w s)) ≠ .nan := by
    intro s hs
    have := hnan s ((h2 s).1 hs)
    cases h : o.sub (w s) <;> simp_all [roundX]
  generalize hmn : (Pattern.new X).sels.foldl (fun (a : XF) s => a.pyMin (roundX ρ (o.sub (w s)))) XF.inf = mn at b1 b5 b6
  generalize hmx : (Pattern.new X).sels.foldl (fun (a : XF) s => a.pyMax (roundX ρ (o.sub (w s)))) XF.ninf = mx at b2 b5 b7
  obtain ⟨r, hr, hr'⟩ := IDSDRounded.ratio_eq (ρ := ρ) b1 b2 (XF.le_trans (b5 s0 hs0 (hn s0 hs0)).1 (b5 s0 hs0 (hn s0 hs0)).2)
  have hc : computedGlmContrib ρ cfg df target (Pattern.new X) = (mn, r) := by
    unfold computedGlmContrib IDSDRounded.compute
    rw [if_neg (by omega), if_neg (by omega)]
    simp only [ho']
    rw [IDSDRounded.loop_eq _ _ o w _ hw', hmn, hmx]
    simp only [hr]
  rw [hc]
  refine ⟨mx, ?_, ?_, ?_, ?_, hr'⟩
  · rcases b6 with h | ⟨s, hs, _, h⟩
    · refine ⟨s0, (h2 _).1 hs0, ?_⟩
      have := (b5 s0 hs0 (hn s0 hs0)).1
      simp only
      rw [h] at this ⊢
      exact XF.le_antisymm this (XF.le_inf (hn s0 hs0))
    · exact ⟨s, (h2 _).1 hs, h⟩
  · intro s hs
    have hs := (h2 s).2 hs
    exact (XF.le_iff _ _).1 (b5 s hs (hn s hs)).1
  · rcases b7 with h | ⟨s, hs, _, h⟩
    · refine ⟨s0, (h2 _).1 hs0, ?_⟩
      have := (b5 s0 hs0 (hn s0 hs0)).2
      rw [h] at this ⊢
      exact XF.le_antisymm (XF.ninf_le (hn s0 hs0)) this
    · exact ⟨s, (h2 _).1 hs, h⟩
  · intro s hs
    have hs := (h2 s).2 hs
    exact (XF.le_iff _ _).1 (b5 s hs (hn s hs)).2

/-- C110: for thresholds that are floats, a criterion that holds of the exact values holds of the calculated ones; the contribution ratio is excepted. -/
theorem C110_criteria (hρ : ∀ x y : Rat, x ≤ y → ρ x ≤ ρ y) (h0 : ρ 0 = 0) (h1 : ρ 1 = 1) (hc : ρ cfg.covT = cfg.covT) (ha : ρ cfg.absT = cfg.absT) (hp : ρ cfg.pT = cfg.pT)
    (n : Nat) (p : Pattern) (i : Nat) (hi : i ≠ 4) (h : (qfCriteria cfg (qfEntryOf cfg df target n p).cred)[i]? = some true) :
    (qfCriteria cfg (computedQFEntry ρ cfg df target n p).cred)[i]? = some true := by
  unfold qfCriteria qfEntryOf at h
  unfold qfCriteria computedQFEntry
  simp only at h ⊢
  match i with
  | 0 =>
    simp only [List.getElem?_cons_zero, Option.some.injEq] at h ⊢
    have := roundX_le hρ h
    simpa only [roundX, hc] using this
  | 1 => simpa using h
  | 2 => simpa using h
  | 3 =>
    simp only [List.getElem?_cons_zero, List.getElem?_cons_succ, Option.some.injEq] at h ⊢
    have := roundX_le hρ h
    rw [C110_contribution hρ h0 h1]
    simpa only [roundX, ha] using this
  | 4 => exact absurd rfl hi
  | 5 =>
    simp only [List.getElem?_cons_zero, List.getElem?_cons_succ, Option.some.injEq] at h ⊢
    have := roundX_le hρ h
    simpa only [roundX, hp] using this
  | i + 6 => simp at h

/-- C110: so, for thresholds that are floats, the calculated rank of a pattern is at least its exact rank if this is at most 4, and at least 3 if this is 5 or 6. -/
theorem C110_rank (hρ : ∀ x y : Rat, x ≤ y → ρ x ≤ ρ y) (h0 : ρ 0 = 0) (h1 : ρ 1 = 1) (hc : ρ cfg.covT = cfg.covT) (ha : ρ cfg.absT = cfg.absT) (hp : ρ cfg.pT = cfg.pT)
    (n : Nat) (p : Pattern) :
    (qfRank cfg (qfEntryOf cfg df target n p).cred ≤ 4 → qfRank cfg (qfEntryOf cfg df target n p).cred ≤ qfRank cfg (computedQFEntry ρ cfg df target n p).cred) ∧
    (5 ≤ qfRank cfg (qfEntryOf cfg df target n p).cred → 3 ≤ qfRank cfg (computedQFEntry ρ cfg df target n p).cred) := by
  have key := C110_criteria (cfg := cfg) (df := df) (target := target) hρ h0 h1 hc ha hp n p
  rw [← rank_eq, ← rank_eq]
  obtain ⟨s1, _⟩ := rank_spec (criteria cfg (qfEntryOf cfg df target n p).cred)
  obtain ⟨_, s2⟩ := rank_spec (criteria cfg (computedQFEntry ρ cfg df target n p).cred)
  have e : ∀ c, criteria cfg c = qfCriteria cfg c := fun c => rfl
  simp only [e] at s1 s2 ⊢
  generalize rank (qfCriteria cfg (qfEntryOf cfg df target n p).cred) = r at s1 ⊢
  constructor
  · intro hr
    rcases s1 with rfl | ⟨r1, r2, r3⟩
    · exact Nat.zero_le _
    · exact s2 r ⟨r1, key (r - 1) (by omega) r2, fun i hi h3 => key i (by omega) (r3 i hi h3)⟩
  · intro hr
    rcases s1 with rfl | ⟨r1, r2, r3⟩
    · omega
    · refine s2 3 ⟨by omega, key 2 (by omega) (r3 2 (by omega) (by omega)), fun i hi h3 => key i (by omega) (r3 i (by omega) h3)⟩

/-- C110: odds ratios are floats; so a refinement whose odds ratio exceeds the calculated sum exceeds the exact one. -/
theorem C110_exceeds (hρ : ∀ x y : Rat, x ≤ y → ρ x ≤ ρ y) {a b : QFEntry} (hb : roundX ρ b.cred.odds = b.cred.odds) (h : ExceedsRounded ρ cfg b a) : Exceeds cfg b a := by
  unfold Exceeds
  unfold ExceedsRounded at h
  by_contra hc
  have hc : b.cred.odds.le (a.cred.odds.addFin cfg.delta) = true := by simpa using hc
  have := roundX_le hρ hc
  rw [hb, h] at this
  cases this

end

/-- C110: so, with floats, the odds ratio of a reported refinement exceeds that of a reported pattern by more than `delta`, exactly. -/
theorem C110_delta {cfg : QFConfig} {df : Frame} {target : Str × Str} (hf : NominalFrame df target) (hs : SafeTexts df target) (hnum : 1 ≤ cfg.num)
    (hp : ∀ X, Describes target X → OccursIn df X → glmPOf cfg df target X ≠ .nan) (ho : ∀ X q, Describes target X → OccursIn df X → glmOddsOf cfg df target X = .fin q → IsFloat q) {st st' : QFState}
    (h : QFinderRounded.fit Float64.fl cfg st df target = .ok st') : ∀ a ∈ st'.top, ∀ b ∈ st'.top, Generalises a b → Exceeds cfg b a := by
  obtain ⟨st1, h1, _, _, h4, _, h6, _⟩ := C110_selection (ρ := Float64.fl) hf hs hnum hp st
  rw [h] at h1
  cases h1
  obtain ⟨_, hfacts⟩ := QFinderRounded.top_facts (ρ := Float64.fl) hf hs hnum hp h
  obtain ⟨hcand, _, _⟩ := QFinderRounded.fit_cands (ρ := Float64.fl) hf hs h
  intro a ha b hb hg
  refine C110_exceeds (fun x y hxy => Float64.fl_mono hxy) ?_ (h6 a ha b hb hg)
  obtain ⟨_, f2, f3, f4⟩ := hfacts b.pat (List.mem_map_of_mem hb)
  have hd := inCols_describes ⟨f2, f3⟩
  rw [hcand] at f4
  have hoc := (mem_occurring.1 f4).2
  rw [(h4 b hb).2]
  show roundX Float64.fl (glmOddsOf cfg df target b.pat.sels) = glmOddsOf cfg df target b.pat.sels
  cases hq : glmOddsOf cfg df target b.pat.sels with
  | fin q => simp only [roundX, Float64.fl_float (ho _ q hd hoc hq)]
  | _ => rfl

/-! ## differences -/

/-- C110: an odds ratio that exceeds another by more than `delta` may not exceed the calculated sum: `1 + 3/4 * 2^-52` is calculated as `1 + 2^-52`. -/
theorem C110_delta_fails : ∃ (cfg : QFConfig) (a b : QFEntry), Float64.fl cfg.delta = cfg.delta ∧ roundX Float64.fl a.cred.odds = a.cred.odds ∧ roundX Float64.fl b.cred.odds = b.cred.odds ∧
    Exceeds cfg b a ∧ ¬ ExceedsRounded Float64.fl cfg b a := by
  refine ⟨⟨10, -1, -1, 0, 0, 1, 0, 5, 3 / 2 ^ 54, fun _ _ => .fin 1, fun _ _ => .fin 1, .first⟩,
    ⟨⟨[]⟩, .fin 1, .fin 1, .fin 1, .fin 1, .fin 1, .fin 1⟩, ⟨⟨[]⟩, .fin 1, .fin (1 + 1 / 2 ^ 52), .fin 1, .fin 1, .fin 1, .fin 1⟩, ?_, ?_, ?_, ?_, ?_⟩
  · decide +kernel
  · decide +kernel
  · decide +kernel
  · unfold Exceeds; decide +kernel
  · unfold ExceedsRounded; decide +kernel

/-- C110: the coverage criterion may hold of the calculated coverage only: with the float nearest to 0.8 as threshold, 4 of 5 rows. -/
theorem C110_coverage_fails : ∃ t : Rat, Float64.fl t = t ∧ (XF.fin t).le (.fin ((4 : Rat) / 5)) = false ∧ (XF.fin t).le (.fin (Float64.fl ((4 : Rat) / 5))) = true := by
  refine ⟨Float64.fl (4 / 5), Float64.fl_fl _, ?_, ?_⟩ <;> decide +kernel

open QFinderWitness in
/-- the hypotheses are met -/
example : ∃ st', QFinderRounded.fit Float64.fl cfgA .init dfA tA = .ok st' ∧ (st'.top.length : Int) ≤ 10 ∧ (st'.top.map (·.pat)).Nodup := by
  obtain ⟨st', h1, h2, h3, _⟩ := C110_selection (ρ := Float64.fl) nominalA safeA (cfg := cfgA) (by decide) pvalA .init
  exact ⟨st', h1, h2, h3⟩

open QFinderWitness in
example : ∃ st', QFinderRounded.fit Float64.fl cfgB .init dfB tA = .ok st' ∧ ∀ a ∈ st'.top, ∀ b ∈ st'.top, Generalises a b → Exceeds cfgB b a := by
  obtain ⟨st', h1, _⟩ := C110_selection (ρ := Float64.fl) nominalB safeB (cfg := cfgB) (by decide) pvalB .init
  refine ⟨st', h1, C110_delta nominalB safeB (by decide) pvalB ?_ h1⟩
  intro X q _ _ hq
  unfold glmOddsOf cfgB at hq
  simp only at hq
  split at hq <;> cases hq
  exacts [⟨10, 0, by norm_num, by norm_num⟩, ⟨1, 0, by norm_num, by norm_num⟩]

open QFinderWitness in
/-- with floats: each pair replaces the patterns of one selector -/
example : shown (QFinderRounded.fit Float64.fl cfgA .init dfA tA) = [[sx, sy], [sx, sz], [sw, sy], [sw, sz]] := by decide +kernel

end Verif
