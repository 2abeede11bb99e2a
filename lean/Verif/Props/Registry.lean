import Verif.Model.Registry
import Verif.Model.ListFile
import Verif.Props.Quality
import Verif.Props.QualityReal
import Verif.Props.ListMiner
/-! C67: which optimistic estimates the constructors accept. C68: the other checks of values in constructors. -/
namespace Verif
open Spec

/-- **C67.** Different quality measures have different names. -/
theorem C67_names (a b : QM) (h : a.name = b.name) : a = b := by
  cases a with
  | rat x =>
    cases b with
    | rat y => cases x <;> cases y <;> first | rfl | (revert h; decide)
    | binomialTest => cases x <;> (revert h; decide)
    | binomialTestOE1 => cases x <;> (revert h; decide)
  | binomialTest =>
    cases b with
    | rat y => cases y <;> (revert h; decide)
    | binomialTest => rfl
    | binomialTestOE1 => revert h; decide
  | binomialTestOE1 =>
    cases b with
    | rat y => cases y <;> (revert h; decide)
    | binomialTest => revert h; decide
    | binomialTestOE1 => rfl

/-- the pairs (measure, estimate) that can be used together -/
def UsablePair (quality estimate : QM) : Prop :=
  (quality = .rat .wracc ∧ estimate = .rat .wraccOE1) ∨ (quality = .rat .piatetskyShapiro ∧ (estimate = .rat .psOE1 ∨ estimate = .rat .psOE2)) ∨
  (quality = .binomialTest ∧ estimate = .binomialTestOE1)

theorem checkEstimate_eq (q o : QM) : checkEstimate q o = if o.estimateOf.lookup q.name = none then .error .valueError else .ok () := by
  unfold checkEstimate Dict.has
  cases h : o.estimateOf.lookup q.name <;> simp

theorem lookup_single (k k' : Str) (v : QM) : (List.lookup k [(k', v)] = none) ↔ k ≠ k' := by
  rw [List.lookup_cons]
  by_cases h : k = k'
  · subst h; simp
  · simp [h, beq_false_of_ne h]

theorem check_iff (q o : QM) : checkEstimate q o = .ok () ↔ UsablePair q o := by
  have key : ∀ m, (q.name = QM.name m) ↔ q = m := fun m => ⟨C67_names q m, fun h => by rw [h]⟩
  have hone : ∀ m : QM, o.estimateOf = [(m.name, m)] → (checkEstimate q o = .ok () ↔ q = m) := by
    intro m hm
    rw [checkEstimate_eq, hm]
    have := lookup_single q.name m.name m
    by_cases h : q = m
    · rw [if_neg (by rw [this]; simp [h])]; simp [h]
    · rw [if_pos (by rw [this, Ne, key]; exact h)]; simp [h]
  have hnone : o.estimateOf = [] → ¬ checkEstimate q o = .ok () := by
    intro hm
    rw [checkEstimate_eq, hm]
    simp
  unfold UsablePair
  cases o with
  | rat x =>
    cases x
    case wraccOE1 => rw [hone (.rat .wracc) rfl]; simp
    case psOE1 => rw [hone (.rat .piatetskyShapiro) rfl]; simp
    case psOE2 => rw [hone (.rat .piatetskyShapiro) rfl]; simp
    all_goals
      have h := hnone rfl
      simp [h]
  | binomialTest => have h := hnone rfl; simp [h]
  | binomialTestOE1 => rw [hone .binomialTest rfl]; simp

/-- **C67.** The constructors of BSD (CBSD, CPBSD), SDMapStar and VLSD accept a measure and an estimate exactly when they are one of the four pairs and the other values are
valid: a path if a file is to be written, consistent thresholds, known names of the sort criteria and of the implementation. Otherwise they raise `ValueError`, or
`InconsistentMethodParametersError` for the thresholds. -/
theorem C67_accepted (q o : QM) (write : Bool) (path : Option Str) (minTp minFp minN : Option Int) (s1 s2 impl : Str) :
    let pathOk := write = true → path ≠ none
    (bsdChecks q o write path = .ok () ↔ UsablePair q o ∧ pathOk) ∧
    (sdmapStarChecks q o minTp minFp minN write path = .ok () ↔ UsablePair q o ∧ pathOk ∧
      ((minTp.isSome ∧ minFp.isSome ∧ minN.isNone) ∨ (minTp.isNone ∧ minFp.isNone ∧ minN.isSome))) ∧
    (vlsdChecks q o s1 s2 impl write path = .ok () ↔ UsablePair q o ∧ pathOk ∧ s1 ∈ [c!"quality-ascending", c!"quality-descending", c!"no-order"] ∧
      s2 ∈ [c!"quality-ascending", c!"quality-descending", c!"no-order"] ∧ (impl = c!"bitsets" ∨ impl = c!"sets")) ∧
    (bsdChecks q o write path ≠ .ok () → bsdChecks q o write path = .error .valueError) ∧
    (vlsdChecks q o s1 s2 impl write path ≠ .ok () → vlsdChecks q o s1 s2 impl write path = .error .valueError) ∧
    (¬ (UsablePair q o ∧ pathOk) → sdmapStarChecks q o minTp minFp minN write path = .error .valueError) ∧
    (UsablePair q o ∧ pathOk → sdmapStarChecks q o minTp minFp minN write path ≠ .ok () →
      sdmapStarChecks q o minTp minFp minN write path = .error .inconsistentParameters) := by
  intro pathOk
  have hp : (checkPath write path = .ok () ∧ pathOk) ∨ (checkPath write path = .error .valueError ∧ ¬ pathOk) := by
    cases write <;> cases path <;> simp [checkPath, pathOk]
  have he : (checkEstimate q o = .ok () ∧ UsablePair q o) ∨ (checkEstimate q o = .error .valueError ∧ ¬ UsablePair q o) := by
    by_cases h : UsablePair q o
    · exact .inl ⟨(check_iff q o).2 h, h⟩
    · right
      refine ⟨?_, h⟩
      have h2 := mt (check_iff q o).1 h
      unfold checkEstimate at h2 ⊢
      by_cases hc : (!o.estimateOf.has q.name) = true
      · rw [if_pos hc]
      · rw [if_neg hc] at h2; exact absurd rfl h2
  have ht : (∃ t, Thresholds.mk? minTp minFp minN = .ok t ∧ ((minTp.isSome ∧ minFp.isSome ∧ minN.isNone) ∨ (minTp.isNone ∧ minFp.isNone ∧ minN.isSome))) ∨
      (Thresholds.mk? minTp minFp minN = .error .inconsistentParameters ∧
        ¬ ((minTp.isSome ∧ minFp.isSome ∧ minN.isNone) ∨ (minTp.isNone ∧ minFp.isNone ∧ minN.isSome))) := by
    cases minTp <;> cases minFp <;> cases minN <;> simp [Thresholds.mk?]
  have hs : ∀ s, sortCriteria.contains s = true ↔ s ∈ [c!"quality-ascending", c!"quality-descending", c!"no-order"] := by
    intro s; rw [List.contains_iff_mem]; rfl
  have hi : listImplementations.contains impl = true ↔ (impl = c!"bitsets" ∨ impl = c!"sets") := by
    rw [List.contains_iff_mem]; simp [listImplementations]
  rw [← hs s1, ← hs s2, ← hi]
  generalize ((minTp.isSome ∧ minFp.isSome ∧ minN.isNone) ∨ (minTp.isNone ∧ minFp.isNone ∧ minN.isSome)) = T at ht ⊢
  generalize pathOk = Pk at hp ⊢
  clear hs hi
  unfold bsdChecks sdmapStarChecks vlsdChecks
  generalize sortCriteria.contains s1 = a
  generalize sortCriteria.contains s2 = b
  generalize listImplementations.contains impl = c
  rcases hp with ⟨p1, p2⟩ | ⟨p1, p2⟩ <;> rcases he with ⟨e1, e2⟩ | ⟨e1, e2⟩ <;> rw [p1, e1]
  all_goals
    rcases ht with ⟨t, t1, t2⟩ | ⟨t1, t2⟩
    all_goals
      rw [t1]
      refine ⟨?_, ?_, ?_, ?_, ?_, ?_, ?_⟩
      all_goals first
        | (simp [p2, e2, t2, bind, Except.bind, pure, Except.pure]; done)
        | (cases a <;> cases b <;> cases c <;> simp [p2, e2, t2, bind, Except.bind, pure, Except.pure])

/-- **C67.** For every accepted pair with rational values the estimate of a subgroup is an upper bound of the measure of all its (non-empty) refinements, whatever the data: this is
what the pruning of BSD, SDMapStar and VLSD relies on. -/
theorem C67_sound (m e : Measure) (h : checkEstimate (.rat m) (.rat e) = .ok ()) (tp fp TP FP tp' fp' : Nat) (h1 : tp ≤ TP) (h2 : fp ≤ FP) (h3 : tp' ≤ tp) (h4 : fp' ≤ fp)
    (h5 : 0 < tp' + fp') :
    ∃ q o, m.compute (counts tp' fp' TP FP) = .ok q ∧ e.compute (counts tp fp TP FP) = .ok o ∧ q ≤ o := by
  obtain ⟨⟨q, o1, o2, a1, a2, a3, a4, a5⟩, ⟨q', o', b1, b2, b3⟩⟩ := C16_bound tp fp TP FP tp' fp' h1 h2 h3 h4 h5
  rcases (check_iff _ _).1 h with ⟨e1, e2⟩ | ⟨e1, e2 | e2⟩ | ⟨e1, -⟩
  · cases e1; cases e2; exact ⟨q', o', b1, b2, b3⟩
  · cases e1; cases e2; exact ⟨q, o1, a1, a2, a4.trans a5⟩
  · cases e1; cases e2; exact ⟨q, o2, a1, a3, a4⟩
  · cases e1

/-- **C67.** The fourth accepted pair is an exception: the declared estimate of the binomial test is not an upper bound. -/
theorem C67_exception : checkEstimate .binomialTest .binomialTestOE1 = .ok () ∧
    ∃ tp fp tp' fp' TP FP : Nat, tp' ≤ tp ∧ fp' ≤ fp ∧ 0 < tp' + fp' ∧ tp ≤ TP ∧ fp ≤ FP ∧
    ∃ o q, Quality.binomialTestOE1 (counts tp fp TP FP) = .ok o ∧ Quality.binomialTest (counts tp' fp' TP FP) = .ok q ∧ o < q :=
  ⟨(check_iff _ _).2 (.inr (.inr ⟨rfl, rfl⟩)), C17_fails⟩

/-- an accepted call and refused ones -/
example : vlsdChecks (.rat .wracc) (.rat .wraccOE1) c!"no-order" c!"quality-descending" c!"sets" true (some c!"out.txt") = .ok () ∧
    bsdChecks (.rat .wracc) (.rat .psOE1) false none = .error .valueError ∧
    bsdChecks (.rat .wracc) (.rat .wracc) false none = .error .valueError ∧
    bsdChecks (.rat .wracc) (.rat .wraccOE1) true none = .error .valueError ∧
    sdmapStarChecks (.rat .piatetskyShapiro) (.rat .psOE2) (some 3) none none false none = .error .inconsistentParameters := by decide +kernel

/-! ### C68 -/

/-- **C68.** The subgroup-list algorithms accept a number of lists and a maximum size exactly when they are positive, and `beta` exactly when it is between 0 and 1; the overlap
limits of DSLM are not checked. Refused values raise `ValueError`. The accepted values are used unchanged. -/
theorem C68_lists (maxSl size : Int) (beta maxPos maxNeg : Rat) :
    gmslNew maxSl beta = (if 0 < maxSl ∧ 0 ≤ beta ∧ beta ≤ 1 then .ok (maxSl, beta) else .error .valueError) ∧
    psldNew maxSl size beta = (if 0 < maxSl ∧ 0 < size ∧ 0 ≤ beta ∧ beta ≤ 1 then .ok (maxSl, size, beta) else .error .valueError) ∧
    dslmNew maxSl size beta maxPos maxNeg =
      (if 0 < maxSl ∧ 0 < size ∧ 0 ≤ beta ∧ beta ≤ 1 then .ok (maxSl, size, beta, maxPos, maxNeg) else .error .valueError) := by
  have g : gmslNew maxSl beta = (if 0 < maxSl ∧ 0 ≤ beta ∧ beta ≤ 1 then .ok (maxSl, beta) else .error .valueError) := by
    unfold gmslNew
    by_cases h1 : maxSl ≤ 0
    · rw [if_pos h1, if_neg (by omega)]
    · rw [if_neg h1]
      by_cases h2 : beta < 0 ∨ beta > 1
      · rw [if_pos h2, if_neg]
        rintro ⟨-, h3, h4⟩
        rcases h2 with h2 | h2
        · exact absurd h2 (not_lt.2 h3)
        · exact absurd h2 (not_lt.2 h4)
      · rw [if_neg h2, if_pos]
        push Not at h2
        exact ⟨by omega, h2⟩
  have p : psldNew maxSl size beta = (if 0 < maxSl ∧ 0 < size ∧ 0 ≤ beta ∧ beta ≤ 1 then .ok (maxSl, size, beta) else .error .valueError) := by
    unfold psldNew
    rw [g]
    by_cases h1 : size ≤ 0
    · rw [if_pos h1, if_neg (by omega)]
    · rw [if_neg h1]
      by_cases h2 : 0 < maxSl ∧ 0 ≤ beta ∧ beta ≤ 1
      · rw [if_pos h2, if_pos ⟨h2.1, by omega, h2.2⟩]
      · rw [if_neg h2, if_neg (fun h => h2 ⟨h.1, h.2.2⟩)]
  refine ⟨g, p, ?_⟩
  unfold dslmNew
  rw [p]
  by_cases h2 : 0 < maxSl ∧ 0 < size ∧ 0 ≤ beta ∧ beta ≤ 1
  · rw [if_pos h2, if_pos h2]
  · rw [if_neg h2, if_neg h2]

/-- **C68.** With a negative overlap limit (which is accepted) DSLM returns only empty lists: as many as asked for, without an error. -/
theorem C68_negative_limit {df : Frame} {target : Str × Str} (hf : NominalFrame df target) (beta : ℝ) (size : Nat) (maxPos maxNeg : ℝ) (hneg : maxPos < 0 ∨ maxNeg < 0)
    (maxSl : Nat) (cs : List Cand) (res : List SubgroupList) (h : listFit (dslm df beta size maxPos maxNeg) maxSl df target (.ok cs) = .ok res) :
    res.length = maxSl ∧ ∀ l ∈ res, entriesOf l = [] := by
  refine ⟨?_, ?_⟩
  · obtain ⟨P, N, -, hr⟩ := C41_dslm hf beta size maxPos maxNeg maxSl cs res h
    exact hr.count
  intro l hl
  cases he : entriesOf l with
  | nil => rfl
  | cons c rest =>
    obtain ⟨h1, h2⟩ := C42_limit hf beta size maxPos maxNeg maxSl cs res h l hl 0 c (by rw [he]; rfl)
    have n1 : (0 : Rat) ≤ posOverlap ((entriesOf l).take 0) c := by
      unfold posOverlap overlap; split <;> positivity
    have n2 : (0 : Rat) ≤ negOverlap ((entriesOf l).take 0) c := by
      unfold negOverlap overlap; split <;> positivity
    have n1' : (0 : ℝ) ≤ (posOverlap ((entriesOf l).take 0) c : ℝ) := by exact_mod_cast n1
    have n2' : (0 : ℝ) ≤ (negOverlap ((entriesOf l).take 0) c : ℝ) := by exact_mod_cast n2
    rcases hneg with h | h
    · exact absurd (n1'.trans h1) (not_le.2 h)
    · exact absurd (n2'.trans h2) (not_le.2 h)

/-- **C68.** IDSD accepts its parameters exactly when the number of subgroups is positive, the number of categories is positive or −1, and the thresholds are in their ranges; QFinder
does not check the number of subgroups and accepts 0 categories. -/
theorem C68_credible (num cats maxC : Int) (covT orT pT absT ratioT delta : Rat) (pv : Nat → Nat → Nat → Nat → XF) (glmOr glmP : Bits → Bits → XF) :
    let thresholds := (0 ≤ covT ∧ covT ≤ 1) ∧ 0 ≤ orT ∧ (0 ≤ pT ∧ pT ≤ 1) ∧ 0 ≤ absT ∧ 0 ≤ ratioT
    ((∃ c, IDSDConfig.new num cats maxC covT orT pT absT ratioT pv ties = .ok c) ↔ 0 < num ∧ (cats = -1 ∨ 0 < cats) ∧ thresholds) ∧
    (∀ c, IDSDConfig.new num cats maxC covT orT pT absT ratioT pv ties = .ok c →
      (c.num : Int) = num ∧ c.cats = cats ∧ c.maxC = maxC ∧ c.covT = covT ∧ c.orT = orT ∧ c.pT = pT ∧ c.absT = absT ∧ c.ratioT = ratioT) ∧
    (∀ e, IDSDConfig.new num cats maxC covT orT pT absT ratioT pv ties = .error e → e = .valueError) ∧
    ((∃ c, QFConfig.new num cats maxC covT orT pT absT ratioT delta glmOr glmP ties = .ok c) ↔ -1 ≤ cats ∧ thresholds) ∧
    (∀ c, QFConfig.new num cats maxC covT orT pT absT ratioT delta glmOr glmP ties = .ok c →
      c.num = num ∧ c.cats = cats ∧ c.maxC = maxC ∧ c.covT = covT ∧ c.orT = orT ∧ c.pT = pT ∧ c.absT = absT ∧ c.ratioT = ratioT ∧ c.delta = delta) ∧
    (∀ e, QFConfig.new num cats maxC covT orT pT absT ratioT delta glmOr glmP ties = .error e → e = .valueError) := by
  intro thresholds
  have r : ∀ a : Rat, ¬ (a < 0) ↔ 0 ≤ a := fun a => not_lt
  have r2 : ∀ a : Rat, ¬ (a < 0 ∨ a > 1) ↔ (0 ≤ a ∧ a ≤ 1) := fun a => by push Not; rfl
  have hi : ∀ (c : IDSDConfig), IDSDConfig.new num cats maxC covT orT pT absT ratioT pv ties = .ok c →
      (0 < num ∧ (cats = -1 ∨ 0 < cats) ∧ thresholds) ∧ c = ⟨num.toNat, cats, maxC, covT, orT, pT, absT, ratioT, pv, ties⟩ := by
    intro c h
    unfold IDSDConfig.new at h
    by_cases h1 : num < 1; · rw [if_pos h1] at h; cases h
    rw [if_neg h1] at h
    by_cases h2 : cats < -1 ∨ cats = 0; · rw [if_pos h2] at h; cases h
    rw [if_neg h2] at h
    by_cases h3 : covT < 0 ∨ covT > 1; · rw [if_pos h3] at h; cases h
    rw [if_neg h3] at h
    by_cases h4 : orT < 0; · rw [if_pos h4] at h; cases h
    rw [if_neg h4] at h
    by_cases h5 : pT < 0 ∨ pT > 1; · rw [if_pos h5] at h; cases h
    rw [if_neg h5] at h
    by_cases h6 : absT < 0; · rw [if_pos h6] at h; cases h
    rw [if_neg h6] at h
    by_cases h7 : ratioT < 0; · rw [if_pos h7] at h; cases h
    rw [if_neg h7] at h
    simp only [Except.ok.injEq] at h
    exact ⟨⟨by omega, by omega, (r2 _).1 h3, (r _).1 h4, (r2 _).1 h5, (r _).1 h6, (r _).1 h7⟩, h.symm⟩
  have hq : ∀ (c : QFConfig), QFConfig.new num cats maxC covT orT pT absT ratioT delta glmOr glmP ties = .ok c →
      (-1 ≤ cats ∧ thresholds) ∧ c = ⟨num, cats, maxC, covT, orT, pT, absT, ratioT, delta, glmOr, glmP, ties⟩ := by
    intro c h
    unfold QFConfig.new at h
    by_cases h2 : cats < -1; · rw [if_pos h2] at h; cases h
    rw [if_neg h2] at h
    by_cases h3 : covT < 0 ∨ covT > 1; · rw [if_pos h3] at h; cases h
    rw [if_neg h3] at h
    by_cases h4 : orT < 0; · rw [if_pos h4] at h; cases h
    rw [if_neg h4] at h
    by_cases h5 : pT < 0 ∨ pT > 1; · rw [if_pos h5] at h; cases h
    rw [if_neg h5] at h
    by_cases h6 : absT < 0; · rw [if_pos h6] at h; cases h
    rw [if_neg h6] at h
    by_cases h7 : ratioT < 0; · rw [if_pos h7] at h; cases h
    rw [if_neg h7] at h
    simp only [Except.ok.injEq] at h
    exact ⟨⟨by omega, (r2 _).1 h3, (r _).1 h4, (r2 _).1 h5, (r _).1 h6, (r _).1 h7⟩, h.symm⟩
  refine ⟨⟨fun ⟨c, h⟩ => (hi c h).1, ?_⟩, ?_, ?_, ⟨fun ⟨c, h⟩ => (hq c h).1, ?_⟩, ?_, ?_⟩
  · rintro ⟨h1, h2, h3, h4, h5, h6, h7⟩
    refine ⟨⟨num.toNat, cats, maxC, covT, orT, pT, absT, ratioT, pv, ties⟩, ?_⟩
    unfold IDSDConfig.new
    rw [if_neg (by omega), if_neg (by omega), if_neg ((r2 _).2 h3), if_neg ((r _).2 h4), if_neg ((r2 _).2 h5), if_neg ((r _).2 h6), if_neg ((r _).2 h7)]
  · intro c h
    obtain ⟨⟨h1, -⟩, rfl⟩ := hi c h
    exact ⟨Int.toNat_of_nonneg (by omega), rfl, rfl, rfl, rfl, rfl, rfl, rfl⟩
  · intro e h
    unfold IDSDConfig.new at h
    repeat' split at h
    all_goals first | (cases h; rfl) | cases h
  · rintro ⟨h2, h3, h4, h5, h6, h7⟩
    refine ⟨⟨num, cats, maxC, covT, orT, pT, absT, ratioT, delta, glmOr, glmP, ties⟩, ?_⟩
    unfold QFConfig.new
    rw [if_neg (by omega), if_neg ((r2 _).2 h3), if_neg ((r _).2 h4), if_neg ((r2 _).2 h5), if_neg ((r _).2 h6), if_neg ((r _).2 h7)]
  · intro c h
    obtain ⟨-, rfl⟩ := hq c h
    exact ⟨rfl, rfl, rfl, rfl, rfl, rfl, rfl, rfl, rfl⟩
  · intro e h
    unfold QFConfig.new at h
    repeat' split at h
    all_goals first | (cases h; rfl) | cases h

example : psldNew 3 4 (1 / 2) = .ok (3, 4, 1 / 2) ∧ psldNew 3 0 (1 / 2) = .error .valueError ∧ gmslNew 1 (3 / 2) = .error .valueError ∧
    dslmNew 1 1 0 (-1) 5 = .ok (1, 1, 0, -1, 5) := by decide +kernel

end Verif
