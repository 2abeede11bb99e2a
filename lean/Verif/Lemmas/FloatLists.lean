import Verif.Spec.FloatLists
import Verif.Lemmas.ListFit
/-! The evaluation over any arithmetic implements the rules with the computed gains. -/
namespace Verif
namespace FloatLists
open Spec
variable {F : Type} {A : Arith F}

theorem leftRows_eq {D dflt : Bits} {pos orig : List Bits} (h : ClassInv D dflt pos orig) :
    dflt.ones = leftRows D orig := by
  unfold leftRows
  apply Bits.ones_eq_length
  · exact List.nodup_range.filter _
  · intro i
    rw [List.mem_filter, List.mem_range]
    simp only [Bool.and_eq_true, h.hdef i, List.all_eq_true, Bool.not_eq_true']
    unfold Default
    constructor
    · rintro ⟨-, h2, h3⟩
      refine ⟨h2, fun j hj => h3 _ ?_⟩
      rw [List.getD_eq_getElem?_getD, List.getElem?_eq_getElem hj]
      exact List.getElem_mem hj
    · rintro ⟨h2, h3⟩
      refine ⟨?_, h2, fun e he => ?_⟩
      · by_contra hc
        rw [Bits.get_ge _ _ (by omega)] at h2; cases h2
      · obtain ⟨j, hj, rfl⟩ := List.getElem_of_mem he
        have := h3 j hj
        rwa [List.getD_eq_getElem?_getD, List.getElem?_eq_getElem hj] at this

theorem candidateValue_own (p n : Nat) (h : p + n ≠ 0) : candidateValue A p n = computedOwn A p n := by
  unfold candidateValue computedOwn
  rw [if_neg h]
  simp only
  split
  · rfl
  · split <;> rfl

theorem deltaData_spec {P N : Bits} {es : List Cand} {sl : SubgroupList} (hs : SLInv P N (es.map Cand.triple) sl)
    (hPN : P.ones + N.ones = P.length) {c : Cand} {r : SubgroupList × F × Nat × Nat} (hr : deltaData A sl c = .ok r) :
    c.pos.length = P.length ∧ c.neg.length = P.length ∧ r.1 = sl ∧ r.2.2 = (newPos P es c, newNeg N es c) ∧
    r.2.1 = A.sub (A.sub (computedDefault A P N (leftRows P (es.map (·.pos))) (leftRows N (es.map (·.neg))))
      (computedDefault A P N (leftRows P (es.map (·.pos)) - newPos P es c) (leftRows N (es.map (·.neg)) - newNeg N es c)))
      (candidateValue A (newPos P es c) (newNeg N es c)) := by
  unfold deltaData at hr
  simp only at hr
  split at hr
  · cases hr
  rename_i sl1 ha
  have hinv := slInv_add' hs ha
  have hdel := sl_add_delete hs _ _ _ ha
  obtain ⟨l1, l2, -⟩ := hinv
  have hadd := ha
  unfold SubgroupList.add at hadd
  rw [if_neg (by simp [hs.dist, l1]), if_neg (by simp [hs.dist, l2])] at hadd
  injection hadd with hadd
  have hp : (sl1.pos.getLastD []).ones = newPos P es c := by
    rw [← hadd]
    simp only [List.getLastD_concat]
    rw [newRows_eq hs.cP c.pos, hs.oP]
    simp [newPos, Cand.triple, Function.comp_def]
  have hn : (sl1.neg.getLastD []).ones = newNeg N es c := by
    rw [← hadd]
    simp only [List.getLastD_concat]
    rw [newRows_eq hs.cN c.neg, hs.oN]
    simp [newNeg, Cand.triple, Function.comp_def]
  have hp2 : sl1.defPos.ones + (sl1.pos.getLastD []).ones = sl.defPos.ones := by
    rw [← hadd]
    simp only [List.getLastD_concat]
    exact ones_split _ _ (by rw [hs.cP.lenD, l1])
  have hn2 : sl1.defNeg.ones + (sl1.neg.getLastD []).ones = sl.defNeg.ones := by
    rw [← hadd]
    simp only [List.getLastD_concat]
    exact ones_split _ _ (by rw [hs.cN.lenD, l2, hs.lenN])
  have hd1 : sl.dist.1 = P.ones := by rw [hs.dist]
  have hd2 : sl.dist.2 - sl.dist.1 = N.ones := by rw [hs.dist]; simp only; omega
  have hlp : sl.defPos.ones = leftRows P (es.map (·.pos)) := by
    rw [leftRows_eq hs.cP, hs.oP]; simp [Cand.triple, Function.comp_def]
  have hln : sl.defNeg.ones = leftRows N (es.map (·.neg)) := by
    rw [leftRows_eq hs.cN, hs.oN]; simp [Cand.triple, Function.comp_def]
  cases hr
  refine ⟨l1, l2, hdel, by simp only [hp, hn], ?_⟩
  rw [hp, hlp] at hp2
  rw [hn, hln] at hn2
  have e1 : sl1.defPos.ones = leftRows P (es.map (·.pos)) - newPos P es c := by omega
  have e2 : sl1.defNeg.ones = leftRows N (es.map (·.neg)) - newNeg N es c := by omega
  simp only [hd2, hp, hn, hlp, hln, e1, e2]
  rw [hd1]
  rfl

theorem selectorCost_ok (df : Frame) (l : List Selector) (r v : F) (h : selectorCost A df l r = .ok v) :
    v = (l.map (fun x => ((df.cols.lookup x.attr).getD []).dedup.length)).foldl (fun r k => A.sub r (A.logN k)) r := by
  induction l generalizing r with
  | nil => unfold selectorCost at h; cases h; rfl
  | cons s l ih =>
    unfold selectorCost at h
    split at h
    · cases h
    rename_i col hc
    have := ih _ h
    have hcol : df.cols.lookup s.attr = some col := by
      unfold Frame.col at hc
      split at hc
      · rename_i c' h'; cases hc; exact h'
      · cases hc
    rw [this, List.map_cons, List.foldl_cons, hcol]
    rfl

theorem deltaModel_spec {P N : Bits} {df : Frame} {es : List Cand} {sl : SubgroupList} (hs : SLInv P N (es.map Cand.triple) sl)
    {s : Subgroup} {v : F} (h : deltaModel A df sl s = .ok v) : v = computedModel A df es s := by
  have hl := slInv_len hs
  rw [List.length_map] at hl
  unfold deltaModel at h
  simp only at h
  split at h
  · cases h
  · rw [selectorCost_ok _ _ _ _ h, hl]
    rfl

/-- the gain put together -/
theorem gain_spec {P N : Bits} {df : Frame} {es : List Cand} {sl : SubgroupList}
    (hs : SLInv P N (es.map Cand.triple) sl) (hPN : P.ones + N.ones = P.length) {c : Cand}
    {r : SubgroupList × F × Nat × Nat} (hr : deltaData A sl c = .ok r) (h0 : newPos P es c + newNeg N es c ≠ 0)
    {dm : F} (hd : deltaModel A df r.1 c.sub = .ok dm) :
    A.divPow (A.add dm r.2.1) (newPos P es c + newNeg N es c) = computedGain A df P N es c := by
  obtain ⟨-, -, h1, -, h3⟩ := deltaData_spec hs hPN hr
  rw [h1] at hd
  unfold computedGain
  simp only
  rw [if_neg h0, deltaModel_spec hs hd, h3, candidateValue_own _ _ h0]

theorem gmsl_implements (ho : Arith.Ordered A) (df : Frame) (P N : Bits) (hPN : P.ones + N.ones = P.length) :
    Implements (gmsl A df) (gmslRuleF A df P N) P N where
  zero := rfl
  gt _ _ := Iff.rfl
  irrefl a h := by have := ho.irrefl a; rw [show A.gt a a = true from h] at this; cases this
  trans := ho.trans
  size := rfl
  deletes := properRefinement_iff
  eval := by
    intro es sl c r hs hr
    change gmslEval A df sl () c = .ok r at hr
    unfold gmslEval at hr
    split at hr
    · cases hr
    rename_i sl1 ddm p n hdd
    obtain ⟨-, -, h1, h2, -⟩ := deltaData_spec hs hPN hdd
    simp only at h1 h2
    injection h2 with h2 h3
    subst h2 h3
    split at hr
    · rename_i h0
      cases hr
      refine ⟨h1, ?_, by simp [gmslRuleF]⟩
      show A.zero = computedGain A df P N es c
      unfold computedGain
      simp only
      rw [if_pos h0]
    · rename_i h0
      split at hr
      · cases hr
      rename_i dm hdm
      cases hr
      exact ⟨h1, gain_spec hs hPN hdd h0 hdm, by simp [gmslRuleF]⟩

theorem psld_implements (ho : Arith.Ordered A) (df : Frame) (size : Nat) (P N : Bits) (hPN : P.ones + N.ones = P.length) :
    Implements (psld A df size) (psldRuleF A df size P N) P N where
  zero := rfl
  gt _ _ := Iff.rfl
  irrefl a h := by have := ho.irrefl a; rw [show A.gt a a = true from h] at this; cases this
  trans := ho.trans
  size := rfl
  deletes s t := by
    show (s.isRefinement t false || t.isRefinement s false) = true ↔ _
    rw [Bool.or_eq_true, properRefinement_iff, properRefinement_iff]
    rfl
  eval := by
    intro es sl c r hs hr
    change psldEval A df sl () c = .ok r at hr
    unfold psldEval at hr
    split at hr
    · cases hr
    rename_i sl1 ddm p n hdd
    obtain ⟨-, -, h1, h2, -⟩ := deltaData_spec hs hPN hdd
    simp only at h1 h2
    injection h2 with h2 h3
    subst h2 h3
    split at hr
    · rename_i h0
      cases hr
      refine ⟨h1, ?_, by simp [psldRuleF]⟩
      show A.zero = computedGain A df P N es c
      unfold computedGain
      simp only
      rw [if_pos h0]
    · rename_i h0
      split at hr
      · cases hr
      rename_i dm hdm
      cases hr
      exact ⟨h1, gain_spec hs hPN hdd h0 hdm, by simp [psldRuleF]⟩

theorem overlapFactor_eq (dflt : F) (es : List Bits) (n : Nat) (b : Bits) (hb : b.length = n) (hes : ∀ e ∈ es, e.length = n) :
    overlapFactor A dflt b (es.foldl bumpCounter (List.replicate n 0)) = computedOverlap A dflt es b := by
  unfold overlapFactor computedOverlap
  split
  · rfl
  · simp only [(overlapSums_fold es n b hb hes).1]

theorem dslm_implements (ho : Arith.Ordered A) (df : Frame) (size : Nat) (maxPos maxNeg : F) (P N : Bits)
    (hPN : P.ones + N.ones = P.length) (hrows : df.nrows = P.length) :
    Implements (dslm A df size maxPos maxNeg) (dslmRuleF A df size maxPos maxNeg P N) P N where
  zero := rfl
  gt _ _ := Iff.rfl
  irrefl a h := by have := ho.irrefl a; rw [show A.gt a a = true from h] at this; cases this
  trans := ho.trans
  size := rfl
  deletes s t := by
    show (s.isRefinement t false || t.isRefinement s false) = true ↔ _
    rw [Bool.or_eq_true, properRefinement_iff, properRefinement_iff]
    rfl
  eval := by
    intro es sl c r hs hr
    have hctr : es.foldl (dslm A df size maxPos maxNeg).update (dslm A df size maxPos maxNeg).init =
      ((es.map (·.pos)).foldl bumpCounter (List.replicate df.nrows 0),
        (es.map (·.neg)).foldl bumpCounter (List.replicate df.nrows 0)) := foldl_update es _ _
    rw [hctr] at hr
    change dslmEval A df maxPos maxNeg sl _ c = .ok r at hr
    unfold dslmEval at hr
    split at hr
    · cases hr
    rename_i sl1 ddm p n hdd
    obtain ⟨l1, l2, h1, h2, -⟩ := deltaData_spec hs hPN hdd
    simp only at h1 h2
    injection h2 with h2 h3
    subst h2 h3
    have hlp : ∀ e ∈ es.map (·.pos), e.length = df.nrows := by
      intro e he
      rw [hrows]
      apply hs.cP.lenO
      rw [hs.oP]
      simpa [Cand.triple, Function.comp_def] using he
    have hln : ∀ e ∈ es.map (·.neg), e.length = df.nrows := by
      intro e he
      rw [hrows, ← hs.lenN]
      apply hs.cN.lenO
      rw [hs.oN]
      simpa [Cand.triple, Function.comp_def] using he
    have eP := overlapFactor_eq (A := A) A.one (es.map (·.pos)) df.nrows c.pos (by omega) hlp
    have eN := overlapFactor_eq (A := A) A.zero (es.map (·.neg)) df.nrows c.neg (by omega) hln
    split at hr
    · rename_i h0
      cases hr
      have hg : (dslmRuleF A df size maxPos maxNeg P N).gain es c = A.zero := by
        show (if newPos P es c + newNeg N es c = 0 then _ else _) = _
        rw [if_pos h0]
      refine ⟨h1, hg.symm, fun hgt => ?_⟩
      rw [hg] at hgt
      have := ho.irrefl A.zero
      rw [show A.gt A.zero A.zero = true from hgt] at this
      cases this
    · rename_i h0
      split at hr
      · cases hr
      rename_i dm hdm
      cases hr
      have hgs := gain_spec hs hPN hdd h0 hdm
      simp only at hgs
      refine ⟨h1, ?_, fun _ => ?_⟩
      · show _ = (if newPos P es c + newNeg N es c = 0 then _ else _)
        rw [if_neg h0]
        simp only
        rw [hgs, eP, eN]
      · simp only [Bool.and_eq_true, decide_eq_true_eq, eP, eN]
        show _ ↔ (0 < newPos P es c ∧ _ ∧ _)
        rw [and_assoc]

/-! no exceptions -/

theorem selectorCost_total (df : Frame) (l : List Selector) (h : ∀ s ∈ l, s.attr ∈ df.cols.map (·.1)) (r : F) :
    ∃ v, selectorCost A df l r = .ok v := by
  induction l generalizing r with
  | nil => exact ⟨r, rfl⟩
  | cons s l ih =>
    unfold selectorCost
    have hm := h s (by simp)
    cases hc : df.col s.attr with
    | error e =>
      exfalso
      unfold Frame.col at hc
      split at hc
      · cases hc
      · rename_i hl
        obtain ⟨c, hc1, hc2⟩ := List.mem_map.1 hm
        rw [List.lookup_eq_none_iff] at hl
        have := hl c hc1
        simp [hc2] at this
    | ok col => exact ih (fun s' hs' => h s' (List.mem_cons_of_mem _ hs')) _

theorem deltaModel_total {df : Frame} {sl : SubgroupList} {c : Cand} (h : Fits df c) : ∃ v, deltaModel A df sl c.sub = .ok v := by
  unfold deltaModel
  simp only
  rw [if_neg (by have := h.comb; omega)]
  exact selectorCost_total df _ h.attrs _

theorem deltaData_total {P N : Bits} {es : List Cand} {sl : SubgroupList} (hs : SLInv P N (es.map Cand.triple) sl)
    {c : Cand} (hp : c.pos.length = P.length) (hn : c.neg.length = P.length) :
    ∃ x p n, deltaData A sl c = .ok (sl, x, p, n) := by
  obtain ⟨l', ha, -⟩ := slInv_add hs c.sub c.pos c.neg hp hn
  unfold deltaData
  simp only [ha, sl_add_delete hs _ _ _ ha]
  exact ⟨_, _, _, rfl⟩

variable {df : Frame}

theorem gmsl_total {P N : Bits} (hP : P.length = df.nrows) : EvalTotal (gmsl A df) P N (Fits df) := by
  intro es sl c hs hc
  obtain ⟨x, p, n, h⟩ := deltaData_total (A := A) hs (hc.pos.trans hP.symm) (hc.neg.trans hP.symm)
  obtain ⟨v, hv⟩ := deltaModel_total (A := A) (sl := sl) hc
  change ∃ r, gmslEval A df sl () c = .ok r ∧ r.1 = sl
  unfold gmslEval
  rw [h]
  simp only
  split
  · exact ⟨_, rfl, rfl⟩
  · rw [hv]; exact ⟨_, rfl, rfl⟩

theorem psld_total (size : Nat) {P N : Bits} (hP : P.length = df.nrows) : EvalTotal (psld A df size) P N (Fits df) := by
  intro es sl c hs hc
  obtain ⟨x, p, n, h⟩ := deltaData_total (A := A) hs (hc.pos.trans hP.symm) (hc.neg.trans hP.symm)
  obtain ⟨v, hv⟩ := deltaModel_total (A := A) (sl := sl) hc
  change ∃ r, psldEval A df sl () c = .ok r ∧ r.1 = sl
  unfold psldEval
  rw [h]
  simp only
  split
  · exact ⟨_, rfl, rfl⟩
  · rw [hv]; exact ⟨_, rfl, rfl⟩

theorem dslm_total (size : Nat) (maxPos maxNeg : F) {P N : Bits} (hP : P.length = df.nrows) :
    EvalTotal (dslm A df size maxPos maxNeg) P N (Fits df) := by
  intro es sl c hs hc
  obtain ⟨x, p, n, h⟩ := deltaData_total (A := A) hs (hc.pos.trans hP.symm) (hc.neg.trans hP.symm)
  obtain ⟨v, hv⟩ := deltaModel_total (A := A) (sl := sl) hc
  change ∃ r, dslmEval A df maxPos maxNeg sl _ c = .ok r ∧ r.1 = sl
  unfold dslmEval
  rw [h]
  simp only
  split
  · exact ⟨_, rfl, rfl⟩
  · rw [hv]; exact ⟨_, rfl, rfl⟩

/-! gains near the exact ones -/

theorem near_gt {ε : ℝ} {a b x y : RVal} (ha : Near ε a x) (hb : Near ε b y) (h : ¬ Greater a b) : ¬ GreaterBy (2 * ε) x y := by
  cases a <;> cases x <;> simp_all [Near, GreaterBy, Greater] <;> cases b <;> cases y <;> simp_all [Near, GreaterBy, Greater]
  rw [abs_le] at ha hb
  linarith [ha.1, ha.2, hb.1, hb.2]

theorem near_pos {ε : ℝ} {a x : RVal} (ha : Near ε a x) (h : Greater a (.fin 0)) : GreaterBy (-ε) x (.fin 0) := by
  cases a <;> cases x <;> simp_all [Near, GreaterBy, Greater]
  rw [abs_le] at ha
  linarith [ha.1, ha.2]

theorem near_not_pos {ε : ℝ} {a x : RVal} (ha : Near ε a x) (h : ¬ Greater a (.fin 0)) : ¬ GreaterBy ε x (.fin 0) := by
  cases a <;> cases x <;> simp_all [Near, GreaterBy, Greater]
  rw [abs_le] at ha
  linarith [ha.1, ha.2]

theorem mem_entriesAt {cs : List Cand} {idx : List Nat} {e : Cand} (h : e ∈ entriesAt cs idx) : e ∈ cs := by
  unfold entriesAt at h
  obtain ⟨i, -, hi⟩ := List.mem_filterMap.1 h
  exact List.mem_of_getElem? hi

theorem produces_upTo {RF : Rule F} {R : Rule RVal} {val : F → RVal} {ε : ℝ} {cs : List Cand} {res : List SubgroupList}
    (hgt : ∀ a b, RF.gt a b ↔ Greater (val a) (val b)) (hz : val RF.zero = .fin 0) (hrel : RF.related = R.related)
    (hsize : RF.maxSize = R.maxSize) (hadm : ∀ es c, RF.admissible es c ↔ R.admissible es c)
    (hnear : ∀ es c, (∀ e ∈ es, e ∈ cs) → c ∈ cs → Near ε (val (RF.gain es c)) (R.gain es c))
    (h : RF.Produces cs res) : R.ProducesUpTo ε cs res := by
  obtain ⟨run, hr, hm⟩ := h
  refine ⟨run, fun k idx hk => ?_, hm⟩
  obtain ⟨h1, h2, h3⟩ := hr k idx hk
  have hn : ∀ j c, c ∈ cs → Near ε (val (RF.gain (entriesAt cs (idx.take j)) c)) (R.gain (entriesAt cs (idx.take j)) c) :=
    fun j c hc => hnear _ _ (fun e he => mem_entriesAt he) hc
  refine ⟨fun j i hj => ?_, fun m hmx => h2 m (hsize.trans hmx), ?_⟩
  · obtain ⟨c, c1, c2, c3, c4, c5⟩ := h1 j i hj
    have hc := hn j c (List.mem_of_getElem? c1)
    refine ⟨c, c1, hrel ▸ c2, (hadm _ _).1 c3, near_pos hc ?_, fun x cx hx ha hadx => ?_⟩
    · have := (hgt _ _).1 c4
      rwa [hz] at this
    · have hx2 := (c5 x cx hx (hrel ▸ ha) ((hadm _ _).2 hadx)).1
      exact near_gt (hn j cx (List.mem_of_getElem? hx)) hc (fun hg => hx2 ((hgt _ _).2 hg))
  · rcases h3 with h3 | h3
    · exact .inl (hsize ▸ h3)
    · right
      intro x cx hx ha hadx
      have hx2 := h3 x cx hx (hrel ▸ ha) ((hadm _ _).2 hadx)
      have hc : Near ε (val (RF.gain (entriesAt cs idx) cx)) (R.gain (entriesAt cs idx) cx) :=
        hnear _ _ (fun e he => mem_entriesAt he) (List.mem_of_getElem? hx)
      refine near_not_pos hc fun hg => hx2 ((hgt _ _).2 ?_)
      rw [hz]
      exact hg

end FloatLists
end Verif
