import Verif.Lemmas.ListMiner
import Verif.Lemmas.MDLCode
import Verif.Lemmas.Multinomial
/-! GMSL, PSLD and DSLM implement their rules. -/
namespace Verif
open Spec

theorem greater_iff (a b : RVal) : Greater a b ↔ RVal.gt a b = true := by
  cases a <;> cases b <;> simp [RVal.gt, Greater]

theorem greater_irrefl (a : RVal) : ¬ Greater a a := by
  cases a <;> simp [Greater]

theorem greater_trans (a b c : RVal) (h1 : Greater a b) (h2 : Greater b c) : Greater a c := by
  cases a <;> cases b <;> cases c <;> simp_all [Greater]
  linarith

theorem log2C2_eq (n : Nat) (hn : 1 ≤ n) : log2C2 n = Real.logb 2 (complexityTwo n) := by
  unfold log2C2
  rw [MDL.log2Multinomial_two n hn]

theorem RVal.gt_irrefl (a : RVal) : ¬ RVal.gt a a = true := by
  cases a <;> simp [RVal.gt]

theorem RVal.gt_trans (a b c : RVal) (h1 : RVal.gt a b = true) (h2 : RVal.gt b c = true) : RVal.gt a c = true := by
  cases a <;> cases b <;> cases c <;> simp_all [RVal.gt]
  linarith

theorem properRefinement_iff (s t : Subgroup) : s.isRefinement t false = true ↔ ProperRefinement s t := by
  rw [C09_subgroup, C09_refinement]
  simp [ProperRefinement]

theorem newRows_eq {D dflt : Bits} {pos orig : List Bits} (h : ClassInv D dflt pos orig) (b : Bits) :
    (b.and dflt).ones = newRows D b orig := by
  unfold newRows
  apply Bits.ones_eq_length
  · exact List.nodup_range.filter _
  · intro i
    rw [List.mem_filter, List.mem_range, Bits.get_and]
    simp only [Bool.and_eq_true, h.hdef i, List.all_eq_true, Bool.not_eq_true']
    unfold Default
    constructor
    · rintro ⟨-, ⟨h1, h2⟩, h3⟩
      refine ⟨h2, h1, fun j hj => h3 _ ?_⟩
      rw [List.getD_eq_getElem?_getD, List.getElem?_eq_getElem hj]
      exact List.getElem_mem hj
    · rintro ⟨h2, h1, h3⟩
      refine ⟨?_, ⟨h1, h2⟩, fun e he => ?_⟩
      · by_contra hc
        rw [Bits.get_ge _ _ (by omega)] at h1; cases h1
      · obtain ⟨j, hj, rfl⟩ := List.getElem_of_mem he
        have := h3 j hj
        rwa [List.getD_eq_getElem?_getD, List.getElem?_eq_getElem hj] at this

theorem deltaData_spec {P N : Bits} {es : List Cand} {sl : SubgroupList} (hs : SLInv P N (es.map Cand.triple) sl)
    (hPN : P.ones + N.ones = P.length) {c : Cand} {r : SubgroupList × RVal × Nat × Nat} (hr : deltaData sl c = .ok r) :
    c.pos.length = P.length ∧ c.neg.length = P.length ∧ r.1 = sl ∧ r.2.2 = (newPos P es c, newNeg N es c) ∧
    r.2.1 = if P.ones = 0 ∨ N.ones = 0 then .nan else
      .fin (-(newPos P es c : ℝ) * Real.logb 2 ((P.ones : ℝ) / P.length) - (newNeg N es c : ℝ) * Real.logb 2 ((N.ones : ℝ) / P.length)
        - candidateValue (newPos P es c) (newNeg N es c)) := by
  unfold deltaData at hr
  simp only at hr
  split at hr
  · cases hr
  rename_i sl1 ha
  have hinv := slInv_add' hs ha
  have hdel := sl_add_delete hs _ _ _ ha
  obtain ⟨l1, l2, -⟩ := hinv
  have hadd := ha
  unfold SubgroupList.add at hadd
  rw [if_neg (by simp [hs.dist, l1]), if_neg (by simp [hs.dist, l2])] at hadd
  injection hadd with hadd
  have hp : (sl1.pos.getLastD []).ones = newPos P es c := by
    rw [← hadd]
    simp only [List.getLastD_concat]
    rw [newRows_eq hs.cP c.pos, hs.oP]
    simp [newPos, Cand.triple, Function.comp_def]
  have hn : (sl1.neg.getLastD []).ones = newNeg N es c := by
    rw [← hadd]
    simp only [List.getLastD_concat]
    rw [newRows_eq hs.cN c.neg, hs.oN]
    simp [newNeg, Cand.triple, Function.comp_def]
  have hp2 : sl1.defPos.ones + (sl1.pos.getLastD []).ones = sl.defPos.ones := by
    rw [← hadd]
    simp only [List.getLastD_concat]
    exact ones_split _ _ (by rw [hs.cP.lenD, l1])
  have hn2 : sl1.defNeg.ones + (sl1.neg.getLastD []).ones = sl.defNeg.ones := by
    rw [← hadd]
    simp only [List.getLastD_concat]
    exact ones_split _ _ (by rw [hs.cN.lenD, l2, hs.lenN])
  have hd1 : sl.dist.1 = P.ones := by rw [hs.dist]
  have hd2 : sl.dist.2 - sl.dist.1 = N.ones := by rw [hs.dist]; simp only; omega
  cases hr
  refine ⟨l1, l2, hdel, by simp only [hp, hn], ?_⟩
  simp only [hd1]
  rw [hd1] at hd2
  simp only [hd2, hp, hn]
  rw [hp] at hp2
  rw [hn] at hn2
  unfold defRuleCost
  split
  · rfl
  · simp only [RVal.sub, RVal.add]
    congr 1
    rw [hPN]
    have e1 : (sl.defPos.ones : ℝ) = sl1.defPos.ones + newPos P es c := by exact_mod_cast hp2.symm
    have e2 : (sl.defNeg.ones : ℝ) = sl1.defNeg.ones + newNeg N es c := by exact_mod_cast hn2.symm
    rw [e1, e2]
    ring

theorem candidateValue_eq (p n : Nat) (h : p + n ≠ 0) : candidateValue p n = ownCode p n := by
  unfold candidateValue ownCode
  rw [if_neg h, log2C2_eq _ (by omega)]
  split
  · rename_i h0; subst h0; simp
  · split
    · rename_i h0; subst h0; simp
    · rfl

theorem selectorCost_ok (df : Frame) (l : List Selector) (r v : ℝ) (h : selectorCost df l r = .ok v) :
    v = r - (l.map (fun x => Real.logb 2 (((df.cols.lookup x.attr).getD []).dedup.length : ℝ))).sum := by
  induction l generalizing r with
  | nil => unfold selectorCost at h; cases h; simp
  | cons s l ih =>
    unfold selectorCost at h
    split at h
    · cases h
    rename_i col hc
    have := ih _ h
    have hcol : df.cols.lookup s.attr = some col := by
      unfold Frame.col at hc
      split at hc
      · rename_i c' h'; cases hc; exact h'
      · cases hc
    rw [this, List.map_cons, List.sum_cons, hcol]
    simp only [Option.getD_some]
    ring

theorem deltaModel_spec {P N : Bits} {df : Frame} {es : List Cand} {sl : SubgroupList} (hs : SLInv P N (es.map Cand.triple) sl)
    {s : Subgroup} {v : RVal} (h : deltaModel df sl s = .ok v) :
    v = if df.cols.length - 1 < s.description.sels.length then .inf else
      .fin (-(universalCode (es.length + 1) - universalCode es.length) - descriptionCode df s) := by
  have hl := slInv_len hs
  rw [List.length_map] at hl
  unfold deltaModel at h
  simp only at h
  split at h
  · cases h
  split at h
  · rename_i h0
    rw [Nat.choose_eq_zero_iff] at h0
    split at h
    · cases h
    · cases h; rw [if_pos h0]
  · rename_i h0
    rw [Nat.choose_eq_zero_iff] at h0
    split at h
    · cases h
    · rename_i w hw
      cases h
      rw [if_neg h0, selectorCost_ok _ _ _ _ hw, hl]
      unfold descriptionCode
      simp only [← MDL.code_eq]
      congr 1
      ring

/-- the gain before the division, put together -/
theorem gain_spec {P N : Bits} {df : Frame} (beta : ℝ) {es : List Cand} {sl : SubgroupList}
    (hs : SLInv P N (es.map Cand.triple) sl) (hPN : P.ones + N.ones = P.length) {c : Cand}
    {r : SubgroupList × RVal × Nat × Nat} (hr : deltaData sl c = .ok r) (h0 : newPos P es c + newNeg N es c ≠ 0)
    {dm : RVal} (hd : deltaModel df r.1 c.sub = .ok dm) :
    (dm.add r.2.1).divPos (((newPos P es c + newNeg N es c : Nat) : ℝ) ^ beta) = gainSpec df beta P N es c := by
  obtain ⟨-, -, h1, -, h3⟩ := deltaData_spec hs hPN hr
  rw [h1] at hd
  have hdm := deltaModel_spec hs hd
  unfold gainSpec
  simp only
  rw [if_neg h0, hdm, h3, candidateValue_eq _ _ h0]
  split
  · split <;> rfl
  · split
    · rfl
    · simp only [RVal.add, RVal.divPos]
      congr 2
      ring

theorem gmsl_implements (df : Frame) (beta : ℝ) (P N : Bits) (hPN : P.ones + N.ones = P.length) :
    Implements (gmsl df beta) (gmslRule df beta P N) P N where
  zero := rfl
  gt a b := (greater_iff a b).symm
  irrefl := greater_irrefl
  trans := greater_trans
  size := rfl
  deletes := properRefinement_iff
  eval := by
    intro es sl c r hs hr
    change gmslEval df beta sl () c = .ok r at hr
    unfold gmslEval at hr
    split at hr
    · cases hr
    rename_i sl1 ddm p n hdd
    obtain ⟨-, -, h1, h2, -⟩ := deltaData_spec hs hPN hdd
    simp only at h1 h2
    injection h2 with h2 h3
    subst h2 h3
    split at hr
    · rename_i h0
      cases hr
      refine ⟨h1, ?_, by simp [gmslRule]⟩
      show RVal.fin 0 = gainSpec df beta P N es c
      unfold gainSpec
      simp only
      rw [if_pos h0]
    · rename_i h0
      split at hr
      · cases hr
      rename_i dm hdm
      cases hr
      exact ⟨h1, gain_spec beta hs hPN hdd h0 hdm, by simp [gmslRule]⟩

theorem psld_implements (df : Frame) (beta : ℝ) (size : Nat) (P N : Bits) (hPN : P.ones + N.ones = P.length) :
    Implements (psld df beta size) (psldRule df beta size P N) P N where
  zero := rfl
  gt a b := (greater_iff a b).symm
  irrefl := greater_irrefl
  trans := greater_trans
  size := rfl
  deletes s t := by
    show (s.isRefinement t false || t.isRefinement s false) = true ↔ _
    rw [Bool.or_eq_true, properRefinement_iff, properRefinement_iff]
    rfl
  eval := by
    intro es sl c r hs hr
    change psldEval df beta sl () c = .ok r at hr
    unfold psldEval at hr
    split at hr
    · cases hr
    rename_i sl1 ddm p n hdd
    obtain ⟨-, -, h1, h2, -⟩ := deltaData_spec hs hPN hdd
    simp only at h1 h2
    injection h2 with h2 h3
    subst h2 h3
    split at hr
    · rename_i h0
      cases hr
      refine ⟨h1, ?_, by simp [psldRule]⟩
      show RVal.fin 0 = gainSpec df beta P N es c
      unfold gainSpec
      simp only
      rw [if_pos h0]
    · rename_i h0
      split at hr
      · cases hr
      rename_i dm hdm
      cases hr
      exact ⟨h1, gain_spec beta hs hPN hdd h0 hdm, by simp [psldRule]⟩

/-! ### overlap -/

theorem overlapSums_bump (ctr : List Nat) (e b : Bits) (h1 : ctr.length = e.length) (h2 : b.length = e.length) :
    overlapSums (bumpCounter ctr e) b =
      ((overlapSums ctr b).1 + e.ones, (overlapSums ctr b).2 + (e.and b).ones) := by
  induction ctr generalizing e b with
  | nil =>
    cases e with
    | nil => simp [bumpCounter, overlapSums, Bits.ones, Bits.and]
    | cons => simp at h1
  | cons n ctr ih =>
    cases e with
    | nil => simp at h1
    | cons x e =>
      cases b with
      | nil => simp at h2
      | cons y b =>
        have := ih e b (by simpa using h1) (by simpa using h2)
        unfold bumpCounter at this ⊢
        simp only [List.zipWith_cons_cons, overlapSums, this, Bits.and, Bits.ones, List.count_cons]
        cases x <;> cases y <;> simp [Prod.ext_iff] <;> omega

theorem overlapSums_zero (n : Nat) (b : Bits) : overlapSums (List.replicate n 0) b = (0, 0) := by
  induction n generalizing b with
  | zero => rfl
  | succ n ih =>
    rw [List.replicate_succ]
    cases b <;> simp [overlapSums, ih]

theorem len_bump (ctr : List Nat) (e : Bits) (h1 : ctr.length = e.length) : (bumpCounter ctr e).length = ctr.length := by
  simp [bumpCounter, h1]

theorem overlapSums_fold (es : List Bits) (n : Nat) (b : Bits) (hb : b.length = n) (hes : ∀ e ∈ es, e.length = n) :
    overlapSums (es.foldl bumpCounter (List.replicate n 0)) b =
      ((es.map Bits.ones).sum, (es.map (fun e => (e.and b).ones)).sum) ∧
    (es.foldl bumpCounter (List.replicate n 0)).length = n := by
  induction es using List.reverseRecOn with
  | nil => simp [overlapSums_zero]
  | append_singleton es e ih =>
    have he := hes e (by simp)
    obtain ⟨i1, i2⟩ := ih (fun e he => hes e (List.mem_append_left _ he))
    rw [List.foldl_append]
    simp only [List.foldl_cons, List.foldl_nil]
    rw [overlapSums_bump _ _ _ (by rw [i2, he]) (by rw [hb, he]), i1, len_bump _ _ (by rw [i2, he]), i2]
    simp

theorem foldl_update (es : List Cand) (a b : List Nat) :
    es.foldl (fun ctr c => (bumpCounter ctr.1 c.pos, bumpCounter ctr.2 c.neg)) (a, b) =
      ((es.map (·.pos)).foldl bumpCounter a, (es.map (·.neg)).foldl bumpCounter b) := by
  induction es generalizing a b with
  | nil => rfl
  | cons c es ih => simp only [List.foldl_cons, List.map_cons, ih]

theorem overlapFactor_eq (dflt : Rat) (es : List Bits) (n : Nat) (b : Bits) (hb : b.length = n) (hes : ∀ e ∈ es, e.length = n) :
    overlapFactor dflt b (es.foldl bumpCounter (List.replicate n 0)) = if b.ones = 0 then dflt else overlap es b := by
  unfold overlapFactor
  split
  · rfl
  · simp only [(overlapSums_fold es n b hb hes).1]
    unfold overlap
    split
    · rename_i h0
      have h0' : (((es.map Bits.ones).sum : Nat) : Rat) = 0 := by exact_mod_cast h0
      rw [h0', div_zero]
    · rfl

theorem and_ones_le (e b : Bits) : (e.and b).ones ≤ e.ones := by
  induction e generalizing b with
  | nil => simp [Bits.and, Bits.ones]
  | cons x e ih =>
    cases b with
    | nil => simp [Bits.and, Bits.ones]
    | cons y b =>
      have := ih b
      unfold Bits.and Bits.ones at this ⊢
      rw [List.zipWith_cons_cons, List.count_cons, List.count_cons]
      cases x <;> cases y <;> simp <;> omega

theorem overlap_le (es : List Bits) (b : Bits) : overlap es b ≤ 1 := by
  have h : (es.map (fun e => (e.and b).ones)).sum ≤ (es.map Bits.ones).sum :=
    List.sum_le_sum fun e _ => and_ones_le e b
  unfold overlap
  rcases Nat.eq_zero_or_pos (es.map Bits.ones).sum with h0 | h0
  · rw [h0]; simp
  · rw [div_le_one (by exact_mod_cast h0)]
    exact_mod_cast h

theorem posOverlap_le (es : List Cand) (c : Cand) : posOverlap es c ≤ 1 := by
  unfold posOverlap
  split
  · exact le_refl _
  · exact overlap_le _ _

theorem negOverlap_le (es : List Cand) (c : Cand) : negOverlap es c ≤ 1 := by
  unfold negOverlap
  split
  · norm_num
  · exact overlap_le _ _

theorem reduced_eq {po no : Rat} (hp : po ≤ 1) (hn : no ≤ 1) (g : RVal) :
    (g.mulFin (1 - (po : ℝ))).mulFin (1 - (no : ℝ)) = reduced po no g := by
  have key : ∀ q : Rat, q ≤ 1 → (q = 1 ∧ (1 - (q : ℝ)) = 0) ∨ (q ≠ 1 ∧ (1 - (q : ℝ)) ≠ 0 ∧ 1 - (q : ℝ) > 0) := by
    intro q hq
    by_cases h : q = 1
    · left; subst h; simp
    · right
      have : (q : ℝ) < 1 := by exact_mod_cast lt_of_le_of_ne hq h
      exact ⟨h, by linarith, by linarith⟩
  cases g with
  | nan => rfl
  | fin r => rfl
  | inf =>
    rcases key po hp with ⟨h1, h2⟩ | ⟨h1, h2, h3⟩ <;> rcases key no hn with ⟨g1, g2⟩ | ⟨g1, g2, g3⟩ <;>
      simp_all [RVal.mulFin, reduced]
  | ninf =>
    rcases key po hp with ⟨h1, h2⟩ | ⟨h1, h2, h3⟩ <;> rcases key no hn with ⟨g1, g2⟩ | ⟨g1, g2, g3⟩ <;>
      simp_all [RVal.mulFin, reduced]

theorem dslm_implements (df : Frame) (beta : ℝ) (size : Nat) (maxPos maxNeg : ℝ) (P N : Bits)
    (hPN : P.ones + N.ones = P.length) (hrows : df.nrows = P.length) :
    Implements (dslm df beta size maxPos maxNeg) (dslmRule df beta size maxPos maxNeg P N) P N where
  zero := rfl
  gt a b := (greater_iff a b).symm
  irrefl := greater_irrefl
  trans := greater_trans
  size := rfl
  deletes s t := by
    show (s.isRefinement t false || t.isRefinement s false) = true ↔ _
    rw [Bool.or_eq_true, properRefinement_iff, properRefinement_iff]
    rfl
  eval := by
    intro es sl c r hs hr
    have hctr : es.foldl (dslm df beta size maxPos maxNeg).update (dslm df beta size maxPos maxNeg).init =
      ((es.map (·.pos)).foldl bumpCounter (List.replicate df.nrows 0),
        (es.map (·.neg)).foldl bumpCounter (List.replicate df.nrows 0)) := foldl_update es _ _
    rw [hctr] at hr
    change dslmEval df beta maxPos maxNeg sl _ c = .ok r at hr
    unfold dslmEval at hr
    split at hr
    · cases hr
    rename_i sl1 ddm p n hdd
    obtain ⟨l1, l2, h1, h2, -⟩ := deltaData_spec hs hPN hdd
    simp only at h1 h2
    injection h2 with h2 h3
    subst h2 h3
    have hlp : ∀ e ∈ es.map (·.pos), e.length = df.nrows := by
      intro e he
      rw [hrows]
      apply hs.cP.lenO
      rw [hs.oP]
      simpa [Cand.triple, Function.comp_def] using he
    have hln : ∀ e ∈ es.map (·.neg), e.length = df.nrows := by
      intro e he
      rw [hrows, ← hs.lenN]
      apply hs.cN.lenO
      rw [hs.oN]
      simpa [Cand.triple, Function.comp_def] using he
    have eP := overlapFactor_eq 1 (es.map (·.pos)) df.nrows c.pos (by omega) hlp
    have eN := overlapFactor_eq 0 (es.map (·.neg)) df.nrows c.neg (by omega) hln
    split at hr
    · rename_i h0
      cases hr
      have hg : (dslmRule df beta size maxPos maxNeg P N).gain es c = RVal.fin 0 := by
        show (if newPos P es c + newNeg N es c = 0 then _ else _) = _
        rw [if_pos h0]
      refine ⟨h1, hg.symm, fun hgt => ?_⟩
      rw [hg] at hgt
      exact absurd hgt (greater_irrefl (.fin 0))
    · rename_i h0
      split at hr
      · cases hr
      rename_i dm hdm
      cases hr
      have hgs := gain_spec beta hs hPN hdd h0 hdm
      simp only at hgs
      refine ⟨h1, ?_, fun _ => ?_⟩
      · show _ = (if newPos P es c + newNeg N es c = 0 then _ else _)
        rw [if_neg h0]
        simp only
        rw [hgs, eP, eN]
        exact reduced_eq (posOverlap_le es c) (negOverlap_le es c) _
      · simp only [Bool.and_eq_true, decide_eq_true_eq, eP, eN]
        show _ ↔ (0 < newPos P es c ∧ _ ∧ _)
        unfold posOverlap negOverlap
        rw [and_assoc]

end Verif
