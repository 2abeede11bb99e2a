import Verif.Lemmas.ListTotal
import Verif.Lemmas.Nominal
/-! `fit` of the subgroup-list algorithms as a whole. -/
namespace Verif
open Spec
variable {G C : Type} {df : Frame} {target : Str × Str}

theorem ones_not (b : Bits) : b.ones + b.not.ones = b.length := by
  induction b with
  | nil => rfl
  | cons x b ih =>
    cases x <;> simp [Bits.ones, Bits.not] at * <;> omega

theorem selectorCost_total (df : Frame) (l : List Selector) (h : ∀ s ∈ l, s.attr ∈ df.cols.map (·.1)) (r : ℝ) :
    ∃ v, selectorCost df l r = .ok v := by
  induction l generalizing r with
  | nil => exact ⟨r, rfl⟩
  | cons s l ih =>
    unfold selectorCost
    have hm := h s (by simp)
    cases hc : df.col s.attr with
    | error e =>
      exfalso
      unfold Frame.col at hc
      split at hc
      · cases hc
      · rename_i hl
        obtain ⟨c, hc1, hc2⟩ := List.mem_map.1 hm
        rw [List.lookup_eq_none_iff] at hl
        have := hl c hc1
        simp [hc2] at this
    | ok col => exact ih (fun s' hs' => h s' (List.mem_cons_of_mem _ hs')) _

theorem deltaModel_total {sl : SubgroupList} {c : Cand} (h : Fits df c) : ∃ v, deltaModel df sl c.sub = .ok v := by
  unfold deltaModel
  simp only
  rw [if_neg (by have := h.comb; omega)]
  split
  · obtain ⟨v, hv⟩ := selectorCost_total df c.sub.description.sels h.attrs
      (MDL.code sl.len - MDL.code (sl.len + 1) - MDL.code c.sub.description.sels.length)
    rw [hv]; exact ⟨_, rfl⟩
  · obtain ⟨v, hv⟩ := selectorCost_total df c.sub.description.sels h.attrs
      (MDL.code sl.len - MDL.code (sl.len + 1) - MDL.code c.sub.description.sels.length -
        Real.logb 2 (((df.cols.length - 1).choose c.sub.description.sels.length : ℕ) : ℝ))
    rw [hv]; exact ⟨_, rfl⟩

theorem deltaData_total {P N : Bits} {es : List Cand} {sl : SubgroupList} (hs : SLInv P N (es.map Cand.triple) sl)
    {c : Cand} (hp : c.pos.length = P.length) (hn : c.neg.length = P.length) :
    ∃ x p n, deltaData sl c = .ok (sl, x, p, n) := by
  obtain ⟨l', ha, -⟩ := slInv_add hs c.sub c.pos c.neg hp hn
  unfold deltaData
  simp only [ha, sl_add_delete hs _ _ _ ha]
  exact ⟨_, _, _, rfl⟩

theorem gmsl_total (beta : ℝ) {P N : Bits} (hP : P.length = df.nrows) : EvalTotal (gmsl df beta) P N (Fits df) := by
  intro es sl c hs hc
  obtain ⟨x, p, n, h⟩ := deltaData_total hs (hc.pos.trans hP.symm) (hc.neg.trans hP.symm)
  obtain ⟨v, hv⟩ := deltaModel_total (sl := sl) hc
  change ∃ r, gmslEval df beta sl () c = .ok r ∧ r.1 = sl
  unfold gmslEval
  rw [h]
  simp only
  split
  · exact ⟨_, rfl, rfl⟩
  · rw [hv]; exact ⟨_, rfl, rfl⟩

theorem psld_total (beta : ℝ) (size : Nat) {P N : Bits} (hP : P.length = df.nrows) :
    EvalTotal (psld df beta size) P N (Fits df) := by
  intro es sl c hs hc
  obtain ⟨x, p, n, h⟩ := deltaData_total hs (hc.pos.trans hP.symm) (hc.neg.trans hP.symm)
  obtain ⟨v, hv⟩ := deltaModel_total (sl := sl) hc
  change ∃ r, psldEval df beta sl () c = .ok r ∧ r.1 = sl
  unfold psldEval
  rw [h]
  simp only
  split
  · exact ⟨_, rfl, rfl⟩
  · rw [hv]; exact ⟨_, rfl, rfl⟩

theorem dslm_total (beta : ℝ) (size : Nat) (maxPos maxNeg : ℝ) {P N : Bits} (hP : P.length = df.nrows) :
    EvalTotal (dslm df beta size maxPos maxNeg) P N (Fits df) := by
  intro es sl c hs hc
  obtain ⟨x, p, n, h⟩ := deltaData_total hs (hc.pos.trans hP.symm) (hc.neg.trans hP.symm)
  obtain ⟨v, hv⟩ := deltaModel_total (sl := sl) hc
  change ∃ r, dslmEval df beta maxPos maxNeg sl _ c = .ok r ∧ r.1 = sl
  unfold dslmEval
  rw [h]
  simp only
  split
  · exact ⟨_, rfl, rfl⟩
  · rw [hv]; exact ⟨_, rfl, rfl⟩

theorem isClasses_mask (hf : NominalFrame df target) :
    ∃ P, targetMask df target = .ok P ∧ IsClasses df target P (Bits.not P) := by
  obtain ⟨P, h1, h2, h3⟩ := targetMask_ok hf
  have hg : ∀ (i : Nat), Bits.get P i = true ↔ MatchesAt df (targetSel target) i := by
    intro i
    rw [← h3 i]
    unfold Bits.get
    rw [List.getD_eq_getElem?_getD]
    cases P[i]? <;> simp
  refine ⟨P, h1, h2, by rw [Bits.len_not]; exact h2, hg, fun i => ?_⟩
  rw [Bits.get_not]
  simp only [Bool.and_eq_true, decide_eq_true_eq, Bool.not_eq_true', ← hg]
  rw [show List.length P = df.nrows from h2]
  simp

theorem slInv_new {P N : Bits} {l0 : SubgroupList} (hN : N.length = P.length)
    (h : SubgroupList.new P N P.length = .ok l0) : SLInv P N [] l0 := by
  unfold SubgroupList.new at h
  rw [if_neg (by simp), if_neg (by simp [hN])] at h
  cases h
  exact ⟨rfl, hN, rfl, rfl, rfl, ClassInv.nil P, ClassInv.nil N⟩

/-- a successful run obeys the rule -/
theorem listFit_spec {M : Miner G C} {R : Rule G} {P : Bits} (hf : NominalFrame df target)
    (hP : targetMask df target = .ok P) (hM : Implements M R P (Bits.not P)) {k : Nat} {cs : List Cand}
    {res : List SubgroupList} (h : listFit M k df target (.ok cs) = .ok res) :
    ∃ run : List (List Nat), run.length = k ∧ res.length = k ∧ R.IsRun cs run ∧
      List.Forall₂ (fun l idx => SLInv P (Bits.not P) ((entriesAt cs idx).map Cand.triple) l) res run := by
  obtain ⟨P', h1, hcl⟩ := isClasses_mask hf
  rw [hP] at h1
  cases h1
  unfold listFit at h
  split at h
  · cases h
  split at h
  · cases h
  rw [hP] at h
  simp only at h
  split at h
  · cases h
  rename_i l0 h0
  rw [← hcl.lenP] at h0
  have hinv := slInv_new (Bits.len_not P) h0
  obtain ⟨run, r1, r2, -, r4, r5⟩ := buildLists_spec hM hinv k [] _ (Left.start R cs) res h
  exact ⟨run, r1, r2, fun j idx hj => by simpa using r5 j idx hj, r4⟩

/-- with candidates that fit the data the run ends without an exception -/
theorem listFit_total {M : Miner G C} {R : Rule G} {P : Bits} (hf : NominalFrame df target) (hrows : df.nrows ≠ 0)
    (hP : targetMask df target = .ok P) (hM : Implements M R P (Bits.not P)) {good : Cand → Prop}
    (hT : EvalTotal M P (Bits.not P) good) (hlen : ∀ c, good c → c.pos.length = P.length ∧ c.neg.length = P.length)
    (k : Nat) (cs : List Cand) (hg : ∀ c ∈ cs, good c) : ∃ res, listFit M k df target (.ok cs) = .ok res := by
  obtain ⟨P', h1, hcl⟩ := isClasses_mask hf
  rw [hP] at h1
  cases h1
  have hn : df.nominal = true := by
    unfold Frame.nominal
    rw [List.all_eq_true]
    intro c hc
    rw [List.all_eq_true]
    intro v hv
    obtain ⟨s, rfl⟩ := hf.texts c hc v hv
    rfl
  unfold listFit
  rw [if_neg hrows, hn, if_neg (by simp), hP]
  simp only
  have h0 : SubgroupList.new P (Bits.not P) df.nrows = .ok ⟨P, Bits.not P, (P.ones, df.nrows), [], [], [], [], []⟩ := by
    unfold SubgroupList.new
    rw [if_neg (by simp [hcl.lenP]), if_neg (by rw [hcl.lenN]; simp)]
  rw [h0]
  simp only
  rw [← hcl.lenP] at h0
  have hinv := slInv_new (Bits.len_not P) h0
  rw [← hcl.lenP]
  exact buildLists_total hM hT hlen hg hinv k [] _ (Left.start R cs)

/-- what a run says about the returned lists -/
theorem run_entries {P N : Bits} {cs : List Cand} {res : List SubgroupList} {run : List (List Nat)}
    (h : List.Forall₂ (fun l idx => SLInv P N ((entriesAt cs idx).map Cand.triple) l) res run) :
    (∀ l ∈ res, ClassInv P l.defPos l.pos ((entriesOf l).map (·.pos)) ∧ ClassInv N l.defNeg l.neg ((entriesOf l).map (·.neg))
      ∧ l.subs = (entriesOf l).map (·.sub)) := by
  intro l hl
  obtain ⟨j, hj⟩ := List.mem_iff_getElem?.1 hl
  have hlen := h.length_eq
  have hjlt : j < res.length := by
    by_contra hc; rw [List.getElem?_eq_none (by omega)] at hj; cases hj
  have := h.get (i := j) hjlt (by omega)
  simp only [List.get_eq_getElem] at this
  rw [List.getElem?_eq_getElem hjlt] at hj
  cases hj
  rw [entriesOf_eq this]
  have e1 := this.oP
  have e2 := this.oN
  have e3 := this.subs
  have c1 := this.cP
  have c2 := this.cN
  rw [e1] at c1
  rw [e2] at c2
  simp only [List.map_map] at c1 c2 e3
  exact ⟨c1, c2, e3⟩

end Verif
