import Verif.Lemmas.FloatLists
import Verif.Props.ListMiner
/-! C108: GMSL, PSLD and DSLM on a machine with rounding errors. `A` is the arithmetic of the machine. -/
namespace Verif
open Spec

section
variable {F : Type} {A : Arith F} {df : Frame} {target : Str × Str}

/-- **C108.** Whatever the arithmetic (with `>` a strict order), GMSL follows the greedy rule with the gains that it computes: every
subgroup added has the first largest positive computed gain among the candidates left, a list ends only when no candidate has
a positive computed gain, and the contents of the lists are right. -/
theorem C108_gmsl (ho : Arith.Ordered A) (hf : NominalFrame df target) (maxSl : Nat) (cs : List Cand) (res : List SubgroupList)
    (h : listFit (FloatLists.gmsl A df) maxSl df target (.ok cs) = .ok res) :
    ∃ P N, IsClasses df target P N ∧ ListResult (gmslRuleF A df P N) maxSl P N cs res := by
  obtain ⟨P, hP, hcl⟩ := isClasses_mask hf
  exact ⟨P, _, hcl, listResult_of hf hP (FloatLists.gmsl_implements ho df P _ (ones_not P)) h⟩

/-- **C108.** The same for PSLD. -/
theorem C108_psld (ho : Arith.Ordered A) (hf : NominalFrame df target) (size maxSl : Nat) (cs : List Cand) (res : List SubgroupList)
    (h : listFit (FloatLists.psld A df size) maxSl df target (.ok cs) = .ok res) :
    ∃ P N, IsClasses df target P N ∧ ListResult (psldRuleF A df size P N) maxSl P N cs res := by
  obtain ⟨P, hP, hcl⟩ := isClasses_mask hf
  exact ⟨P, _, hcl, listResult_of hf hP (FloatLists.psld_implements ho df size P _ (ones_not P)) h⟩

/-- **C108.** The same for DSLM. -/
theorem C108_dslm (ho : Arith.Ordered A) (hf : NominalFrame df target) (size : Nat) (maxPos maxNeg : F) (maxSl : Nat) (cs : List Cand)
    (res : List SubgroupList) (h : listFit (FloatLists.dslm A df size maxPos maxNeg) maxSl df target (.ok cs) = .ok res) :
    ∃ P N, IsClasses df target P N ∧ ListResult (dslmRuleF A df size maxPos maxNeg P N) maxSl P N cs res := by
  obtain ⟨P, hP, hcl⟩ := isClasses_mask hf
  exact ⟨P, _, hcl, listResult_of hf hP (FloatLists.dslm_implements ho df size maxPos maxNeg P _ (ones_not P) hcl.lenP.symm) h⟩

/-- **C108.** GMSL, whatever the arithmetic: `maxSl` lists, no line of the candidate file used more often than it appears, no subgroup
properly refines one chosen before it. -/
theorem C108_choice_gmsl (ho : Arith.Ordered A) (hf : NominalFrame df target) (maxSl : Nat) (cs : List Cand) (res : List SubgroupList)
    (h : listFit (FloatLists.gmsl A df) maxSl df target (.ok cs) = .ok res) :
    res.length = maxSl ∧ (res.flatMap entriesOf).Subperm cs ∧
      (res.flatMap entriesOf).Pairwise (fun a b => ¬ ProperRefinement a.sub b.sub) := by
  obtain ⟨P, N, -, hr⟩ := C108_gmsl ho hf maxSl cs res h
  exact ⟨hr.count, produces_choice hr.run⟩

/-- **C108.** PSLD and DSLM, whatever the arithmetic: also no subgroup refines or generalises another, no list exceeds the maximum size,
and every subgroup of a list covers a row with the target that no earlier one of the list covers. -/
theorem C108_choice_psld_dslm (ho : Arith.Ordered A) (hf : NominalFrame df target) (size maxSl : Nat) (maxPos maxNeg : F)
    (cs : List Cand) (res : List SubgroupList) (h : listFit (FloatLists.psld A df size) maxSl df target (.ok cs) = .ok res ∨
      listFit (FloatLists.dslm A df size maxPos maxNeg) maxSl df target (.ok cs) = .ok res) :
    res.length = maxSl ∧ (res.flatMap entriesOf).Subperm cs ∧
      (res.flatMap entriesOf).Pairwise (fun a b => ¬ ProperRefinement a.sub b.sub ∧ ¬ ProperRefinement b.sub a.sub) ∧
      (∀ l ∈ res, l.subs.length ≤ size) ∧
      ∀ l ∈ res, ∀ (k : Nat) (c : Cand), (entriesOf l)[k]? = some c →
        ∃ (i : Nat), MatchesAt df (targetSel target) i ∧ c.pos.get i = true ∧
          ∀ c' ∈ (entriesOf l).take k, c'.pos.get i = false := by
  have key : ∀ (R : Rule F) (P N : Bits), IsClasses df target P N → ListResult R maxSl P N cs res →
      (∀ s t, R.related s t ↔ ProperRefinement s t ∨ ProperRefinement t s) → R.maxSize = some size →
      (∀ es c, R.admissible es c → 0 < newPos P es c) →
      res.length = maxSl ∧ (res.flatMap entriesOf).Subperm cs ∧
      (res.flatMap entriesOf).Pairwise (fun a b => ¬ ProperRefinement a.sub b.sub ∧ ¬ ProperRefinement b.sub a.sub) ∧
      (∀ l ∈ res, l.subs.length ≤ size) ∧
      ∀ l ∈ res, ∀ (k : Nat) (c : Cand), (entriesOf l)[k]? = some c →
        ∃ (i : Nat), MatchesAt df (targetSel target) i ∧ c.pos.get i = true ∧
          ∀ c' ∈ (entriesOf l).take k, c'.pos.get i = false := by
    intro R P N hcl hr hrel hm hadm
    refine ⟨hr.count, (produces_choice hr.run).1, (produces_choice hr.run).2.imp ?_, ?_, ?_⟩
    · intro a b hab
      rw [hrel] at hab
      exact not_or.1 hab
    · intro l hl
      rw [hr.subs l hl, List.length_map]
      exact produces_size hr.run hm l hl
    · intro l hl k c hk
      obtain ⟨i, hi, h2⟩ := newPos_pos (hadm _ _ (produces_pick hr.run hl hk).1)
      exact ⟨i, (hcl.pos i).1 hi, h2⟩
  rcases h with h | h
  · obtain ⟨P, N, hcl, hr⟩ := C108_psld ho hf size maxSl cs res h
    exact key _ P N hcl hr (fun _ _ => Iff.rfl) rfl (fun _ _ h => h)
  · obtain ⟨P, N, hcl, hr⟩ := C108_dslm ho hf size maxPos maxNeg maxSl cs res h
    exact key _ P N hcl hr (fun _ _ => Iff.rfl) rfl (fun _ _ h => h.1)

/-- **C108.** Whatever the arithmetic: on data with rows and candidates that fit them, the three algorithms end without an exception. -/
theorem C108_total (ho : Arith.Ordered A) (hf : NominalFrame df target) (hrows : df.nrows ≠ 0) (size maxSl : Nat) (maxPos maxNeg : F)
    (cs : List Cand) (hcs : ∀ c ∈ cs, Fits df c) :
    (∃ res, listFit (FloatLists.gmsl A df) maxSl df target (.ok cs) = .ok res) ∧
    (∃ res, listFit (FloatLists.psld A df size) maxSl df target (.ok cs) = .ok res) ∧
    (∃ res, listFit (FloatLists.dslm A df size maxPos maxNeg) maxSl df target (.ok cs) = .ok res) := by
  obtain ⟨P, hP, hcl⟩ := isClasses_mask hf
  have hlen : ∀ c, Fits df c → c.pos.length = P.length ∧ c.neg.length = P.length :=
    fun c hc => ⟨by rw [hc.pos, hcl.lenP], by rw [hc.neg, hcl.lenP]⟩
  exact ⟨listFit_total hf hrows hP (FloatLists.gmsl_implements ho df P _ (ones_not P)) (FloatLists.gmsl_total hcl.lenP) hlen maxSl cs hcs,
    listFit_total hf hrows hP (FloatLists.psld_implements ho df size P _ (ones_not P)) (FloatLists.psld_total size hcl.lenP) hlen maxSl cs hcs,
    listFit_total hf hrows hP (FloatLists.dslm_implements ho df size maxPos maxNeg P _ (ones_not P) hcl.lenP.symm)
      (FloatLists.dslm_total size maxPos maxNeg hcl.lenP) hlen maxSl cs hcs⟩

/-- **C108.** If the computed gains of GMSL are within `ε` of the exact ones, its lists obey the exact rule up to `ε`: every subgroup added
has an exact gain larger than `-ε`, no candidate then left had an exact gain larger by more than `2ε`, and a list ends only when
no candidate left has an exact gain larger than `ε`. `val` is the number that a float stands for. -/
theorem C108_near_gmsl (hf : NominalFrame df target) (beta ε : ℝ) (val : F → RVal)
    (hgt : ∀ a b, A.gt a b = true ↔ Greater (val a) (val b)) (hz : val A.zero = .fin 0) (maxSl : Nat) (cs : List Cand)
    (hnear : ∀ P N, IsClasses df target P N → ∀ es c, (∀ e ∈ es, e ∈ cs) → c ∈ cs →
      Near ε (val (computedGain A df P N es c)) (gainSpec df beta P N es c))
    (res : List SubgroupList) (h : listFit (FloatLists.gmsl A df) maxSl df target (.ok cs) = .ok res) :
    ∃ P N, IsClasses df target P N ∧ (gmslRule df beta P N).ProducesUpTo ε cs res := by
  have ho : Arith.Ordered A := by
    refine ⟨fun a => ?_, fun a b c h1 h2 => ?_⟩
    · rw [← Bool.not_eq_true, hgt]; exact greater_irrefl _
    · rw [hgt] at *; exact greater_trans _ _ _ h1 h2
  obtain ⟨P, N, hcl, hr⟩ := C108_gmsl ho hf maxSl cs res h
  exact ⟨P, N, hcl, FloatLists.produces_upTo (val := val) hgt hz rfl rfl (fun _ _ => Iff.rfl)
    (fun es c he hc => hnear P N hcl es c he hc) hr.run⟩

/-- **C108.** The same for PSLD. -/
theorem C108_near_psld (hf : NominalFrame df target) (beta ε : ℝ) (val : F → RVal)
    (hgt : ∀ a b, A.gt a b = true ↔ Greater (val a) (val b)) (hz : val A.zero = .fin 0) (size maxSl : Nat) (cs : List Cand)
    (hnear : ∀ P N, IsClasses df target P N → ∀ es c, (∀ e ∈ es, e ∈ cs) → c ∈ cs →
      Near ε (val (computedGain A df P N es c)) (gainSpec df beta P N es c))
    (res : List SubgroupList) (h : listFit (FloatLists.psld A df size) maxSl df target (.ok cs) = .ok res) :
    ∃ P N, IsClasses df target P N ∧ (psldRule df beta size P N).ProducesUpTo ε cs res := by
  have ho : Arith.Ordered A := by
    refine ⟨fun a => ?_, fun a b c h1 h2 => ?_⟩
    · rw [← Bool.not_eq_true, hgt]; exact greater_irrefl _
    · rw [hgt] at *; exact greater_trans _ _ _ h1 h2
  obtain ⟨P, N, hcl, hr⟩ := C108_psld ho hf size maxSl cs res h
  exact ⟨P, N, hcl, FloatLists.produces_upTo (val := val) hgt hz rfl rfl (fun _ _ => Iff.rfl)
    (fun es c he hc => hnear P N hcl es c he hc) hr.run⟩

/-- **C108.** The same for DSLM; the limits on the overlaps are those of the computed overlaps. -/
theorem C108_near_dslm (hf : NominalFrame df target) (beta ε : ℝ) (val : F → RVal)
    (hgt : ∀ a b, A.gt a b = true ↔ Greater (val a) (val b)) (hz : val A.zero = .fin 0) (size maxSl : Nat) (maxPos maxNeg : F)
    (cs : List Cand)
    (hnear : ∀ P N, IsClasses df target P N → ∀ es c, (∀ e ∈ es, e ∈ cs) → c ∈ cs →
      Near ε (val ((dslmRuleF A df size maxPos maxNeg P N).gain es c)) ((dslmRule df beta size 1 1 P N).gain es c))
    (res : List SubgroupList) (h : listFit (FloatLists.dslm A df size maxPos maxNeg) maxSl df target (.ok cs) = .ok res) :
    ∃ P N, IsClasses df target P N ∧
      { dslmRule df beta size 1 1 P N with admissible := (dslmRuleF A df size maxPos maxNeg P N).admissible }.ProducesUpTo ε cs res := by
  have ho : Arith.Ordered A := by
    refine ⟨fun a => ?_, fun a b c h1 h2 => ?_⟩
    · rw [← Bool.not_eq_true, hgt]; exact greater_irrefl _
    · rw [hgt] at *; exact greater_trans _ _ _ h1 h2
  obtain ⟨P, N, hcl, hr⟩ := C108_dslm ho hf size maxPos maxNeg maxSl cs res h
  exact ⟨P, N, hcl, FloatLists.produces_upTo (val := val) hgt hz rfl rfl (fun _ _ => Iff.rfl)
    (fun es c he hc => hnear P N hcl es c he hc) hr.run⟩
end

/-! ### The exact arithmetic -/

section
variable {df : Frame} {target : Str × Str}

theorem leftRows_le (D : Bits) (l : List Bits) : leftRows D l ≤ D.ones := by
  have h : D.ones = ((List.range D.length).filter (fun i => D.get i)).length := by
    apply Bits.ones_eq_length
    · exact List.nodup_range.filter _
    · intro i
      rw [List.mem_filter, List.mem_range]
      constructor
      · exact fun h => h.2
      · refine fun h => ⟨?_, h⟩
        by_contra hc
        rw [Bits.get_ge _ _ (by omega)] at h; cases h
  rw [h]
  unfold leftRows
  rw [← List.countP_eq_length_filter, ← List.countP_eq_length_filter]
  apply List.countP_mono_left
  intro i _ hi
  simp only [Bool.and_eq_true] at hi
  exact hi.1

theorem newRows_le (D b : Bits) (l : List Bits) : newRows D b l ≤ leftRows D l := by
  unfold newRows leftRows
  rw [← List.countP_eq_length_filter, ← List.countP_eq_length_filter]
  apply List.countP_mono_left
  intro i _ hi
  simp only [Bool.and_eq_true] at hi ⊢
  exact ⟨hi.1.1, hi.2⟩

theorem computedDefault_exact (beta : ℝ) {P N : Bits} (hP : P.ones ≠ 0) (hN : N.ones ≠ 0) (pos neg : Nat) :
    computedDefault (exactArith beta) P N pos neg = .fin (-(pos : ℝ) * Real.logb 2 ((P.ones : ℝ) / (P.ones + N.ones : Nat)) -
      (neg : ℝ) * Real.logb 2 ((N.ones : ℝ) / (P.ones + N.ones : Nat))) := by
  have hp : (0 : ℝ) < (P.ones : ℝ) / ((P.ones + N.ones : Nat) : ℝ) := by
    have : 0 < P.ones := Nat.pos_of_ne_zero hP
    positivity
  have hn : (0 : ℝ) < (N.ones : ℝ) / ((P.ones + N.ones : Nat) : ℝ) := by
    have : 0 < N.ones := Nat.pos_of_ne_zero hN
    positivity
  unfold computedDefault exactArith
  simp only [hp.ne', hn.ne', hp.not_gt, hn.not_gt, if_false, RVal.mulFin, RVal.sub, RVal.add]
  congr 1
  ring

theorem computedOwn_exact (beta : ℝ) (p n : Nat) (h : p + n ≠ 0) : computedOwn (exactArith beta) p n = .fin (ownCode p n) := by
  have hq : ∀ k : Nat, k ≠ 0 → (0 : ℝ) < (k : ℝ) / ((p + n : Nat) : ℝ) := by
    intro k hk
    have h1 : 0 < k := Nat.pos_of_ne_zero hk
    have h2 : 0 < p + n := Nat.pos_of_ne_zero h
    positivity
  unfold computedOwn exactArith ownCode
  simp only
  split
  · rename_i h0
    have := hq n (by omega)
    simp only [this.ne', this.not_gt, if_false, RVal.mulFin, RVal.add]
    subst h0
    congr 1
    simp
    ring
  · rename_i hp
    have h1 := hq p hp
    split
    · rename_i h0
      simp only [h1.ne', h1.not_gt, if_false, RVal.mulFin, RVal.add]
      subst h0
      congr 1
      simp
      ring
    · rename_i hn
      have h2 := hq n hn
      simp only [h1.ne', h1.not_gt, h2.ne', h2.not_gt, if_false, RVal.mulFin, RVal.add, RVal.sub]
      congr 1
      ring

theorem fold_exact (beta : ℝ) (l : List Nat) (hl : ∀ k ∈ l, k ≠ 0) (r : RVal) :
    l.foldl (fun r k => (exactArith beta).sub r ((exactArith beta).logN k)) r =
      r.add (.fin (-(l.map (fun k : Nat => Real.logb 2 (k : ℝ))).sum)) := by
  induction l generalizing r with
  | nil => cases r <;> simp [RVal.add]
  | cons k l ih =>
    rw [List.foldl_cons, ih (fun k hk => hl k (by simp [hk]))]
    have hk := hl k (by simp)
    cases r <;> simp [exactArith, hk, RVal.sub, RVal.add]
    ring

theorem dedup_pos {df : Frame} (hw : WF df) (hrows : df.nrows ≠ 0) {a : Str} (ha : a ∈ df.cols.map (·.1)) :
    ((df.cols.lookup a).getD []).dedup.length ≠ 0 := by
  cases hc : df.cols.lookup a with
  | none =>
    rw [List.lookup_eq_none_iff] at hc
    obtain ⟨c, h1, h2⟩ := List.mem_map.1 ha
    have := hc c h1
    simp [h2] at this
  | some col =>
    have hm : (a, col) ∈ df.cols := by
      obtain ⟨l1, l2, he, -⟩ := List.lookup_eq_some_iff.1 hc
      rw [he]; simp
    have hlen : col.length = df.nrows := hw _ hm
    simp only [Option.getD_some]
    intro h0
    rw [List.length_eq_zero_iff] at h0
    cases col with
    | nil => exact hrows hlen.symm
    | cons v col => have : v ∈ (v :: col).dedup := by simp
                    rw [h0] at this; cases this

theorem computedModel_exact (beta : ℝ) (hw : WF df) (hrows : df.nrows ≠ 0) (es : List Cand) (s : Subgroup)
    (hs : ∀ x ∈ s.description.sels, x.attr ∈ df.cols.map (·.1)) :
    computedModel (exactArith beta) df es s = if df.cols.length - 1 < s.description.sels.length then .inf else
      .fin (-(universalCode (es.length + 1) - universalCode es.length) - descriptionCode df s) := by
  unfold computedModel
  rw [fold_exact beta _ (by
    intro k hk
    obtain ⟨x, hx, rfl⟩ := List.mem_map.1 hk
    exact dedup_pos hw hrows (hs x hx))]
  split
  · rename_i h
    have := Nat.choose_eq_zero_of_lt h
    simp [exactArith, this, RVal.sub, RVal.add]
  · rename_i h
    have h0 : (df.cols.length - 1).choose s.description.sels.length ≠ 0 := by
      rw [Ne, Nat.choose_eq_zero_iff]; exact h
    simp only [exactArith, h0, if_false, RVal.sub, RVal.add, descriptionCode, List.map_map, Function.comp_def]
    congr 1
    ring

theorem nan_sub (a : RVal) : RVal.sub .nan a = .nan := by cases a <;> rfl
theorem add_nan (a : RVal) : RVal.add a .nan = .nan := by cases a <;> rfl

/-- **C108.** With exact arithmetic the computed gain is the gain of the rules: on data with rows and for a candidate whose attributes are
columns. So the model over any arithmetic agrees with `C41`. -/
theorem C108_exact (beta : ℝ) (hw : WF df) (hrows : df.nrows ≠ 0) {P N : Bits} (hPN : P.ones + N.ones = P.length)
    (es : List Cand) (c : Cand) (hc : ∀ x ∈ c.sub.description.sels, x.attr ∈ df.cols.map (·.1)) :
    computedGain (exactArith beta) df P N es c = gainSpec df beta P N es c := by
  have h1 : newPos P es c ≤ leftRows P (es.map (·.pos)) := newRows_le _ _ _
  have h2 : newNeg N es c ≤ leftRows N (es.map (·.neg)) := newRows_le _ _ _
  have h3 : leftRows P (es.map (·.pos)) ≤ P.ones := leftRows_le _ _
  have h4 : leftRows N (es.map (·.neg)) ≤ N.ones := leftRows_le _ _
  unfold computedGain gainSpec
  simp only
  split
  · rfl
  · rename_i h0
    rw [computedModel_exact beta hw hrows es c.sub hc, computedOwn_exact beta _ _ h0]
    by_cases hone : P.ones = 0 ∨ N.ones = 0
    · rw [if_pos hone]
      have hd : computedDefault (exactArith beta) P N (leftRows P (es.map (·.pos))) (leftRows N (es.map (·.neg))) = .nan := by
        rcases hone with h | h
        · have : leftRows P (es.map (·.pos)) = 0 := by omega
          rw [this]
          unfold computedDefault
          simp [exactArith, h, RVal.mulFin, nan_sub]
        · have : leftRows N (es.map (·.neg)) = 0 := by omega
          rw [this]
          unfold computedDefault
          simp [exactArith, h, RVal.mulFin, RVal.sub]
      rw [hd]
      simp only [exactArith, nan_sub, add_nan, RVal.divPos]
    · rw [if_neg hone]
      rw [not_or] at hone
      rw [computedDefault_exact beta hone.1 hone.2, computedDefault_exact beta hone.1 hone.2, hPN, Nat.cast_sub h1, Nat.cast_sub h2]
      split
      · rfl
      · simp only [exactArith, RVal.add, RVal.sub, RVal.divPos]
        congr 2
        ring

theorem exact_ordered (beta : ℝ) : Arith.Ordered (exactArith beta) :=
  ⟨fun a => by rw [← Bool.not_eq_true]; exact RVal.gt_irrefl a, fun a b c => RVal.gt_trans a b c⟩
end
end Verif
