import Verif.Lemmas.FloatListsError
import Verif.Props.FloatLists
/-! C108, the rounding errors: how far the computed gain can be from the exact one. -/
namespace Verif
open Spec
section
variable {A : Arith RVal} {beta u : ℝ} {df : Frame} {target : Str × Str}

theorem approx_model (hA : Arith.Standard A beta u) (hu : 0 ≤ u) (hw : WF df) (hrows : df.nrows ≠ 0)
    (es : List Cand) (s : Subgroup) (hs : ∀ x ∈ s.description.sels, x.attr ∈ df.cols.map (·.1))
    (hlen : s.description.sels.length ≤ df.cols.length - 1) :
    FloatLists.Approx u (4 + s.description.sels.length) (computedModel A df es s)
      (-(universalCode (es.length + 1) - universalCode es.length) - descriptionCode df s)
      (|universalCode es.length| + |universalCode (es.length + 1)| + |universalCode s.description.sels.length| +
        |Real.logb 2 ((df.cols.length - 1).choose s.description.sels.length : ℝ)| +
        (s.description.sels.map (fun s => |Real.logb 2 (((df.cols.lookup s.attr).getD []).dedup.length : ℝ)|)).sum) := by
  have h0 : (df.cols.length - 1).choose s.description.sels.length ≠ 0 := by
    rw [Ne, Nat.choose_eq_zero_iff]; omega
  have c1 := FloatLists.Rel.approx (hA.code es.length)
  have c2 := FloatLists.Rel.approx (hA.code (es.length + 1))
  have c3 := FloatLists.Rel.approx (hA.code s.description.sels.length)
  have c4 := FloatLists.Rel.approx (hA.logN _ h0)
  have d1 := FloatLists.approx_sub hA hu c1 c2
  have d2 := FloatLists.approx_sub hA hu d1 (c3.mono hu (by norm_num))
  have d3 := FloatLists.approx_sub hA hu d2 (c4.mono hu (by norm_num))
  have d4 := FloatLists.approx_fold hA hu
    (s.description.sels.map (fun x => ((df.cols.lookup x.attr).getD []).dedup.length)) (by
      intro k hk
      obtain ⟨x, hx, rfl⟩ := List.mem_map.1 hk
      exact dedup_pos hw hrows (hs x hx)) _ (by norm_num) d3
  unfold computedModel descriptionCode
  rw [List.length_map, List.map_map, List.map_map] at d4
  convert d4 using 1
  all_goals
    simp only [Function.comp_def]
    try ring

theorem approx_gain (hA : Arith.Standard A beta u) (hu : 0 ≤ u) (hu1 : u ≤ 1 / 16) (hw : WF df) (hrows : df.nrows ≠ 0)
    {P N : Bits} (hPN : P.ones + N.ones = P.length) (hP : P.ones ≠ 0) (hN : N.ones ≠ 0) (es : List Cand) (c : Cand)
    (hc : ∀ x ∈ c.sub.description.sels, x.attr ∈ df.cols.map (·.1))
    (hlen : c.sub.description.sels.length ≤ df.cols.length - 1) (h0 : newPos P es c + newNeg N es c ≠ 0) :
    ∃ g, gainSpec df beta P N es c = .fin g ∧
      FloatLists.Approx u (c.sub.description.sels.length + 7) (computedGain A df P N es c) g
        (gainWeight df P N es c / ((newPos P es c + newNeg N es c : Nat) : ℝ) ^ beta) := by
  have h1 : newPos P es c ≤ leftRows P (es.map (·.pos)) := newRows_le _ _ _
  have h2 : newNeg N es c ≤ leftRows N (es.map (·.neg)) := newRows_le _ _ _
  unfold gainSpec computedGain gainWeight
  simp only
  rw [if_neg h0, if_neg h0, if_neg (by simp [hP, hN]), if_neg (by omega)]
  refine ⟨_, rfl, ?_⟩
  have b1 := FloatLists.approx_cost hA hu hu1 P.ones N.ones (P.ones + N.ones) (leftRows P (es.map (·.pos)))
    (leftRows N (es.map (·.neg))) hP hN (by omega)
  have b2 := FloatLists.approx_cost hA hu hu1 P.ones N.ones (P.ones + N.ones) (leftRows P (es.map (·.pos)) - newPos P es c)
    (leftRows N (es.map (·.neg)) - newNeg N es c) hP hN (by omega)
  have b3 := FloatLists.approx_sub hA hu b1 b2
  have b4 := FloatLists.approx_sub hA hu b3 (FloatLists.approx_own hA hu hu1 _ _ h0)
  have b5 := FloatLists.approx_add hA hu (k := c.sub.description.sels.length + 5)
    ((approx_model hA hu hw hrows es c.sub hc hlen).mono hu (by omega)) (b4.mono hu (by omega))
  have b6 := FloatLists.approx_divPow hA hu (newPos P es c + newNeg N es c) b5
  rw [hPN] at b6
  unfold computedDefault
  rw [hPN]
  convert b6 using 2
  rw [Nat.cast_sub h1, Nat.cast_sub h2]
  ring

theorem special_sub_inf (hA : Arith.Standard A beta u) (r : ℝ) : A.sub .inf (.fin r) = .inf := by
  rw [hA.special_sub _ _ (.inl (fun _ h => by cases h))]; rfl

/-- **C108.** The error of the gain. In an arithmetic whose operations have a relative error of at most `u ≤ 1/16`, the computed gain of a
candidate with `m` selectors differs from the exact one by at most `((1+u)^(m+7) - 1)` times the total size of its terms divided
by the power of the rows newly covered; infinite gains and gains that are not numbers are computed as such. -/
theorem C108_error (hA : Arith.Standard A beta u) (hu : 0 ≤ u) (hu1 : u ≤ 1 / 16) (hw : WF df) (hrows : df.nrows ≠ 0)
    {P N : Bits} (hPN : P.ones + N.ones = P.length) (es : List Cand) (c : Cand)
    (hc : ∀ x ∈ c.sub.description.sels, x.attr ∈ df.cols.map (·.1)) :
    Near (gainError u beta df P N es c) (computedGain A df P N es c) (gainSpec df beta P N es c) := by
  by_cases h0 : newPos P es c + newNeg N es c = 0
  · unfold gainSpec computedGain
    simp only
    rw [if_pos h0, if_pos h0, hA.zero]
    have hk : 1 ≤ (1 + u) ^ (c.sub.description.sels.length + 7) := one_le_pow₀ (by linarith)
    have hwt : 0 ≤ gainWeight df P N es c := by
      unfold gainWeight rowsWeight
      simp only
      have hsum : 0 ≤ (c.sub.description.sels.map
          (fun s => |Real.logb 2 (((df.cols.lookup s.attr).getD []).dedup.length : ℝ)|)).sum :=
        List.sum_nonneg (by intro x hx; obtain ⟨y, -, rfl⟩ := List.mem_map.1 hx; exact abs_nonneg _)
      positivity
    show |(0 : ℝ) - 0| ≤ gainError u beta df P N es c
    rw [sub_zero, abs_zero]
    unfold gainError
    exact mul_nonneg (by linarith) (div_nonneg hwt (Real.rpow_nonneg (Nat.cast_nonneg _) _))
  · by_cases hone : P.ones = 0 ∨ N.ones = 0
    · have h3 : leftRows P (es.map (·.pos)) ≤ P.ones := leftRows_le _ _
      have h4 : leftRows N (es.map (·.neg)) ≤ N.ones := leftRows_le _ _
      have h5 : newPos P es c ≤ leftRows P (es.map (·.pos)) := newRows_le _ _ _
      have h6 : newNeg N es c ≤ leftRows N (es.map (·.neg)) := newRows_le _ _ _
      have hnan : ∀ a : RVal, A.sub .nan a = .nan := by
        intro a; rw [hA.special_sub _ _ (.inl (fun _ h => by cases h)), nan_sub]
      have hquot : A.quot 0 (P.ones + N.ones) = .fin 0 := by
        obtain ⟨s, h1, h2⟩ := hA.quot 0 (P.ones + N.ones) (by omega)
        rw [h1]
        simp only [Nat.cast_zero, zero_div, abs_zero, mul_zero, sub_zero] at h2
        rw [abs_nonpos_iff.1 h2]
      have hd : computedDefault A P N (leftRows P (es.map (·.pos))) (leftRows N (es.map (·.neg))) = .nan := by
        unfold computedDefault
        rcases hone with h | h
        · have : leftRows P (es.map (·.pos)) = 0 := by omega
          rw [this]
          have e : A.scaleNeg 0 (A.logF (A.quot P.ones (P.ones + N.ones))) = .nan := by
            have hq := hquot
            rw [h] at hq ⊢
            rw [hq, hA.logF_zero, hA.special_scaleNeg _ _ (fun _ h => by cases h)]
            simp [RVal.mulFin]
          rw [e, hnan]
        · have : leftRows N (es.map (·.neg)) = 0 := by omega
          rw [this]
          have e : A.scale 0 (A.logF (A.quot N.ones (P.ones + N.ones))) = .nan := by
            have hq := hquot
            rw [h] at hq ⊢
            rw [hq, hA.logF_zero, hA.special_scale _ _ (fun _ h => by cases h)]
            simp [RVal.mulFin]
          rw [e, hA.special_sub _ _ (.inr (fun _ h => by cases h))]
          rfl
      unfold gainSpec computedGain
      simp only
      rw [if_neg h0, if_neg h0, if_pos hone, hd, hnan, hnan, hA.special_add _ _ (.inr (fun _ h => by cases h)), add_nan,
        hA.special_divPow _ _ (fun _ h => by cases h)]
      trivial
    · have hone' := not_or.1 hone
      by_cases hlen : df.cols.length - 1 < c.sub.description.sels.length
      · have h1 : newPos P es c ≤ leftRows P (es.map (·.pos)) := newRows_le _ _ _
        have hm : computedModel A df es c.sub = .inf := by
          unfold computedModel
          rw [Nat.choose_eq_zero_of_lt hlen, hA.logN_zero]
          have hfold : ∀ l : List Nat, (∀ k ∈ l, k ≠ 0) → l.foldl (fun r k => A.sub r (A.logN k)) .inf = .inf := by
            intro l
            induction l with
            | nil => intro _; rfl
            | cons k l ih =>
              intro hl
              obtain ⟨s, h1, -⟩ := hA.logN k (hl k (by simp))
              rw [List.foldl_cons, h1, special_sub_inf hA]
              exact ih (fun k hk => hl k (by simp [hk]))
          obtain ⟨s1, e1, -⟩ := hA.code es.length
          obtain ⟨s2, e2, -⟩ := hA.code (es.length + 1)
          obtain ⟨s3, e3, -⟩ := hA.code c.sub.description.sels.length
          obtain ⟨s4, e4, -⟩ := hA.sub s1 s2
          obtain ⟨s5, e5, -⟩ := hA.sub s4 s3
          rw [e1, e2, e3, e4, e5, hA.special_sub _ _ (.inr (fun _ h => by cases h))]
          exact hfold _ (by
            intro k hk
            obtain ⟨x, hx, rfl⟩ := List.mem_map.1 hk
            exact dedup_pos hw hrows (hc x hx))
        obtain ⟨t1, f1, -⟩ := FloatLists.approx_cost hA hu hu1 P.ones N.ones (P.ones + N.ones) (leftRows P (es.map (·.pos)))
          (leftRows N (es.map (·.neg))) hone'.1 hone'.2 (by omega)
        obtain ⟨t2, f2, -⟩ := FloatLists.approx_cost hA hu hu1 P.ones N.ones (P.ones + N.ones)
          (leftRows P (es.map (·.pos)) - newPos P es c) (leftRows N (es.map (·.neg)) - newNeg N es c) hone'.1 hone'.2 (by omega)
        obtain ⟨t3, f3, -⟩ := FloatLists.approx_own hA hu hu1 _ _ h0
        obtain ⟨t4, f4, -⟩ := hA.sub t1 t2
        obtain ⟨t5, f5, -⟩ := hA.sub t4 t3
        unfold gainSpec computedGain computedDefault
        simp only
        rw [if_neg h0, if_neg h0, if_neg hone, if_pos hlen, hm, f1, f2, f3, f4, f5, hA.special_add _ _ (.inl (fun _ h => by cases h)),
          hA.special_divPow _ _ (fun _ h => by cases h)]
        trivial
      · obtain ⟨g, hg, s, hs, he, -⟩ := approx_gain hA hu hu1 hw hrows hPN hone'.1 hone'.2 es c hc (by omega) h0
        rw [hg, hs]
        exact he

theorem near_mono {ε ε' : ℝ} (he : ε ≤ ε') {a b : RVal} (h : Near ε a b) : Near ε' a b := by
  cases a <;> cases b <;> simp_all [Near]
  linarith

theorem classes_ones {P N : Bits} (hcl : IsClasses df target P N) : P.ones + N.ones = P.length := by
  have e : N = Bits.not P := by
    apply Bits.ext
    · rw [hcl.lenN, Bits.len_not]; exact hcl.lenP.symm
    · intro i
      rw [Bool.eq_iff_iff, hcl.neg, Bits.get_not, show List.length P = df.nrows from hcl.lenP]
      simp only [Bool.and_eq_true, decide_eq_true_eq, Bool.not_eq_true', ← hcl.pos]
      simp
  rw [e]; exact ones_not P

/-- **C108.** GMSL in an arithmetic with relative errors of at most `u`: the lists obey the exact rule up to any `ε` that is at least the
error bound of every candidate after every selection of candidates. -/
theorem C108_rounded_gmsl (hA : Arith.Standard A beta u) (hu : 0 ≤ u) (hu1 : u ≤ 1 / 16) (hf : NominalFrame df target)
    (hrows : df.nrows ≠ 0) (ε : ℝ) (maxSl : Nat) (cs : List Cand) (hcs : ∀ c ∈ cs, Fits df c)
    (hε : ∀ P N, IsClasses df target P N → ∀ es c, (∀ e ∈ es, e ∈ cs) → c ∈ cs → gainError u beta df P N es c ≤ ε)
    (res : List SubgroupList) (h : listFit (FloatLists.gmsl A df) maxSl df target (.ok cs) = .ok res) :
    ∃ P N, IsClasses df target P N ∧ (gmslRule df beta P N).ProducesUpTo ε cs res := by
  refine C108_near_gmsl (val := id) hf beta ε (fun a b => by rw [hA.gt]; exact (greater_iff a b).symm) hA.zero maxSl cs ?_ res h
  intro P N hcl es c he hc
  have hPN := classes_ones hcl
  have hn := C108_error hA hu hu1 hf.wf hrows hPN es c (hcs c hc).attrs
  have hb := hε P N hcl es c he hc
  exact near_mono hb hn

/-- **C108.** The same for PSLD. -/
theorem C108_rounded_psld (hA : Arith.Standard A beta u) (hu : 0 ≤ u) (hu1 : u ≤ 1 / 16) (hf : NominalFrame df target)
    (hrows : df.nrows ≠ 0) (ε : ℝ) (size maxSl : Nat) (cs : List Cand) (hcs : ∀ c ∈ cs, Fits df c)
    (hε : ∀ P N, IsClasses df target P N → ∀ es c, (∀ e ∈ es, e ∈ cs) → c ∈ cs → gainError u beta df P N es c ≤ ε)
    (res : List SubgroupList) (h : listFit (FloatLists.psld A df size) maxSl df target (.ok cs) = .ok res) :
    ∃ P N, IsClasses df target P N ∧ (psldRule df beta size P N).ProducesUpTo ε cs res := by
  refine C108_near_psld (val := id) hf beta ε (fun a b => by rw [hA.gt]; exact (greater_iff a b).symm) hA.zero size maxSl cs ?_ res h
  intro P N hcl es c he hc
  exact near_mono (hε P N hcl es c he hc) (C108_error hA hu hu1 hf.wf hrows (classes_ones hcl) es c (hcs c hc).attrs)

/-- **C108.** The bound in simpler terms: while `(m + 7) u ≤ 1`, the error is at most `2 (m + 7) u` times the size of the terms. -/
theorem C108_error_size (hu : 0 ≤ u) {P N : Bits} (es : List Cand) (c : Cand)
    (hm : ((c.sub.description.sels.length + 7 : Nat) : ℝ) * u ≤ 1) :
    gainError u beta df P N es c ≤ 2 * ((c.sub.description.sels.length + 7 : Nat) : ℝ) * u *
      (gainWeight df P N es c / ((newPos P es c + newNeg N es c : Nat) : ℝ) ^ beta) := by
  have hwt : 0 ≤ gainWeight df P N es c := by
    unfold gainWeight rowsWeight
    simp only
    have hsum : 0 ≤ (c.sub.description.sels.map
        (fun s => |Real.logb 2 (((df.cols.lookup s.attr).getD []).dedup.length : ℝ)|)).sum :=
      List.sum_nonneg (by intro x hx; obtain ⟨y, -, rfl⟩ := List.mem_map.1 hx; exact abs_nonneg _)
    positivity
  unfold gainError
  apply mul_le_mul_of_nonneg_right _ (div_nonneg hwt (Real.rpow_nonneg (Nat.cast_nonneg _) _))
  generalize c.sub.description.sels.length + 7 = k at *
  have hku : 0 ≤ (k : ℝ) * u := mul_nonneg (Nat.cast_nonneg _) hu
  have h1 : (1 + u) ^ k ≤ Real.exp ((k : ℝ) * u) := by
    rw [Real.exp_nat_mul]
    exact pow_le_pow_left₀ (by linarith) (by linarith [Real.add_one_le_exp u]) _
  have h2 := Real.abs_exp_sub_one_le (x := (k : ℝ) * u) (by rw [abs_of_nonneg hku]; exact hm)
  rw [abs_of_nonneg hku] at h2
  have h3 := (abs_le.1 h2).2
  linarith

/-- the gain of DSLM after the two reductions -/
theorem approx_dslm (hA : Arith.Standard A beta u) (hu : 0 ≤ u) {k : Nat} {x y z : RVal} {g po no w : ℝ} (hg : FloatLists.Approx u k x g w)
    (hy : FloatLists.Approx u 1 y po |po|) (hz : FloatLists.Approx u 1 z no |no|) :
    FloatLists.Approx u (k + 6) (A.mul (A.mul x (A.sub A.one y)) (A.sub A.one z)) (g * (1 - po) * (1 - no))
      (w * (1 + |po|) * (1 + |no|)) := by
  have h1 : FloatLists.Approx u 1 A.one 1 1 := ⟨1, hA.one, by simpa using hu, by simp⟩
  have a := FloatLists.approx_sub hA hu h1 hy
  have b := FloatLists.approx_sub hA hu h1 hz
  have c := FloatLists.approx_mul hA hu (FloatLists.approx_mul hA hu hg a) b
  exact c

theorem approx_overlap (hA : Arith.Standard A beta u) (hu : 0 ≤ u) (d : RVal) (q : Rat) (hd : d = .fin q) (es : List Bits) (b : Bits) :
    FloatLists.Approx u 1 (computedOverlap A d es b) ((if b.ones = 0 then q else overlap es b : Rat) : ℝ)
      |((if b.ones = 0 then q else overlap es b : Rat) : ℝ)| := by
  unfold computedOverlap overlap
  split
  · refine ⟨(q : ℝ), hd, ?_, le_refl _⟩
    rw [sub_self, abs_zero, pow_one]
    have := abs_nonneg (q : ℝ)
    have e : 1 + u - 1 = u := by ring
    rw [e]; positivity
  · split
    · rename_i h0
      refine ⟨0, hA.zero, ?_, le_refl _⟩
      rw [h0]
      simp
    · rename_i h0
      have := FloatLists.Rel.approx (hA.quot (es.map (fun e => (e.and b).ones)).sum _ h0)
      rw [Rat.cast_div, Rat.cast_natCast, Rat.cast_natCast]
      exact this

/-- **C108.** DSLM: the error of the reduced gain of a candidate with no more selectors than attributes, on data with both classes. -/
theorem C108_error_dslm (hA : Arith.Standard A beta u) (hu : 0 ≤ u) (hu1 : u ≤ 1 / 16) (hw : WF df) (hrows : df.nrows ≠ 0)
    {P N : Bits} (hPN : P.ones + N.ones = P.length) (hP : P.ones ≠ 0) (hN : N.ones ≠ 0) (size : Nat) (maxPos maxNeg : RVal)
    (es : List Cand) (c : Cand) (hc : ∀ x ∈ c.sub.description.sels, x.attr ∈ df.cols.map (·.1))
    (hlen : c.sub.description.sels.length ≤ df.cols.length - 1) :
    Near (((1 + u) ^ (c.sub.description.sels.length + 13) - 1) *
        (4 * (gainWeight df P N es c / ((newPos P es c + newNeg N es c : Nat) : ℝ) ^ beta)))
      ((dslmRuleF A df size maxPos maxNeg P N).gain es c) ((dslmRule df beta size 1 1 P N).gain es c) := by
  have hwt : 0 ≤ gainWeight df P N es c / ((newPos P es c + newNeg N es c : Nat) : ℝ) ^ beta := by
    refine div_nonneg ?_ (Real.rpow_nonneg (Nat.cast_nonneg _) _)
    unfold gainWeight rowsWeight
    simp only
    have hsum : 0 ≤ (c.sub.description.sels.map
        (fun s => |Real.logb 2 (((df.cols.lookup s.attr).getD []).dedup.length : ℝ)|)).sum :=
      List.sum_nonneg (by intro x hx; obtain ⟨y, -, rfl⟩ := List.mem_map.1 hx; exact abs_nonneg _)
    positivity
  have hk : 1 ≤ (1 + u) ^ (c.sub.description.sels.length + 13) := one_le_pow₀ (by linarith)
  show Near _ (if _ then _ else _) (if _ then _ else _)
  split
  · rw [hA.zero]
    show |(0 : ℝ) - 0| ≤ _
    rw [sub_zero, abs_zero]
    exact mul_nonneg (by linarith) (by linarith)
  · rename_i h0
    obtain ⟨g, hg, ha⟩ := approx_gain hA hu hu1 hw hrows hPN hP hN es c hc hlen h0
    have hp := approx_overlap hA hu A.one 1 (by rw [hA.one]; norm_num) (es.map (·.pos)) c.pos
    have hn := approx_overlap hA hu A.zero 0 (by rw [hA.zero]; norm_num) (es.map (·.neg)) c.neg
    have hpe : (if c.pos.ones = 0 then 1 else overlap (es.map (·.pos)) c.pos : Rat) = posOverlap es c := rfl
    have hne : (if c.neg.ones = 0 then 0 else overlap (es.map (·.neg)) c.neg : Rat) = negOverlap es c := rfl
    rw [hpe] at hp
    rw [hne] at hn
    obtain ⟨s, hs, he, -⟩ := approx_dslm hA hu ha hp hn
    rw [hs, hg]
    refine le_trans he ?_
    have hp1 : |((posOverlap es c : Rat) : ℝ)| ≤ 1 := by
      have h1 : (0 : Rat) ≤ posOverlap es c := by unfold posOverlap overlap; split <;> positivity
      have h2 := posOverlap_le es c
      rw [abs_of_nonneg (by exact_mod_cast h1)]
      exact_mod_cast h2
    have hn1 : |((negOverlap es c : Rat) : ℝ)| ≤ 1 := by
      have h1 : (0 : Rat) ≤ negOverlap es c := by unfold negOverlap overlap; split <;> positivity
      have h2 := negOverlap_le es c
      rw [abs_of_nonneg (by exact_mod_cast h1)]
      exact_mod_cast h2
    apply mul_le_mul_of_nonneg_left _ (by linarith)
    generalize gainWeight df P N es c / ((newPos P es c + newNeg N es c : Nat) : ℝ) ^ beta = w at *
    have q1 : w * (1 + |((posOverlap es c : Rat) : ℝ)|) ≤ w * 2 := mul_le_mul_of_nonneg_left (by linarith) hwt
    have q2 : w * (1 + |((posOverlap es c : Rat) : ℝ)|) * (1 + |((negOverlap es c : Rat) : ℝ)|) ≤ w * 2 * 2 :=
      mul_le_mul q1 (by linarith) (by positivity) (by linarith)
    linarith

/-- **C108.** Data with rows of one class only: in such an arithmetic no subgroup is added to any list of GMSL or PSLD. -/
theorem C108_one_class (hA : Arith.Standard A beta u) (hu : 0 ≤ u) (hu1 : u ≤ 1 / 16) (hf : NominalFrame df target)
    (hrows : df.nrows ≠ 0) (size maxSl : Nat) (cs : List Cand) (hcs : ∀ c ∈ cs, Fits df c)
    (hone : (∀ i, ¬ MatchesAt df (targetSel target) i) ∨ ∀ i, i < df.nrows → MatchesAt df (targetSel target) i)
    (res : List SubgroupList) (h : listFit (FloatLists.gmsl A df) maxSl df target (.ok cs) = .ok res ∨
      listFit (FloatLists.psld A df size) maxSl df target (.ok cs) = .ok res) : ∀ l ∈ res, l.subs = [] := by
  have ho : Arith.Ordered A := by
    refine ⟨fun a => ?_, fun a b c => ?_⟩
    · rw [hA.gt, ← Bool.not_eq_true]; exact RVal.gt_irrefl a
    · rw [hA.gt]; exact RVal.gt_trans a b c
  intro l hl
  have key : ∀ (R : Rule RVal) (P N : Bits), IsClasses df target P N → ListResult R maxSl P N cs res → R.zero = .fin 0 →
      (∀ a b, R.gt a b ↔ Greater a b) → R.gain = computedGain A df P N → l.subs = [] := by
    intro R P N hcl hr hz hgt hgain
    rw [hr.subs l hl]
    cases he : entriesOf l with
    | nil => rfl
    | cons c es =>
      exfalso
      have h1 := (produces_pick hr.run hl (k := 0) (c := c) (by rw [he]; rfl)).2
      have hmem : c ∈ cs := (produces_choice hr.run).1.subset (List.mem_flatMap.2 ⟨l, hl, by rw [he]; simp⟩)
      have hzero : P.ones = 0 ∨ N.ones = 0 := by
        rcases hone with h | h
        · exact .inl (ones_zero_of fun i hi => h i ((hcl.pos i).1 hi))
        · exact .inr (ones_zero_of fun i hi => ((hcl.neg i).1 hi).2 (h i ((hcl.neg i).1 hi).1))
      rw [hgt, hz, hgain] at h1
      have hn := C108_error hA hu hu1 hf.wf hrows (classes_ones hcl) ((entriesOf l).take 0) c (hcs c hmem).attrs
      have hx := gt_gain_classes (df := df) (beta := beta) (es := (entriesOf l).take 0) (c := c) hzero
      by_cases h0 : newPos P ((entriesOf l).take 0) c + newNeg N ((entriesOf l).take 0) c = 0
      · unfold computedGain at h1
        simp only at h1
        rw [if_pos h0, hA.zero] at h1
        exact greater_irrefl _ h1
      · rw [hx.2 h0] at hn
        cases hv : computedGain A df P N ((entriesOf l).take 0) c <;> rw [hv] at hn h1
        · exact absurd h1 (by simp [Greater])
        all_goals exact absurd hn (by simp [Near])
  rcases h with h | h
  · obtain ⟨P, N, hcl, hr⟩ := C108_gmsl ho hf maxSl cs res h
    exact key _ P N hcl hr hA.zero (fun a b => by show A.gt a b = true ↔ _; rw [hA.gt]; exact (greater_iff a b).symm) rfl
  · obtain ⟨P, N, hcl, hr⟩ := C108_psld ho hf size maxSl cs res h
    exact key _ P N hcl hr hA.zero (fun a b => by show A.gt a b = true ↔ _; rw [hA.gt]; exact (greater_iff a b).symm) rfl

/-- **C108.** DSLM: if `<=` compares numbers, the exact overlaps of the subgroups of a list exceed the limits by a relative error of at most `u`. -/
theorem C108_limit (hA : Arith.Standard A beta u) (hle : ∀ a b : ℝ, A.le (.fin a) (.fin b) = true ↔ a ≤ b) (hu : 0 ≤ u)
    (hf : NominalFrame df target) (size : Nat) (maxPos maxNeg : ℝ) (maxSl : Nat) (cs : List Cand) (res : List SubgroupList)
    (h : listFit (FloatLists.dslm A df size (.fin maxPos) (.fin maxNeg)) maxSl df target (.ok cs) = .ok res) :
    ∀ l ∈ res, ∀ (k : Nat) (c : Cand), (entriesOf l)[k]? = some c →
      (posOverlap ((entriesOf l).take k) c : ℝ) * (1 - u) ≤ maxPos ∧ (negOverlap ((entriesOf l).take k) c : ℝ) * (1 - u) ≤ maxNeg := by
  have ho : Arith.Ordered A := by
    refine ⟨fun a => ?_, fun a b c => ?_⟩
    · rw [hA.gt, ← Bool.not_eq_true]; exact RVal.gt_irrefl a
    · rw [hA.gt]; exact RVal.gt_trans a b c
  intro l hl k c hk
  obtain ⟨P, N, -, hr⟩ := C108_dslm ho hf size (.fin maxPos) (.fin maxNeg) maxSl cs res h
  obtain ⟨-, h1, h2⟩ := (produces_pick hr.run hl hk).1
  have key : ∀ (x : RVal) (q : Rat) (m : ℝ), 0 ≤ q → FloatLists.Approx u 1 x (q : ℝ) |(q : ℝ)| → A.le x (.fin m) = true →
      (q : ℝ) * (1 - u) ≤ m := by
    intro x q m hq hx hm
    obtain ⟨s, rfl, h1, -⟩ := hx
    rw [hle] at hm
    rw [abs_of_nonneg (by exact_mod_cast hq : (0 : ℝ) ≤ q), pow_one] at h1
    have := (abs_le.1 h1).1
    linarith
  refine ⟨key _ (posOverlap ((entriesOf l).take k) c) _ ?_ ?_ h1, key _ (negOverlap ((entriesOf l).take k) c) _ ?_ ?_ h2⟩
  · unfold posOverlap overlap; split <;> positivity
  · exact approx_overlap hA hu A.one 1 (by rw [hA.one]; norm_num) _ c.pos
  · unfold negOverlap overlap; split <;> positivity
  · exact approx_overlap hA hu A.zero 0 (by rw [hA.zero]; norm_num) _ c.neg
end

/-! ### Examples -/

/-- an arithmetic with errors: every result is too large by a factor `1 + u` -/
noncomputable def sloppyArith (beta u : ℝ) : Arith RVal :=
  let e := exactArith beta
  { e with
    add := fun a b => (e.add a b).mulFin (1 + u)
    sub := fun a b => (e.sub a b).mulFin (1 + u)
    mul := fun a b => (e.mul a b).mulFin (1 + u)
    quot := fun m n => (e.quot m n).mulFin (1 + u)
    scale := fun n a => (e.scale n a).mulFin (1 + u)
    scaleNeg := fun n a => (e.scaleNeg n a).mulFin (1 + u)
    logF := fun a => (e.logF a).mulFin (1 + u)
    logN := fun n => (e.logN n).mulFin (1 + u)
    divPow := fun a n => (e.divPow a n).mulFin (1 + u)
    code := fun n => (e.code n).mulFin (1 + u)
    complexity := fun n => (e.complexity n).mulFin (1 + u) }

theorem rel_sloppy {u : ℝ} (hu : 0 ≤ u) (r : ℝ) : Rel u (RVal.mulFin (.fin r) (1 + u)) r := by
  refine ⟨r * (1 + u), rfl, ?_⟩
  have e : r * (1 + u) - r = u * r := by ring
  rw [e, abs_mul, abs_of_nonneg hu]

theorem special_sloppy {u : ℝ} (hu : 0 ≤ u) (a : RVal) (h : ∀ r, a ≠ .fin r) : a.mulFin (1 + u) = a := by
  have h1 : (1 : ℝ) + u ≠ 0 := by linarith
  have h2 : (1 : ℝ) + u > 0 := by linarith
  cases a with
  | fin r => exact absurd rfl (h r)
  | nan => rfl
  | inf => simp [RVal.mulFin, h1, h2]
  | ninf => simp [RVal.mulFin, h1, h2]

/-- arithmetics with relative errors exist for every `u` (also the exact one, with `u = 0`) -/
theorem sloppy_standard (beta u : ℝ) (hu : 0 ≤ u) : Arith.Standard (sloppyArith beta u) beta u where
  zero := rfl
  one := rfl
  gt := rfl
  add _ _ := rel_sloppy hu _
  sub a b := by
    have := rel_sloppy hu (a - b)
    rw [sub_eq_add_neg] at this ⊢
    exact this
  mul _ _ := rel_sloppy hu _
  quot _ _ _ := rel_sloppy hu _
  scale n a := by
    have := rel_sloppy hu (a * n)
    rw [mul_comm (n : ℝ) a]
    exact this
  scaleNeg n a := by
    have := rel_sloppy hu (a * -(n : ℝ))
    rw [mul_comm (-(n : ℝ)) a]
    exact this
  logF r hr := by
    have := rel_sloppy hu (Real.logb 2 r)
    simpa [sloppyArith, exactArith, hr.ne', hr.not_gt] using this
  logF_zero := by simp [sloppyArith, exactArith, special_sloppy hu .ninf (by intro r h; cases h)]
  logN n hn := by
    have := rel_sloppy hu (Real.logb 2 n)
    simpa [sloppyArith, exactArith, hn] using this
  logN_zero := by simp [sloppyArith, exactArith, special_sloppy hu .ninf (by intro r h; cases h)]
  divPow _ _ := rel_sloppy hu _
  code _ := rel_sloppy hu _
  complexity _ := rel_sloppy hu _
  special_add a b h := by
    show (a.add b).mulFin (1 + u) = a.add b
    apply special_sloppy hu
    intro r hr
    cases a <;> cases b <;> simp_all [RVal.add]
  special_sub a b h := by
    show (a.sub b).mulFin (1 + u) = a.sub b
    apply special_sloppy hu
    intro r hr
    cases a <;> cases b <;> simp_all [RVal.add, RVal.sub]
  special_scale n a h := by
    show (a.mulFin n).mulFin (1 + u) = _
    apply special_sloppy hu
    intro r hr
    cases a with
    | fin r => exact absurd rfl (h r)
    | nan => cases hr
    | inf => simp only [RVal.mulFin] at hr; split at hr; cases hr; split at hr <;> cases hr
    | ninf => simp only [RVal.mulFin] at hr; split at hr; cases hr; split at hr <;> cases hr
  special_scaleNeg n a h := by
    show (a.mulFin (-(n : ℝ))).mulFin (1 + u) = _
    apply special_sloppy hu
    intro r hr
    cases a with
    | fin r => exact absurd rfl (h r)
    | nan => cases hr
    | inf => simp only [RVal.mulFin] at hr; split at hr; cases hr; split at hr <;> cases hr
    | ninf => simp only [RVal.mulFin] at hr; split at hr; cases hr; split at hr <;> cases hr
  special_divPow a n h := by
    show (a.divPos _).mulFin (1 + u) = _
    apply special_sloppy hu
    intro r hr
    cases a with
    | fin r => exact absurd rfl (h r)
    | nan => cases hr
    | inf => cases hr
    | ninf => cases hr

/-- the hypotheses are met by an arithmetic with errors on data with two equal lines in the candidate file, and both algorithms end -/
example : Arith.Standard (sloppyArith 1 (1 / 1000)) 1 (1 / 1000) ∧ Arith.Ordered (sloppyArith 1 (1 / 1000)) ∧
    (∀ c ∈ [twoCand, twoCand], Fits twoFrame c) ∧
    (∃ res, listFit (FloatLists.gmsl (sloppyArith 1 (1 / 1000)) twoFrame) 1 twoFrame twoTarget (.ok [twoCand, twoCand]) = .ok res) := by
  have ho : Arith.Ordered (sloppyArith 1 (1 / 1000)) :=
    ⟨fun a => by rw [← Bool.not_eq_true]; exact RVal.gt_irrefl a, fun a b c => RVal.gt_trans a b c⟩
  have hfit : ∀ c ∈ [twoCand, twoCand], Fits twoFrame c := by
    intro c hc
    have : c = twoCand := by simpa using hc
    subst this
    exact ⟨by decide, by decide, by decide, by decide⟩
  exact ⟨sloppy_standard _ _ (by norm_num), ho, hfit,
    (C108_total ho twoNominal (by decide) 1 1 (.fin 1) (.fin 1) _ hfit).1⟩
end Verif
