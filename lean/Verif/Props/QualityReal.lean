import Verif.Props.Quality
import Mathlib.Analysis.SpecialFunctions.Pow.Real
import Verif.Lemmas.Params
/-! C17 (binomial test and its optimistic estimate), C52 (additional parameters). -/
namespace Verif
open Spec

theorem binomialTest_counts (tp fp TP FP : Nat) (h1 : 0 < tp + fp) (h2 : 0 < TP) (h3 : 0 < FP)
    (h5 : tp + fp < TP + FP) :
    Quality.binomialTest (counts tp fp TP FP) = .ok
      ((((tp / (tp + fp) - TP / (TP + FP) : Rat) : ℝ) * Real.sqrt ((tp + fp : Rat) : ℝ)) /
        Real.sqrt ((TP / (TP + FP) * (1 - TP / (TP + FP)) : Rat) : ℝ) *
        Real.sqrt (((TP + FP) / (TP + FP - (tp + fp)) : Rat) : ℝ)) := by
  have n1 : (0 : Rat) < tp + fp := by exact_mod_cast h1
  have n2 : (0 : Rat) < TP + FP := by exact_mod_cast (show 0 < TP + FP by omega)
  have n3 : (0 : Rat) < TP := by exact_mod_cast h2
  have n4 : (0 : Rat) < FP := by exact_mod_cast h3
  have n5 : (0 : Rat) < TP + FP - (tp + fp) := by
    have : ((tp + fp : Nat) : Rat) < ((TP + FP : Nat) : Rat) := by exact_mod_cast h5
    push_cast at this
    linarith
  have n6 : (0 : Rat) < TP / (TP + FP) * (1 - TP / (TP + FP)) := by
    have : (1 : Rat) - TP / (TP + FP) = FP / (TP + FP) := by field_simp; ring
    rw [this]
    positivity
  have r1 : (0 : ℝ) < ((tp + fp : Rat) : ℝ) := by exact_mod_cast n1
  have r2 : (0 : ℝ) < ((TP / (TP + FP) * (1 - TP / (TP + FP)) : Rat) : ℝ) := by exact_mod_cast n6
  have r3 : (0 : ℝ) < (((TP + FP) / (TP + FP - (tp + fp)) : Rat) : ℝ) := by
    have : (0 : Rat) < (TP + FP) / (TP + FP - (tp + fp)) := by positivity
    exact_mod_cast this
  obtain ⟨c1, c2, c3, c4⟩ := counts_has tp fp TP FP
  simp only [Quality.binomialTest, getParam_some c1, getParam_some c2, getParam_some c3, getParam_some c4, bind,
    Except.bind, pyDiv_ne _ n1.ne', pyDiv_ne _ n2.ne', pyDiv_ne _ n5.ne', Quality.pySqrt, if_neg (not_lt.2 r1.le),
    if_neg (not_lt.2 r2.le), if_neg (not_lt.2 r3.le), Quality.realDiv, if_neg (Real.sqrt_pos.2 r2).ne', pure, Except.pure]

theorem binomialTestOE1_counts (tp fp TP FP : Nat) (h : 0 < TP + FP) :
    Quality.binomialTestOE1 (counts tp fp TP FP) =
      .ok (Real.sqrt ((tp : Rat) : ℝ) * ((1 - TP / (TP + FP) : Rat) : ℝ)) := by
  have n2 : (0 : Rat) < TP + FP := by exact_mod_cast h
  obtain ⟨c1, c2, c3, c4⟩ := counts_has tp fp TP FP
  have r1 : (0 : ℝ) ≤ ((tp : Rat) : ℝ) := by
    have : (0 : Rat) ≤ tp := by positivity
    exact_mod_cast this
  simp only [Quality.binomialTestOE1, getParam_some c1, getParam_some c3, getParam_some c4, bind,
    Except.bind, pyDiv_ne _ n2.ne', Quality.pySqrt, if_neg (not_lt.2 r1), pure, Except.pure]

/-- C17 is false: a subgroup with 1 positive and 1 negative among 5 and 5, and a refinement of it that drops the negative,
whose binomial-test quality (about 1.05) exceeds the estimate (0.5). -/
theorem C17_fails : ∃ tp fp tp' fp' TP FP : Nat, tp' ≤ tp ∧ fp' ≤ fp ∧ 0 < tp' + fp' ∧ tp ≤ TP ∧ fp ≤ FP ∧
    ∃ o q, Quality.binomialTestOE1 (counts tp fp TP FP) = .ok o ∧
      Quality.binomialTest (counts tp' fp' TP FP) = .ok q ∧ o < q := by
  refine ⟨1, 1, 1, 0, 5, 5, by decide, by decide, by decide, by decide, by decide, _, _,
    binomialTestOE1_counts 1 1 5 5 (by decide),
    binomialTest_counts 1 0 5 5 (by decide) (by decide) (by decide) (by decide), ?_⟩
  push_cast
  rw [show (5 : ℝ) / (5 + 5) * (1 - 5 / (5 + 5)) = (1 / 2) ^ 2 by norm_num, Real.sqrt_sq (by norm_num),
    show ((1 : ℝ) + 0) = 1 by norm_num, Real.sqrt_one]
  have h1 : (1 : ℝ) ≤ Real.sqrt ((5 + 5) / (5 + 5 - 1)) := by
    rw [Real.le_sqrt' (by norm_num)]
    norm_num
  norm_num at h1 ⊢
  linarith

/-- C17, what does hold. FULL CLAIM: `q ≤ o`. PROVED: `q ≤ o * c` where `c = sqrt (N / (N - n')) / sqrt (p0 (1 - p0))`
is the normalising factor that `BinomialTest` applies and the estimate omits (`p0 = TP/N`, `n'` rows covered by the
refinement, `N` rows). The factor `c` is at least 2; the full claim is refuted by
`C17_fails`, and `C17_exact` says exactly when it holds. -/
theorem C17_bound (tp fp TP FP tp' fp' : Nat) (h1 : tp ≤ TP) (h2 : fp ≤ FP) (h3 : tp' ≤ tp) (h4 : fp' ≤ fp)
    (h5 : 0 < tp' + fp') (h6 : 0 < TP) (h7 : 0 < FP) (h8 : tp' + fp' < TP + FP) :
    ∃ q o : ℝ, Quality.binomialTest (counts tp' fp' TP FP) = .ok q ∧
      Quality.binomialTestOE1 (counts tp fp TP FP) = .ok o ∧
      q ≤ o * (Real.sqrt ((TP + FP : ℝ) / (TP + FP - (tp' + fp'))) /
        Real.sqrt ((TP : ℝ) / (TP + FP) * (1 - TP / (TP + FP)))) := by
  refine ⟨_, _, binomialTest_counts tp' fp' TP FP h5 h6 h7 h8,
    binomialTestOE1_counts tp fp TP FP (by omega), ?_⟩
  push_cast
  set S := Real.sqrt ((TP + FP : ℝ) / (TP + FP - (tp' + fp')))
  set V := Real.sqrt ((TP : ℝ) / (TP + FP) * (1 - TP / (TP + FP)))
  have hS : 0 ≤ S := Real.sqrt_nonneg _
  have hV : 0 ≤ V := Real.sqrt_nonneg _
  set n : ℝ := (tp' : ℝ) + fp' with hn
  set p0 : ℝ := (TP : ℝ) / (TP + FP) with hp0
  have npos : 0 < n := by rw [hn]; exact_mod_cast h5
  have Npos : (0 : ℝ) < TP + FP := by exact_mod_cast (show 0 < TP + FP by omega)
  have p0nn : 0 ≤ p0 := by positivity
  have p0le : p0 ≤ 1 := by
    rw [hp0, div_le_one Npos]
    have : (0 : ℝ) ≤ FP := by positivity
    linarith
  have key : ((tp' : ℝ) / n - p0) * Real.sqrt n ≤ Real.sqrt tp * (1 - p0) := by
    have hle : Real.sqrt tp' ≤ Real.sqrt tp := Real.sqrt_le_sqrt (by exact_mod_cast h3)
    have hle2 : Real.sqrt tp' ≤ Real.sqrt n := Real.sqrt_le_sqrt (by rw [hn]; have : (0 : ℝ) ≤ fp' := by positivity
                                                                     linarith)
    have e1 : (tp' : ℝ) / n * Real.sqrt n ≤ Real.sqrt tp' := by
      have hs : 0 < Real.sqrt n := Real.sqrt_pos.2 npos
      have a1 : Real.sqrt n * Real.sqrt n = n := Real.mul_self_sqrt npos.le
      have a2 : Real.sqrt tp' * Real.sqrt tp' = tp' := Real.mul_self_sqrt (by positivity)
      have : (tp' : ℝ) / n * Real.sqrt n = Real.sqrt tp' * (Real.sqrt tp' / Real.sqrt n) := by
        rw [div_mul_eq_mul_div, mul_div_assoc', div_eq_div_iff npos.ne' hs.ne', mul_assoc, a1, a2]
      rw [this]
      have : Real.sqrt tp' / Real.sqrt n ≤ 1 := (div_le_one hs).2 hle2
      nlinarith [Real.sqrt_nonneg (tp' : ℝ)]
    nlinarith [Real.sqrt_nonneg (tp' : ℝ), Real.sqrt_nonneg n]
  have e : Real.sqrt tp * (1 - p0) * (S / V) = Real.sqrt tp * (1 - p0) / V * S := by ring
  rw [e]
  exact mul_le_mul_of_nonneg_right (div_le_div_of_nonneg_right key hV) hS

example : ∃ tp fp TP FP tp' fp' : Nat, tp ≤ TP ∧ fp ≤ FP ∧ tp' ≤ tp ∧ fp' ≤ fp ∧ 0 < tp' + fp' ∧ 0 < TP ∧ 0 < FP ∧
    tp' + fp' < TP + FP ∧ tp' ≠ tp := ⟨3, 3, 4, 4, 2, 1, by decide⟩

/-- **C17.** Exactly when the estimate is a bound: over every data set with positives and negatives, `BinomialTestOptimisticEstimate1` of a subgroup is at least `BinomialTest` of each
of its refinements (with rows, not covering all) if and only if the subgroup has no positive. -/
theorem C17_exact (tp fp TP FP : Nat) (h1 : tp ≤ TP) (h2 : fp ≤ FP) (h6 : 0 < TP) (h7 : 0 < FP) :
    (∀ tp' fp' : Nat, tp' ≤ tp → fp' ≤ fp → 0 < tp' + fp' → tp' + fp' < TP + FP →
      ∃ q o : ℝ, Quality.binomialTest (counts tp' fp' TP FP) = .ok q ∧ Quality.binomialTestOE1 (counts tp fp TP FP) = .ok o ∧ q ≤ o) ↔ tp = 0 := by
  constructor
  · intro h
    by_contra h0
    have htp : 0 < tp := by omega
    obtain ⟨q, o, hq, ho, hqo⟩ := h tp 0 le_rfl (by omega) (by omega) (by omega)
    rw [binomialTest_counts tp 0 TP FP (by omega) h6 h7 (by omega)] at hq
    rw [binomialTestOE1_counts tp fp TP FP (by omega)] at ho
    cases hq; cases ho
    revert hqo
    push_cast
    rw [add_zero]
    refine not_le.2 ?_
    have Tpos : (0 : ℝ) < TP := by exact_mod_cast h6
    have Fpos : (0 : ℝ) < FP := by exact_mod_cast h7
    have tpos : (0 : ℝ) < tp := by exact_mod_cast htp
    have tle : (tp : ℝ) ≤ TP := by exact_mod_cast h1
    rw [div_self tpos.ne']
    set p0 : ℝ := (TP : ℝ) / (TP + FP) with hp0
    have p0pos : 0 < p0 := by positivity
    have p0lt : p0 < 1 := by rw [hp0, div_lt_one (by positivity)]; linarith
    set V := Real.sqrt (p0 * (1 - p0)) with hV
    have Vpos : 0 < V := Real.sqrt_pos.2 (mul_pos p0pos (by linarith))
    have Vlt : V < 1 := by
      rw [hV, Real.sqrt_lt' one_pos]
      nlinarith
    set B := Real.sqrt (((TP : ℝ) + FP) / (TP + FP - tp)) with hB
    have B1 : 1 ≤ B := by
      rw [hB, Real.le_sqrt' one_pos, one_pow, le_div_iff₀ (by linarith)]
      linarith
    have A : 0 < Real.sqrt tp * (1 - p0) := mul_pos (Real.sqrt_pos.2 tpos) (by linarith)
    have e : (1 - p0) * Real.sqrt tp / V * B = Real.sqrt tp * (1 - p0) * (B / V) := by ring
    rw [e]
    have : 1 < B / V := by rw [lt_div_iff₀ Vpos]; linarith
    nlinarith
  · rintro rfl tp' fp' h3 h4 h5 h8
    have : tp' = 0 := by omega
    subst this
    obtain ⟨q, o, hq, ho, hqo⟩ := C17_bound 0 fp TP FP 0 fp' h1 h2 le_rfl h4 h5 h6 h7 h8
    refine ⟨q, o, hq, ho, ?_⟩
    rw [binomialTestOE1_counts 0 fp TP FP (by omega)] at ho
    cases ho
    simpa using hqo

/-- C52: the constructor leaves every dictionary of the caller as it was. -/
theorem C52_caller_unchanged (h : Heap) (caller r : Nat) (hr : r < h.length) :
    (initAdditional h caller).1[r]? = h[r]? := by
  simp only [initAdditional, Heap.copy, Heap.mutate]
  rw [List.getElem?_modify]
  have : h.length ≠ r := by omega
  simp [List.getElem?_append_left hr, this]

/-- ... and later changes the caller makes to its own dictionaries do not reach the object's. -/
theorem C52_no_alias (h : Heap) (caller r : Nat) (hr : r < h.length) (f : Params → Params) :
    ((initAdditional h caller).1.mutate r f)[(initAdditional h caller).2]? =
      (initAdditional h caller).1[(initAdditional h caller).2]? := by
  simp only [initAdditional, Heap.copy, Heap.mutate]
  rw [List.getElem?_modify]
  have : r ≠ h.length := by omega
  simp [this]

/-- C52: whatever additional parameters the user gave, the dictionary handed to the measure holds exactly the counts of
the algorithm under `tp`, `fp`, `TP`, `FP`. -/
theorem C52_counts_exact (h : Heap) (caller : Nat) (tp fp TP FP : Rat) (additional : Params)
    (ha : (initAdditional h caller).1[(initAdditional h caller).2]? = some additional) :
    HasCounts (paramsFor tp fp TP FP additional) tp fp TP FP := by
  have hd : additional = deleteSubgroupParameters (h.getD caller []) := by
    simp only [initAdditional, Heap.copy, Heap.mutate] at ha
    rw [List.getElem?_modify] at ha
    simp at ha
    rw [← ha]
    simp [List.getD_eq_getElem?_getD]
  have key : ∀ k, k = kTp ∨ k = kFp ∨ k = kTP ∨ k = kFP → additional.lookup k = none := by
    intro k hk
    rw [hd]
    simp only [deleteSubgroupParameters, lookup_del]
    rcases hk with rfl | rfl | rfl | rfl <;> simp
  unfold HasCounts paramsFor
  rw [lookup_update _ _ _ (key _ (by simp)), lookup_update _ _ _ (key _ (by simp)), lookup_update _ _ _ (key _ (by simp)),
    lookup_update _ _ _ (key _ (by simp))]
  exact ⟨rfl, rfl, rfl, rfl⟩

/-- ... hence the computed quality does not depend on what the user put under these keys: any measure that needs only the
counts gives the same outcome as with no additional parameters. -/
theorem C52_quality (h : Heap) (caller : Nat) (tp fp TP FP : Rat) (additional : Params) (m : Measure) (hm : m ≠ .qg)
    (ha : (initAdditional h caller).1[(initAdditional h caller).2]? = some additional) :
    m.compute (paramsFor tp fp TP FP additional) = m.compute [(kTp, tp), (kFp, fp), (kTP, TP), (kFP, FP)] := by
  obtain ⟨h1, h2, h3, h4⟩ := C52_counts_exact h caller tp fp TP FP additional ha
  apply C15_only_needed
  intro k hk
  have : k = kTp ∨ k = kFp ∨ k = kTP ∨ k = kFP := by
    cases m <;> simp [needs] at hk hm ⊢ <;> tauto
  rcases this with rfl | rfl | rfl | rfl
  · rw [h1]; rfl
  · rw [h2]; rfl
  · rw [h3]; rfl
  · rw [h4]; rfl

/-- ... and the other parameters (such as `g`) do reach the measure. -/
theorem C52_others_pass (h : Heap) (caller : Nat) (tp fp TP FP g : Rat) (d additional : Params) (k : Str)
    (hd : h[caller]? = some d) (hk : d.lookup k = some g) (hu : (d.map (·.1)).Nodup)
    (hne : k ≠ kTp ∧ k ≠ kFp ∧ k ≠ kTP ∧ k ≠ kFP)
    (ha : (initAdditional h caller).1[(initAdditional h caller).2]? = some additional) :
    (paramsFor tp fp TP FP additional).lookup k = some g := by
  have hd' : additional = deleteSubgroupParameters d := by
    simp only [initAdditional, Heap.copy, Heap.mutate] at ha
    rw [List.getElem?_modify] at ha
    simp at ha
    rw [← ha]
    simp [hd]
  have h1 : additional.lookup k = some g := by
    rw [hd']
    simp only [deleteSubgroupParameters, lookup_del, hne, if_false, hk]
  have h2 : (additional.map (·.1)).Nodup := by
    rw [hd']
    simp only [deleteSubgroupParameters, Dict.del]
    exact (((hu.sublist (List.filter_sublist.map _)).sublist (List.filter_sublist.map _)).sublist
      (List.filter_sublist.map _)).sublist (List.filter_sublist.map _)
  unfold paramsFor Dict.update
  generalize ([(kTp, tp), (kFp, fp), (kTP, TP), (kFP, FP)] : Params) = base
  clear ha hd'
  induction additional generalizing base with
  | nil => simp at h1
  | cons x e ih =>
    obtain ⟨a, v⟩ := x
    rw [List.foldl_cons]
    by_cases hka : k = a
    · subst hka
      rw [lookup_cons_self'] at h1
      cases h1
      have hnone : e.lookup k = none := by
        rw [List.lookup_eq_none_iff]
        intro p hp
        have := (List.nodup_cons.1 h2).1
        simp only [bne_iff_ne, ne_eq]
        intro hc
        exact this (List.mem_map.2 ⟨p, hp, hc.symm⟩)
      have := lookup_update (Dict.set base k g) e k hnone
      unfold Dict.update at this
      rw [this, lookup_set, if_pos rfl]
    · exact ih (by rwa [lookup_cons_ne' _ _ hka] at h1) (List.nodup_cons.1 h2).2 _

example : ∃ (h : Heap) (caller : Nat) (additional : Params),
    (initAdditional h caller).1[(initAdditional h caller).2]? = some additional ∧
    (h.getD caller []).lookup kTp = some 7 ∧ additional.lookup kG = some 3 :=
  ⟨[[(kTp, 7), (kG, 3)]], 0, [(kG, 3)], by decide +kernel, by decide +kernel, by decide +kernel⟩

end Verif
