import Verif.Lemmas.Credibility
import Verif.Model.PValue
import Verif.Props.Quality
import Mathlib.MeasureTheory.Measure.OpenPos
import Mathlib.MeasureTheory.Measure.Lebesgue.Basic
/-! C47 (odds ratio and p-value), C48 (selector contribution). -/
namespace Verif
open Spec

/-! ## C47: odds ratio -/

/-- the dictionary of the four counts -/
def credCounts (tp fp TP FP : Rat) : Dict CredArg := [(kTp, .num tp), (kFp, .num fp), (kTP, .num TP), (kFP, .num FP)]

theorem oddsRatio_credCounts (tp fp TP FP : Rat) :
    OddsRatioStatistic.compute (credCounts tp fp TP FP) = .ok (OddsRatioStatistic.ofCounts tp fp TP FP) := by
  have h1 : (credCounts tp fp TP FP).lookup kTp = some (.num tp) := rfl
  have h2 : (credCounts tp fp TP FP).lookup kFp = some (.num fp) := rfl
  have h3 : (credCounts tp fp TP FP).lookup kTP = some (.num TP) := rfl
  have h4 : (credCounts tp fp TP FP).lookup kFP = some (.num FP) := rfl
  simp [OddsRatioStatistic.compute, Dict.has, Dict.numAt, h1, h2, h3, h4, bind, Except.bind, pure, Except.pure]

/-- C47: on a pattern that covers some rows but not all, with rows of both classes, the measure is the odds ratio of the contingency
table (infinite when the denominator vanishes). -/
theorem C47_odds_ratio (tp fp TP FP : Nat) (_h1 : tp ≤ TP) (_h2 : fp ≤ FP) (_hT : 0 < TP) (hF : 0 < FP) (hn : 0 < tp + fp)
    (hN : tp + fp < TP + FP) :
    ∃ v, OddsRatioStatistic.compute (credCounts tp fp TP FP) = .ok v ∧ IsOddsRatio v tp fp TP FP := by
  refine ⟨_, oddsRatio_credCounts _ _ _ _, ?_⟩
  unfold OddsRatioStatistic.ofCounts IsOddsRatio
  have c1 : (tp : Rat) = TP ↔ tp = TP := by norm_cast
  have c2 : (fp : Rat) = FP ↔ fp = FP := by norm_cast
  have c3 : (fp : Rat) = 0 ↔ fp = 0 := by norm_cast
  have c4 : (tp : Rat) = 0 ↔ tp = 0 := by norm_cast
  rw [mul_ne_zero_iff, mul_eq_zero, sub_ne_zero, sub_eq_zero]
  simp only [ne_eq, c1, c2, c3, c4, eq_comm (a := (TP : Rat))]
  rw [if_neg (by omega)]
  by_cases e1 : tp = TP
  · simp [e1]
  rw [if_neg e1]
  by_cases e2 : fp = FP
  · rw [if_pos e2]
    refine ⟨fun _ => ⟨0, rfl, by rw [e2]; ring⟩, fun h => by omega⟩
  rw [if_neg e2, if_neg (by omega)]
  by_cases e3 : fp = 0
  · simp [e3]
  rw [if_neg e3]
  have n1 : (TP : Rat) - tp ≠ 0 := by rw [sub_ne_zero]; exact fun h => e1 (c1.1 h.symm)
  have n2 : (FP : Rat) - fp ≠ 0 := by rw [sub_ne_zero]; exact fun h => e2 (c2.1 h.symm)
  have n3 : (fp : Rat) ≠ 0 := fun h => e3 (c3.1 h)
  refine ⟨fun _ => ⟨_, rfl, by field_simp⟩, fun h => by omega⟩

/-- C47, conventions: a pattern that covers every row or no row has odds ratio 0 (so that it is not selected), if there are positive rows. -/
theorem C47_odds_all_or_none (TP FP : Nat) :
    OddsRatioStatistic.compute (credCounts TP FP TP FP) = .ok (.fin 0) ∧
    (0 < TP → OddsRatioStatistic.compute (credCounts 0 0 TP FP) = .ok (.fin 0)) := by
  refine ⟨by rw [oddsRatio_credCounts]; simp [OddsRatioStatistic.ofCounts], fun h => ?_⟩
  rw [oddsRatio_credCounts]
  have : (0 : Rat) ≠ TP := by norm_cast; omega
  simp [OddsRatioStatistic.ofCounts, this]

/-- C47, conventions: with one class only. Without positive rows every pattern that leaves a row out has an infinite odds ratio (even the
one that covers nothing); without negative rows the odds ratio is 0. -/
theorem C47_odds_one_class (tp fp TP FP : Nat) (h1 : tp ≤ TP) (h2 : fp ≤ FP) :
    (TP = 0 → fp < FP → OddsRatioStatistic.compute (credCounts tp fp TP FP) = .ok .inf) ∧
    (FP = 0 → OddsRatioStatistic.compute (credCounts tp fp TP FP) = .ok (.fin 0)) := by
  constructor
  · intro h h'
    obtain rfl : tp = 0 := by omega
    subst h
    rw [oddsRatio_credCounts]
    have : (fp : Rat) ≠ FP := by norm_cast; omega
    simp [OddsRatioStatistic.ofCounts, this]
  · intro h
    obtain rfl : fp = 0 := by omega
    subst h
    rw [oddsRatio_credCounts]
    by_cases e : (tp : Rat) = TP <;> simp [OddsRatioStatistic.ofCounts, e]

/-- C47: the odds ratio is never negative and never `nan`. -/
theorem C47_odds_nonneg (tp fp TP FP : Nat) (h1 : tp ≤ TP) (h2 : fp ≤ FP) :
    ∃ v, OddsRatioStatistic.compute (credCounts tp fp TP FP) = .ok v ∧ (v = .inf ∨ ∃ q : Rat, v = .fin q ∧ 0 ≤ q) := by
  refine ⟨_, oddsRatio_credCounts _ _ _ _, ?_⟩
  unfold OddsRatioStatistic.ofCounts
  have a1 : (0 : Rat) ≤ TP - tp := by rw [sub_nonneg]; exact_mod_cast h1
  have a2 : (0 : Rat) ≤ FP - fp := by rw [sub_nonneg]; exact_mod_cast h2
  split_ifs
  · exact .inr ⟨0, rfl, le_refl _⟩
  · exact .inl rfl
  · exact .inr ⟨0, rfl, le_refl _⟩
  · exact .inr ⟨0, rfl, le_refl _⟩
  · exact .inl rfl
  · exact .inr ⟨_, rfl, by positivity⟩

/-- C47: the odds ratio exceeds 1 exactly when the share of positive rows inside the pattern exceeds the share in the data. -/
theorem C47_odds_above_one (tp fp TP FP : Nat) (h1 : tp ≤ TP) (h2 : fp ≤ FP) (hT : 0 < TP) (hF : 0 < FP) (hn : 0 < tp + fp)
    (hN : tp + fp < TP + FP) :
    ∃ v, OddsRatioStatistic.compute (credCounts tp fp TP FP) = .ok v ∧
      ((v = .inf ∨ ∃ q : Rat, v = .fin q ∧ 1 < q) ↔ (TP : Rat) / (TP + FP) < tp / (tp + fp)) := by
  obtain ⟨v, hv, i1, i2⟩ := C47_odds_ratio tp fp TP FP h1 h2 hT hF hn hN
  refine ⟨v, hv, ?_⟩
  have p1 : (0 : Rat) < TP + FP := by exact_mod_cast (show 0 < TP + FP by omega)
  have p2 : (0 : Rat) < tp + fp := by exact_mod_cast hn
  have key : (TP : Rat) / (TP + FP) < tp / (tp + fp) ↔ (fp : Rat) * (TP - tp) < tp * (FP - fp) := by
    rw [div_lt_div_iff₀ p1 p2]
    constructor <;> intro h <;> nlinarith
  rw [key]
  have b1 : (0 : Rat) ≤ TP - tp := by rw [sub_nonneg]; exact_mod_cast h1
  have b2 : (0 : Rat) ≤ FP - fp := by rw [sub_nonneg]; exact_mod_cast h2
  by_cases e : (fp : Rat) * (TP - tp) = 0
  · rw [i2 e, e]
    simp only [true_or, true_iff]
    rcases mul_eq_zero.1 e with e | e
    · have e' : fp = 0 := by exact_mod_cast e
      subst e'
      have : (0 : Rat) < tp := by exact_mod_cast (by omega : 0 < tp)
      have : (0 : Rat) < FP := by exact_mod_cast hF
      simp; positivity
    · have e' : tp = TP := by rw [sub_eq_zero] at e; exact_mod_cast e.symm
      subst e'
      have : (0 : Rat) < tp := by exact_mod_cast hT
      have : (0 : Rat) < FP - fp := by rw [sub_pos]; exact_mod_cast (by omega : fp < FP)
      positivity
  · obtain ⟨q, rfl, hq⟩ := i1 e
    have pos : (0 : Rat) < fp * (TP - tp) := lt_of_le_of_ne (by positivity) (Ne.symm e)
    rw [← hq]
    simp only [reduceCtorEq, XF.fin.injEq, exists_eq_left', false_or]
    rw [lt_mul_iff_one_lt_left pos]

/-- C47: computed from the two boolean series, the odds ratio is the one of the numbers of rows. -/
theorem C47_odds_from_rows (app target : Bits) (h : app.length = target.length) :
    OddsRatioStatistic.compute [(kAppearance, .bits app), (kTarget, .bits target)] =
      OddsRatioStatistic.compute (credCounts
        ((List.range target.length).filter (fun i => app.getD i false ∧ target.getD i false)).length
        ((List.range target.length).filter (fun i => app.getD i false ∧ target.getD i false = false)).length
        ((List.range target.length).filter (fun i => target.getD i false)).length
        ((List.range target.length).filter (fun i => target.getD i false = false)).length) := by
  rw [oddsRatio_credCounts]
  have hb : OddsRatioStatistic.compute [(kAppearance, .bits app), (kTarget, .bits target)] = .ok (OddsRatioStatistic.ofBits app target) := rfl
  rw [hb, OddsRatioStatistic.ofBits]
  have hn : ∀ i ∈ List.range target.length, (Bits.not target).getD i false = !(target.getD i false) := by
    intro i hi
    have := List.mem_range.1 hi
    simp [Bits.not, List.getD, this]
  have hl : (Bits.not target).length = target.length := by simp [Bits.not]
  congr 2
  · rw [Bits.ones_eq, Bits.alignAnd_length, h, max_self]
    congr 2
    apply List.filter_congr
    intro i _
    rw [Bits.alignAnd_getD]
    simp
  · rw [Bits.ones_eq, Bits.alignAnd_length, hl, h, max_self]
    congr 2
    apply List.filter_congr
    intro i hi
    rw [Bits.alignAnd_getD, hn i hi]
    simp
  · rw [Bits.ones_eq]
  · rw [Bits.ones_eq, hl]
    congr 2
    apply List.filter_congr
    intro i hi
    rw [hn i hi]
    simp

/-- C47: a dictionary with neither the four counts nor the two series is refused. -/
theorem C47_odds_missing (d : Dict CredArg) (h1 : ∃ k ∈ [kTp, kFp, kTP, kFP], d.lookup k = none)
    (h2 : ∃ k ∈ [kAppearance, kTarget], d.lookup k = none) : OddsRatioStatistic.compute d = .error .parameterNotFound := by
  unfold OddsRatioStatistic.compute
  rw [if_pos]
  simp only [List.mem_cons, List.not_mem_nil, or_false, exists_eq_or_imp, exists_eq_left] at h1 h2
  rcases h1 with h | h | h | h <;> rcases h2 with h' | h' <;> simp [Dict.has, h, h']

/-- A dictionary with the two series and only some of the counts passes the check and then fails with a `KeyError`. -/
theorem C47_odds_mixed_fails (a t : Bits) :
    OddsRatioStatistic.compute [(kTp, .num 1), (kAppearance, .bits a), (kTarget, .bits t)] = .error .keyError := rfl

example : OddsRatioStatistic.compute (credCounts 3 1 4 6) = .ok (.fin 15) := by decide +kernel
example : OddsRatioStatistic.compute (credCounts 3 0 4 6) = .ok .inf := by decide +kernel
example : OddsRatioStatistic.compute [(kAppearance, .bits [true, true, false, false]), (kTarget, .bits [true, false, true, false])] = .ok (.fin 1) := by
  decide +kernel

/-! ## C47: p-value -/

open PValueIndependence MeasureTheory ProbabilityTheory

/-- the standard normal has no atoms and is symmetric: half of it is below 0 -/
theorem normCdf_zero : normCdf 0 = 1 / 2 := by
  have hmap : (gaussianReal 0 1).map (fun x => -x) = gaussianReal 0 1 := by
    rw [gaussianReal_map_neg, neg_zero]
  have h1 : (gaussianReal 0 1) (Set.Iic 0) = (gaussianReal 0 1) (Set.Ici 0) := by
    conv_lhs => rw [← hmap]
    rw [Measure.map_apply (by fun_prop) measurableSet_Iic]
    congr 1
    ext x
    simp
  have hatom : (gaussianReal 0 1) {(0 : ℝ)} = 0 :=
    gaussianReal_absolutelyContinuous 0 one_ne_zero (by simp)
  have h2 : (gaussianReal 0 1) (Set.Iic 0) + (gaussianReal 0 1) (Set.Ioi 0) = 1 := by
    rw [← measure_union (by simp [Set.disjoint_left]) measurableSet_Ioi, Set.Iic_union_Ioi, measure_univ]
  have h3 : (gaussianReal 0 1) (Set.Ici 0) = (gaussianReal 0 1) (Set.Ioi (0 : ℝ)) := by
    apply le_antisymm
    · rw [← Set.Ioi_insert]
      calc _ ≤ (gaussianReal 0 1) {(0 : ℝ)} + (gaussianReal 0 1) (Set.Ioi (0 : ℝ)) := measure_union_le _ _
        _ = _ := by rw [hatom, zero_add]
    · exact measure_mono Set.Ioi_subset_Ici_self
  rw [← h3, ← h1] at h2
  have h4 : (gaussianReal 0 1).real (Set.Iic 0) + (gaussianReal 0 1).real (Set.Iic 0) = 1 := by
    have := congrArg ENNReal.toReal h2
    rwa [ENNReal.toReal_add (measure_ne_top _ _) (measure_ne_top _ _), ENNReal.toReal_one] at this
  rw [normCdf, cdf_eq_real]
  linarith

theorem normCdf_mono {x y : ℝ} (h : x ≤ y) : normCdf x ≤ normCdf y := monotone_cdf _ h

theorem normCdf_strictMono {x y : ℝ} (h : x < y) : normCdf x < normCdf y := by
  have hpos : (gaussianReal 0 1) (Set.Ioc x y) ≠ 0 := by
    intro h0
    have h1 := gaussianReal_absolutelyContinuous' 0 one_ne_zero h0
    rw [Real.volume_Ioc, ENNReal.ofReal_eq_zero] at h1
    linarith
  have hd : (gaussianReal 0 1) (Set.Iic y) = (gaussianReal 0 1) (Set.Iic x) + (gaussianReal 0 1) (Set.Ioc x y) := by
    rw [← measure_union (by rw [Set.disjoint_left]; intro a ha hb; exact absurd hb.1 (not_lt.2 ha)) measurableSet_Ioc, Set.Iic_union_Ioc_eq_Iic h.le]
  rw [normCdf, normCdf, cdf_eq_real, cdf_eq_real, Measure.real, Measure.real, hd,
    ENNReal.toReal_add (measure_ne_top _ _) (measure_ne_top _ _)]
  have := ENNReal.toReal_pos hpos (measure_ne_top _ _)
  linarith

theorem two_tailed_range (z : ℝ) : 0 ≤ 2 * (1 - normCdf |z|) ∧ 2 * (1 - normCdf |z|) ≤ 1 := by
  have h1 : normCdf |z| ≤ 1 := cdf_le_one _ _
  have h2 : normCdf 0 ≤ normCdf |z| := normCdf_mono (abs_nonneg z)
  rw [normCdf_zero] at h2
  constructor <;> linarith

/-- C47: a p-value, whatever the numbers it is computed from, lies in [0, 1]. -/
theorem C47_p_value_range (d : Params) (p : ℝ) (h : PValueIndependence.compute d = .ok p) : 0 ≤ p ∧ p ≤ 1 := by
  unfold PValueIndependence.compute at h
  simp only [bind, Except.bind, pure, Except.pure] at h
  repeat' split at h
  all_goals first
    | cases h; norm_num; done
    | (cases h; exact two_tailed_range _)
    | cases h

/-- the dictionary of counts is read back -/
theorem pvalue_counts (tp fp TP FP : Nat) (h1 : ¬ (tp = TP ∧ fp = FP)) (h2 : 0 < tp + fp) (hN : 0 < TP + FP) :
    PValueIndependence.compute (counts tp fp TP FP) =
      (Quality.realDiv (((tp - (tp + fp) * TP / (TP + FP) : Rat)) : ℝ)
        (Real.sqrt ((((tp + fp) * TP / (TP + FP) * FP / (TP + FP) : Rat)) : ℝ))).map (fun z => 2 * (1 - normCdf |z|)) := by
  have n2 : (0 : Rat) < TP + FP := by exact_mod_cast hN
  have c1 : ¬ ((tp : Rat) = TP ∧ (fp : Rat) = FP) := by norm_cast
  have c2 : ¬ ((tp : Rat) = 0 ∧ (fp : Rat) = 0) := by norm_cast; omega
  have r1 : (0 : ℝ) ≤ ((((tp + fp) * TP / (TP + FP) * FP / (TP + FP) : Rat)) : ℝ) := by
    have : (0 : Rat) ≤ (tp + fp) * TP / (TP + FP) * FP / (TP + FP) := by positivity
    exact_mod_cast this
  obtain ⟨k1, k2, k3, k4⟩ := counts_has tp fp TP FP
  simp only [PValueIndependence.compute, getParam_some k1, getParam_some k2, getParam_some k3, getParam_some k4, bind,
    Except.bind, pyDiv_ne _ n2.ne', if_neg c1, if_neg c2, Quality.pySqrt, if_neg (not_lt.2 r1), pure, Except.pure]
  cases Quality.realDiv (((tp - (tp + fp) * TP / (TP + FP) : Rat)) : ℝ)
        (Real.sqrt ((((tp + fp) * TP / (TP + FP) * FP / (TP + FP) : Rat)) : ℝ)) <;> rfl

/-- C47: patterns that cover everything or nothing have p-value 1. -/
theorem C47_p_value_all_or_none (TP FP : Nat) :
    PValueIndependence.compute (counts TP FP TP FP) = .ok 1 ∧ PValueIndependence.compute (counts 0 0 TP FP) = .ok 1 := by
  constructor
  · obtain ⟨k1, k2, k3, k4⟩ := counts_has TP FP TP FP
    simp [PValueIndependence.compute, getParam_some k1, getParam_some k2, getParam_some k3, getParam_some k4, bind,
      Except.bind, pure, Except.pure]
  · obtain ⟨k1, k2, k3, k4⟩ := counts_has 0 0 TP FP
    simp [PValueIndependence.compute, getParam_some k1, getParam_some k2, getParam_some k3, getParam_some k4, bind,
      Except.bind, pure, Except.pure]

/-- C47: the p-value of a pattern that covers some rows but not all is computed, unless one of the classes is empty: then the
computation divides by zero. -/
theorem C47_p_value_defined (tp fp TP FP : Nat) (_h1 : tp ≤ TP) (_h2 : fp ≤ FP) (hn : 0 < tp + fp) (hN : tp + fp < TP + FP) :
    (0 < TP → 0 < FP → ∃ p, PValueIndependence.compute (counts tp fp TP FP) = .ok p) ∧
    (TP = 0 ∨ FP = 0 → PValueIndependence.compute (counts tp fp TP FP) = .error .zeroDivisionError) := by
  rw [pvalue_counts tp fp TP FP (by omega) hn (by omega)]
  constructor
  · intro a b
    have n1 : (0 : Rat) < (tp + fp) * TP / (TP + FP) * FP / (TP + FP) := by
      have e1 : (0 : Rat) < TP := by exact_mod_cast a
      have e2 : (0 : Rat) < FP := by exact_mod_cast b
      have e3 : (0 : Rat) < tp + fp := by exact_mod_cast hn
      positivity
    have n2 : (0 : ℝ) < ((((tp + fp) * TP / (TP + FP) * FP / (TP + FP) : Rat)) : ℝ) := by exact_mod_cast n1
    rw [Quality.realDiv, if_neg (Real.sqrt_pos.2 n2).ne']
    exact ⟨_, rfl⟩
  · intro h
    have n1 : (((tp + fp) * TP / (TP + FP) * FP / (TP + FP) : Rat)) = 0 := by
      rcases h with h | h <;> simp [h]
    rw [n1, Rat.cast_zero, Real.sqrt_zero, Quality.realDiv, if_pos rfl]
    rfl

/-- C47: the p-value is 1 exactly when the share of positive rows inside the pattern is the share in the data. -/
theorem C47_p_value_one (tp fp TP FP : Nat) (hT : 0 < TP) (hF : 0 < FP) (hn : 0 < tp + fp) (hN : ¬ (tp = TP ∧ fp = FP)) :
    PValueIndependence.compute (counts tp fp TP FP) = .ok 1 ↔ (tp : Rat) / (tp + fp) = TP / (TP + FP) := by
  rw [pvalue_counts tp fp TP FP hN hn (by omega)]
  have e1 : (0 : Rat) < TP := by exact_mod_cast hT
  have e2 : (0 : Rat) < FP := by exact_mod_cast hF
  have e3 : (0 : Rat) < tp + fp := by exact_mod_cast hn
  have n1 : (0 : Rat) < (tp + fp) * TP / (TP + FP) * FP / (TP + FP) := by positivity
  have n2 : (0 : ℝ) < ((((tp + fp) * TP / (TP + FP) * FP / (TP + FP) : Rat)) : ℝ) := by exact_mod_cast n1
  have n3 := (Real.sqrt_pos.2 n2)
  rw [Quality.realDiv, if_neg n3.ne']
  simp only [Except.map, Except.ok.injEq]
  have key : (tp : Rat) / (tp + fp) = TP / (TP + FP) ↔ ((tp - (tp + fp) * TP / (TP + FP) : Rat)) = 0 := by
    rw [sub_eq_zero]
    field_simp
  rw [key]
  constructor
  · intro h
    have hz : normCdf |((tp - (tp + fp) * TP / (TP + FP) : Rat) : ℝ) / Real.sqrt ((((tp + fp) * TP / (TP + FP) * FP / (TP + FP) : Rat)) : ℝ)| = normCdf 0 := by
      rw [normCdf_zero]; linarith
    by_contra hne
    have : (0 : ℝ) < |((tp - (tp + fp) * TP / (TP + FP) : Rat) : ℝ) / Real.sqrt ((((tp + fp) * TP / (TP + FP) * FP / (TP + FP) : Rat)) : ℝ)| := by
      rw [abs_pos]
      exact div_ne_zero (by exact_mod_cast hne) n3.ne'
    exact absurd hz (normCdf_strictMono this).ne'
  · intro h
    rw [h, Rat.cast_zero, zero_div, abs_zero, normCdf_zero]
    norm_num

/-- C47: among patterns of the same size, the further the number of positives from the expected one, the smaller the p-value. -/
theorem C47_p_value_antitone (tp fp tp' fp' TP FP : Nat) (hT : 0 < TP) (hF : 0 < FP) (hn : 0 < tp + fp) (hsize : tp + fp = tp' + fp')
    (hN : ¬ (tp = TP ∧ fp = FP)) (hN' : ¬ (tp' = TP ∧ fp' = FP))
    (hdev : |(tp : Rat) - (tp + fp) * TP / (TP + FP)| < |(tp' : Rat) - (tp' + fp') * TP / (TP + FP)|) :
    ∃ p p', PValueIndependence.compute (counts tp fp TP FP) = .ok p ∧ PValueIndependence.compute (counts tp' fp' TP FP) = .ok p' ∧ p' < p := by
  rw [pvalue_counts tp fp TP FP hN hn (by omega), pvalue_counts tp' fp' TP FP hN' (by omega) (by omega)]
  have e1 : (0 : Rat) < TP := by exact_mod_cast hT
  have e2 : (0 : Rat) < FP := by exact_mod_cast hF
  have e3 : (0 : Rat) < tp + fp := by exact_mod_cast hn
  have es : (tp : Rat) + fp = tp' + fp' := by exact_mod_cast hsize
  have n1 : (0 : Rat) < (tp + fp) * TP / (TP + FP) * FP / (TP + FP) := by positivity
  have n2 : (0 : ℝ) < ((((tp + fp) * TP / (TP + FP) * FP / (TP + FP) : Rat)) : ℝ) := by exact_mod_cast n1
  have n3 := (Real.sqrt_pos.2 n2)
  rw [← es]
  rw [← es] at hdev
  rw [Quality.realDiv, if_neg n3.ne', Quality.realDiv, if_neg n3.ne']
  refine ⟨_, _, rfl, rfl, ?_⟩
  have : |((tp - (tp + fp) * TP / (TP + FP) : Rat) : ℝ) / Real.sqrt ((((tp + fp) * TP / (TP + FP) * FP / (TP + FP) : Rat)) : ℝ)| <
      |((tp' - (tp + fp) * TP / (TP + FP) : Rat) : ℝ) / Real.sqrt ((((tp + fp) * TP / (TP + FP) * FP / (TP + FP) : Rat)) : ℝ)| := by
    rw [abs_div, abs_div, abs_of_pos n3]
    apply div_lt_div_of_pos_right _ n3
    exact_mod_cast hdev
  have := normCdf_strictMono this
  linarith

/-- C47: the p-value needs the four counts. -/
theorem C47_p_value_missing (d : Params) (h : ∃ k ∈ [kTp, kFp, kTP, kFP], d.lookup k = none) :
    PValueIndependence.compute d = .error .parameterNotFound := by
  unfold PValueIndependence.compute
  simp only [List.mem_cons, List.not_mem_nil, or_false, exists_eq_or_imp, exists_eq_left] at h
  have e : ∀ k : Str, (∃ v, d.lookup k = some v ∧ getParam d k = .ok v) ∨ (d.lookup k = none ∧ getParam d k = .error .parameterNotFound) := by
    intro k
    cases hk : d.lookup k <;> simp [getParam, hk]
  rcases e kTp with ⟨a, a1, a2⟩ | ⟨_, a2⟩ <;> rcases e kFp with ⟨b, b1, b2⟩ | ⟨_, b2⟩ <;> rcases e kTP with ⟨c, c1, c2⟩ | ⟨_, c2⟩ <;>
    rcases e kFP with ⟨f, f1, f2⟩ | ⟨_, f2⟩ <;> simp_all [bind, Except.bind]

example : PValueIndependence.compute (counts 1 0 3 0) = .error .zeroDivisionError :=
  (C47_p_value_defined 1 0 3 0 (by decide) (by decide) (by decide) (by decide)).2 (.inr rfl)
example : ∃ p, PValueIndependence.compute (counts 3 1 4 6) = .ok p :=
  (C47_p_value_defined 3 1 4 6 (by decide) (by decide) (by decide) (by decide)).1 (by decide) (by decide)
example : PValueIndependence.compute (counts 1 1 2 2) = .ok 1 :=
  (C47_p_value_one 1 1 2 2 (by decide) (by decide) (by decide) (by decide)).2 (by norm_num)
end Verif
