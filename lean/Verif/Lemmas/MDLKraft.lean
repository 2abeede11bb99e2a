import Verif.Props.MDL
import Mathlib.Analysis.Convex.SpecificFunctions.Pow
import Mathlib.Analysis.SpecialFunctions.Log.Deriv
import Mathlib.Analysis.Complex.ExponentialBounds
/-! The universal codes of `1..max` leave some probability, for every `max` up to `2^(2^65536)`. -/
namespace Verif.MDL
open Verif.Spec Finset

/-- the base-2 logarithm -/
noncomputable def lg : ℝ → ℝ := Real.logb 2

/-- the difference of iterated logarithms, from below -/
theorem tel (K : Nat) (x y : ℝ) (hxy : x ≤ y) (hx : ∀ j < K, 0 < lg^[j] x) :
    (∀ j < K, 0 < lg^[j] y) ∧ (y - x) * ∏ j ∈ range K, (lg^[j] y)⁻¹ ≤ (Real.log 2) ^ K * (lg^[K] y - lg^[K] x) := by
  induction K with
  | zero => simp
  | succ K ih =>
    obtain ⟨hy, h⟩ := ih (fun j hj => hx j (by omega))
    have hl : 0 < Real.log 2 := Real.log_pos (by norm_num)
    have X0 : 0 < lg^[K] x := hx K (by omega)
    have hprod : 0 ≤ (y - x) * ∏ j ∈ range K, (lg^[j] y)⁻¹ :=
      mul_nonneg (by linarith) (prod_nonneg fun j hj => (inv_pos.2 (hy j (mem_range.1 hj))).le)
    have hXY : lg^[K] x ≤ lg^[K] y := by
      have : 0 ≤ (Real.log 2) ^ K * (lg^[K] y - lg^[K] x) := hprod.trans h
      have := nonneg_of_mul_nonneg_right this (by positivity)
      linarith
    have Y0 : 0 < lg^[K] y := by linarith
    refine ⟨fun j hj => ?_, ?_⟩
    · rcases Nat.lt_succ_iff_lt_or_eq.1 hj with h1 | rfl
      · exact hy j h1
      · exact Y0
    · rw [prod_range_succ, Function.iterate_succ_apply', Function.iterate_succ_apply']
      set X := lg^[K] x with hX
      set Y := lg^[K] y with hY
      have hlog : (Y - X) * Y⁻¹ ≤ Real.log 2 * (lg Y - lg X) := by
        unfold lg Real.logb
        have e : Real.log 2 * (Real.log Y / Real.log 2 - Real.log X / Real.log 2) = -Real.log (X / Y) := by
          rw [Real.log_div X0.ne' Y0.ne']; field_simp; ring
        rw [e]
        have := Real.log_le_sub_one_of_pos (div_pos X0 Y0)
        have e2 : (Y - X) * Y⁻¹ = 1 - X / Y := by field_simp
        linarith
      calc (y - x) * ((∏ j ∈ range K, (lg^[j] y)⁻¹) * Y⁻¹) = ((y - x) * ∏ j ∈ range K, (lg^[j] y)⁻¹) * Y⁻¹ := by ring
        _ ≤ (Real.log 2 ^ K * (Y - X)) * Y⁻¹ := mul_le_mul_of_nonneg_right h (inv_pos.2 Y0).le
        _ = Real.log 2 ^ K * ((Y - X) * Y⁻¹) := by ring
        _ ≤ Real.log 2 ^ K * (Real.log 2 * (lg Y - lg X)) := mul_le_mul_of_nonneg_left hlog (by positivity)
        _ = _ := by ring

/-- the sum over a block, against the integral -/
theorem block_sum (K a : Nat) (ha : ∀ j < K, 0 < lg^[j] (a : ℝ)) (b : Nat) (hab : a ≤ b) :
    ∑ i ∈ Ico a b, ∏ j ∈ range K, (lg^[j] ((i + 1 : Nat) : ℝ))⁻¹ ≤ (Real.log 2) ^ K * (lg^[K] (b : ℝ) - lg^[K] (a : ℝ)) := by
  induction b, hab using Nat.le_induction with
  | base => simp
  | succ b hab ih =>
    rw [sum_Ico_succ_top hab]
    have hb := (tel K a b (by exact_mod_cast hab) ha).1
    have h := (tel K b ((b + 1 : Nat) : ℝ) (by push_cast; linarith) hb).2
    have e : (((b + 1 : Nat) : ℝ) - b) = 1 := by push_cast; ring
    rw [e, one_mul] at h
    rw [show lg^[K] ((b + 1 : Nat) : ℝ) - lg^[K] (a : ℝ) = (lg^[K] (b : ℝ) - lg^[K] (a : ℝ)) + (lg^[K] ((b + 1 : Nat) : ℝ) - lg^[K] (b : ℝ)) by ring, mul_add]
    exact add_le_add ih h

/-- the code length from below, by a given number of iterated logarithms -/
theorem code_iter (n K : Nat) (hn : 1 ≤ n) (h : ∀ j < K, 1 ≤ lg^[j] (n : ℝ)) :
    logK0 + ∑ k ∈ range K, lg^[k + 1] (n : ℝ) - 1 / 1000000 ≤ code n := by
  obtain ⟨K', h1, h2, h3⟩ := code_spec n hn
  have h1 : ∀ k, k < K' → (1 : ℝ) / 1000000 < lg^[k + 1] (n : ℝ) := h1
  have h2 : lg^[K' + 1] (n : ℝ) ≤ 1 / 1000000 := h2
  have h3 : code n = logK0 + ∑ k ∈ range K', lg^[k + 1] (n : ℝ) := h3
  rw [h3]
  have hK : K ≤ K' + 1 := by
    by_contra hc
    have := h (K' + 1) (by omega)
    linarith
  rcases Nat.lt_or_ge K' K with hlt | hge
  · have : K = K' + 1 := by omega
    subst this
    rw [sum_range_succ]
    linarith
  · have : ∑ k ∈ range K, lg^[k + 1] (n : ℝ) ≤ ∑ k ∈ range K', lg^[k + 1] (n : ℝ) := by
      apply sum_le_sum_of_subset_of_nonneg (range_mono hge)
      intro i hi _
      have := h1 i (mem_range.1 hi)
      linarith
    linarith

theorem two_theta : (2 : ℝ) ^ ((1 : ℝ) / 1000000) ≤ 1 + 1 / 1000000 := by
  have := rpow_one_add_le_one_add_mul_self (s := 1) (by norm_num) (p := 1 / 1000000) (by norm_num) (by norm_num)
  rw [show (1 : ℝ) + 1 = 2 by norm_num, mul_one] at this
  exact this

/-- the probability of one integer -/
theorem prob_le (n K : Nat) (hn : 1 ≤ n) (h : ∀ j < K, 1 ≤ lg^[j] (n : ℝ)) :
    (2 : ℝ) ^ (-code n) ≤ (1 + 1 / 1000000) / 2.865064 * ∏ j ∈ range K, (lg^[j] (n : ℝ))⁻¹ := by
  have h1 := code_iter n K hn h
  have h2 : (2 : ℝ) ^ (-code n) ≤ 2 ^ (1 / 1000000 + -logK0 + -∑ k ∈ range K, lg^[k + 1] (n : ℝ)) :=
    Real.rpow_le_rpow_of_exponent_le (by norm_num) (by linarith)
  refine h2.trans ?_
  rw [Real.rpow_add (by norm_num), Real.rpow_add (by norm_num)]
  have e1 : (2 : ℝ) ^ (-logK0) = 1 / 2.865064 := by
    unfold logK0
    rw [Real.rpow_neg (by norm_num), Real.rpow_logb (by norm_num) (by norm_num) (by norm_num), one_div]
  have e2 : ∀ K, (∀ j < K, 1 ≤ lg^[j] (n : ℝ)) → (2 : ℝ) ^ (-∑ k ∈ range K, lg^[k + 1] (n : ℝ)) = ∏ j ∈ range K, (lg^[j] (n : ℝ))⁻¹ := by
    intro K h
    induction K with
    | zero => simp
    | succ K ih =>
      rw [sum_range_succ, prod_range_succ, neg_add, Real.rpow_add (by norm_num), ih (fun j hj => h j (by omega))]
      congr 1
      have p : 0 < lg^[K] (n : ℝ) := by linarith [h K (by omega)]
      rw [Function.iterate_succ_apply', Real.rpow_neg (by norm_num)]
      unfold lg at p ⊢
      rw [Real.rpow_logb (by norm_num) (by norm_num) p]
  rw [e1, e2 K h]
  have hp : 0 ≤ ∏ j ∈ range K, (lg^[j] (n : ℝ))⁻¹ := prod_nonneg fun j hj => inv_nonneg.2 (by linarith [h j (mem_range.1 hj)])
  refine mul_le_mul_of_nonneg_right ?_ hp
  rw [div_eq_mul_one_div (1 + 1 / 1000000 : ℝ)]
  exact mul_le_mul_of_nonneg_right two_theta (by norm_num)

/-- `1, 2, 4, 16, 65536, 2^65536, …` -/
def tower : Nat → Nat
  | 0 => 1
  | k + 1 => 2 ^ tower k

theorem tower_succ (k : Nat) : tower (k + 1) = 2 ^ tower k := rfl

theorem tower_pos (k : Nat) : 1 ≤ tower k := by
  cases k with
  | zero => exact le_refl 1
  | succ k => rw [tower_succ]; exact Nat.one_le_two_pow

theorem lg_tower (k j : Nat) : lg^[j] (tower (k + j) : ℝ) = tower k := by
  induction j with
  | zero => rfl
  | succ j ih =>
    rw [Function.iterate_succ_apply, show k + (j + 1) = (k + j) + 1 by omega, tower_succ]
    have : lg ((2 ^ tower (k + j) : Nat) : ℝ) = tower (k + j) := by
      unfold lg
      push_cast
      rw [← Real.rpow_natCast, Real.logb_rpow (by norm_num) (by norm_num)]
    rw [this, ih]

theorem lg_mono {x y : ℝ} {j K : Nat} (hj : j < K) (hxy : x ≤ y) (hx : ∀ j < K, 1 ≤ lg^[j] x) : 1 ≤ lg^[j] y := by
  have h := tel j x y hxy (fun i hi => by linarith [hx i (by omega)])
  have hp : 0 ≤ (y - x) * ∏ i ∈ range j, (lg^[i] y)⁻¹ := mul_nonneg (by linarith) (prod_nonneg fun i hi => (inv_pos.2 (h.1 i (mem_range.1 hi))).le)
  have hl : 0 < Real.log 2 := Real.log_pos (by norm_num)
  have := nonneg_of_mul_nonneg_right (hp.trans h.2) (by positivity)
  linarith [hx j hj]

/-- one block -/
theorem block_prob (K : Nat) : ∑ i ∈ Ico (tower K) (tower (K + 1)), (2 : ℝ) ^ (-code (i + 1)) ≤ (1 + 1 / 1000000) / 2.865064 * Real.log 2 ^ (K + 1) := by
  have hlow : ∀ j < K + 1, 1 ≤ lg^[j] (tower K : ℝ) := by
    intro j hj
    have e := lg_tower (K - j) j
    rw [Nat.sub_add_cancel (by omega)] at e
    rw [e]
    exact_mod_cast tower_pos _
  have hle : tower K ≤ tower (K + 1) := by rw [tower_succ]; exact Nat.lt_two_pow_self.le
  have h1 : ∑ i ∈ Ico (tower K) (tower (K + 1)), (2 : ℝ) ^ (-code (i + 1)) ≤
      ∑ i ∈ Ico (tower K) (tower (K + 1)), (1 + 1 / 1000000) / 2.865064 * ∏ j ∈ range (K + 1), (lg^[j] ((i + 1 : Nat) : ℝ))⁻¹ := by
    apply sum_le_sum
    intro i hi
    apply prob_le _ _ (by omega)
    intro j hj
    exact lg_mono hj (by exact_mod_cast (by have := (mem_Ico.1 hi).1; omega : tower K ≤ i + 1)) hlow
  refine h1.trans ?_
  rw [← mul_sum]
  refine mul_le_mul_of_nonneg_left ?_ (by norm_num)
  refine (block_sum (K + 1) (tower K) (fun j hj => by linarith [hlow j hj]) (tower (K + 1)) hle).trans ?_
  have e1 := lg_tower 0 (K + 1)
  rw [Nat.zero_add] at e1
  have e2 := lg_tower 0 K
  rw [Nat.zero_add] at e2
  rw [e1, Function.iterate_succ_apply', e2]
  have : lg ((tower 0 : Nat) : ℝ) = 0 := by unfold lg tower; simp
  rw [this]
  simp [tower]

theorem tower_four : tower 4 = 65536 := by
  rw [tower_succ, tower_succ, tower_succ, tower_succ]; norm_num [tower]

theorem left_nonneg (max : Nat) (h : max ≤ 2 ^ (2 ^ 65536)) : 0 ≤ Spec.left code max := by
  have ht : max ≤ tower 6 := by rw [tower_succ, tower_succ, tower_four]; exact h
  clear h
  have h1 : ∑ i ∈ range max, (2 : ℝ) ^ (-code (i + 1)) ≤ ∑ i ∈ range (tower 6), (2 : ℝ) ^ (-code (i + 1)) :=
    sum_le_sum_of_subset_of_nonneg (range_mono ht) fun i _ _ => (Real.rpow_pos_of_pos (by norm_num) _).le
  have step : ∀ K, ∑ i ∈ range (tower (K + 1)), (2 : ℝ) ^ (-code (i + 1)) ≤
      ∑ i ∈ range (tower K), (2 : ℝ) ^ (-code (i + 1)) + (1 + 1 / 1000000) / 2.865064 * Real.log 2 ^ (K + 1) := by
    intro K
    have hle : tower K ≤ tower (K + 1) := by rw [tower_succ]; exact Nat.lt_two_pow_self.le
    rw [← sum_range_add_sum_Ico _ hle]
    linarith [block_prob K]
  have s1 := step 1
  have s2 := step 2
  have s3 := step 3
  have s4 := step 4
  have s5 := step 5
  have two : ∑ i ∈ range (tower 1), (2 : ℝ) ^ (-code (i + 1)) ≤ (1 + 1 / 1000000) / 2.865064 * (3 / 2) := by
    have p1 := prob_le 1 1 (le_refl _) (fun j hj => by obtain rfl : j = 0 := (by omega); simp)
    have p2 := prob_le 2 1 (by omega) (fun j hj => by obtain rfl : j = 0 := (by omega); simp)
    rw [show tower 1 = 2 from rfl, sum_range_succ, sum_range_succ]
    simp only [range_zero, sum_empty, zero_add, range_one, prod_singleton, Function.iterate_zero, id, Nat.reduceAdd] at p1 p2 ⊢
    push_cast at p1 p2
    linarith
  have l2 : Real.log 2 < 0.6931471808 := Real.log_two_lt_d9
  have l0 : 0 < Real.log 2 := Real.log_pos (by norm_num)
  have q2 : Real.log 2 ^ 2 ≤ 0.480454 := (pow_le_pow_left₀ l0.le l2.le 2).trans (by norm_num)
  have q3 : Real.log 2 ^ 3 ≤ 0.333026 := (pow_le_pow_left₀ l0.le l2.le 3).trans (by norm_num)
  have q4 : Real.log 2 ^ 4 ≤ 0.230836 := (pow_le_pow_left₀ l0.le l2.le 4).trans (by norm_num)
  have q5 : Real.log 2 ^ 5 ≤ 0.160004 := (pow_le_pow_left₀ l0.le l2.le 5).trans (by norm_num)
  have q6 : Real.log 2 ^ 6 ≤ 0.110907 := (pow_le_pow_left₀ l0.le l2.le 6).trans (by norm_num)
  simp only [Nat.reduceAdd] at s1 s2 s3 s4 s5
  unfold Spec.left
  have c : (1 + 1 / 1000000 : ℝ) / 2.865064 ≤ 0.34904 := by norm_num
  have c0 : (0 : ℝ) ≤ (1 + 1 / 1000000 : ℝ) / 2.865064 := by norm_num
  generalize (1 + 1 / 1000000 : ℝ) / 2.865064 = C at *
  generalize Real.log 2 ^ 2 = a2 at *
  generalize Real.log 2 ^ 3 = a3 at *
  generalize Real.log 2 ^ 4 = a4 at *
  generalize Real.log 2 ^ 5 = a5 at *
  generalize Real.log 2 ^ 6 = a6 at *
  generalize ∑ i ∈ range (tower 6), (2 : ℝ) ^ (-code (i + 1)) = t6 at *
  generalize ∑ i ∈ range (tower 5), (2 : ℝ) ^ (-code (i + 1)) = t5 at *
  generalize ∑ i ∈ range (tower 4), (2 : ℝ) ^ (-code (i + 1)) = t4 at *
  generalize ∑ i ∈ range (tower 3), (2 : ℝ) ^ (-code (i + 1)) = t3 at *
  generalize ∑ i ∈ range (tower 2), (2 : ℝ) ^ (-code (i + 1)) = t2 at *
  generalize ∑ i ∈ range (tower 1), (2 : ℝ) ^ (-code (i + 1)) = t1 at *
  have tot : t6 ≤ C * (3 / 2 + a2 + a3 + a4 + a5 + a6) := by linarith only [s1, s2, s3, s4, s5, two]
  have : C * (3 / 2 + a2 + a3 + a4 + a5 + a6) ≤ C * 2.816 := mul_le_mul_of_nonneg_left (by linarith) c0
  linarith

end Verif.MDL
