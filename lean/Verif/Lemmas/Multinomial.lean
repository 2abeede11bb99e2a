import Verif.Lemmas.NML
import Verif.Model.MDL
import Mathlib.Analysis.SpecialFunctions.Log.Deriv
/-! The loops of `multinomial_with_recurrence` compared with the exact complexity. -/
namespace Verif.MDL
open Finset Verif.Spec

/-- the `k`-th falling product -/
noncomputable def term (n k : ℕ) : ℝ := (n.descFactorial k : ℝ) / (n : ℝ) ^ k

theorem term_nonneg (n k : ℕ) : 0 ≤ term n k := by unfold term; positivity

theorem term_succ (n k : ℕ) (hn : 1 ≤ n) : term n (k + 1) = ((n : ℝ) - ((k + 1 : ℕ) : ℝ) + 1) / n * term n k := by
  unfold term
  have h3 : (n : ℝ) ≠ 0 := by positivity
  rw [Nat.descFactorial_succ, pow_succ]
  by_cases hk : k ≤ n
  · rw [Nat.cast_mul, Nat.cast_sub hk]
    push_cast
    field_simp
    ring
  · have : n.descFactorial k = 0 := Nat.descFactorial_eq_zero_iff_lt.2 (by omega)
    rw [this]; simp

theorem term_zero_of_lt (n k : ℕ) (h : n < k) : term n k = 0 := by
  unfold term
  rw [Nat.descFactorial_eq_zero_iff_lt.2 h]; simp

theorem sumLoop_eq (n : ℕ) (hn : 1 ≤ n) (m s : ℕ) :
    sumLoop n (List.range' (s + 1) m) (term n s, ∑ k ∈ range (s + 1), term n k) =
      (term n (s + m), ∑ k ∈ range (s + m + 1), term n k) := by
  induction m generalizing s with
  | zero => rfl
  | succ m ih =>
    rw [List.range'_succ]
    unfold sumLoop
    simp only
    rw [← term_succ n s hn, ← sum_range_succ, ih (s + 1)]
    have : s + 1 + m = s + (m + 1) := by omega
    rw [this]

/-- the falling products decrease like a Gaussian -/
theorem term_le_exp (n : ℕ) (hn : 1 ≤ n) (k : ℕ) : term n k ≤ Real.exp (-((k : ℝ) * (k - 1)) / (2 * n)) := by
  have h3 : (0 : ℝ) < n := by positivity
  induction k with
  | zero => simp [term]
  | succ k ih =>
    by_cases hk : n < k + 1
    · rw [term_zero_of_lt _ _ hk]; exact (Real.exp_pos _).le
    · rw [term_succ n k hn]
      have e : ((n : ℝ) - ((k + 1 : ℕ) : ℝ) + 1) / n = 1 - (k : ℝ) / n := by
        push_cast; field_simp; ring
      have h1 : 1 - (k : ℝ) / n ≤ Real.exp (-((k : ℝ) / n)) := by
        have := Real.add_one_le_exp (-((k : ℝ) / n)); linarith
      have e2 : -((((k + 1 : ℕ) : ℝ)) * (((k + 1 : ℕ) : ℝ) - 1)) / (2 * n) =
          -((k : ℝ) / n) + -((k : ℝ) * (k - 1)) / (2 * n) := by
        push_cast; field_simp; ring
      rw [e, e2, Real.exp_add]
      exact mul_le_mul h1 ih (term_nonneg _ _) (Real.exp_pos _).le

theorem term_add_le (n a j : ℕ) : term n (a + j) ≤ term n a * term n j := by
  unfold term
  rw [pow_add, div_mul_div_comm]
  apply div_le_div_of_nonneg_right _ (by positivity)
  have h : n.descFactorial (a + j) ≤ n.descFactorial a * n.descFactorial j := by
    by_cases ha : a ≤ n
    · have h1 := Nat.descFactorial_mul_descFactorial (n := n) (k := a) (m := a + j) (by omega)
      rw [Nat.add_sub_cancel_left] at h1
      rw [← h1, mul_comm]
      exact Nat.mul_le_mul_left _ (Nat.descFactorial_le j (by omega))
    · rw [Nat.descFactorial_eq_zero_iff_lt.2 (by omega : n < a + j)]; omega
  exact_mod_cast h

theorem bound_le (n : ℕ) : (2 : ℝ) + Real.sqrt (2 * n * 10 * Real.log 10) ≤ bound n := Nat.le_ceil _

theorem term_bound (n : ℕ) (hn : 1 ≤ n) : term n (bound n + 1) ≤ (10 : ℝ)⁻¹ ^ 10 := by
  refine le_trans (term_le_exp n hn _) ?_
  have h3 : (0 : ℝ) < n := by positivity
  have hb := bound_le n
  have hl : 0 < Real.log 10 := Real.log_pos (by norm_num)
  set s := Real.sqrt (2 * n * 10 * Real.log 10) with hs
  have hs0 : 0 ≤ s := Real.sqrt_nonneg _
  have hs2 : s * s = 2 * n * 10 * Real.log 10 := Real.mul_self_sqrt (by positivity)
  have e : (10 : ℝ)⁻¹ ^ 10 = Real.exp (-(10 * Real.log 10)) := by
    rw [Real.exp_neg, inv_pow]
    congr 1
    rw [show (10 : ℝ) * Real.log 10 = ((10 : ℕ) : ℝ) * Real.log 10 by norm_num, Real.exp_nat_mul,
      Real.exp_log (by norm_num)]
  rw [e, Real.exp_le_exp, div_le_iff₀ (by positivity)]
  push_cast
  nlinarith

/-- what the first loop leaves out is at most a fraction `10⁻¹⁰` of the whole -/
theorem sum_precision (n : ℕ) (hn : 1 ≤ n) :
    ∑ k ∈ range (bound n + 1), term n k ≤ nmlComplexity 2 n ∧
    (1 - (10 : ℝ)⁻¹ ^ 10) * nmlComplexity 2 n ≤ ∑ k ∈ range (bound n + 1), term n k := by
  have e : nmlComplexity 2 n = ∑ k ∈ range (bound n + 1 + (n + 1)), term n k := by
    rw [NML.nml_two n hn]
    show ∑ k ∈ range (n + 1), term n k = _
    rw [add_comm (bound n + 1) (n + 1), sum_range_add _ (n + 1)]
    have hz : ∑ k ∈ range (bound n + 1), term n (n + 1 + k) = 0 :=
      sum_eq_zero fun k _ => term_zero_of_lt n _ (by omega)
    rw [hz, add_zero]
  have e2 : nmlComplexity 2 n = ∑ k ∈ range (n + 1), term n k := NML.nml_two n hn
  have htail : ∑ k ∈ range (n + 1), term n (bound n + 1 + k) ≤ (10 : ℝ)⁻¹ ^ 10 * nmlComplexity 2 n := by
    rw [e2, mul_sum]
    refine sum_le_sum fun k _ => ?_
    exact le_trans (term_add_le n _ k) (mul_le_mul_of_nonneg_right (term_bound n hn) (term_nonneg _ _))
  have htail0 : 0 ≤ ∑ k ∈ range (n + 1), term n (bound n + 1 + k) := sum_nonneg fun k _ => term_nonneg _ _
  have e3 : nmlComplexity 2 n = ∑ k ∈ range (bound n + 1), term n k + ∑ k ∈ range (n + 1), term n (bound n + 1 + k) := by
    conv_lhs => rw [e, sum_range_add]
  constructor <;> linarith

theorem one_le_sum (n : ℕ) (m : ℕ) : 1 ≤ ∑ k ∈ range (m + 1), term n k := by
  rw [sum_range_succ']
  have : term n 0 = 1 := by simp [term]
  rw [this]
  have := sum_nonneg (s := range m) (f := fun k => term n (k + 1)) fun k _ => term_nonneg _ _
  linarith

/-- the value computed for `L` categories and `n ≥ 1` samples -/
noncomputable def mval (n : ℕ) : ℕ → ℝ
  | 0 => 0
  | 1 => 1
  | 2 => ∑ k ∈ range (bound n + 1), term n k
  | L + 3 => mval n (L + 2) + n * mval n (L + 1) / ((L + 1 : ℕ) : ℝ)

theorem recLoop_eq (n m L : ℕ) :
    recLoop n (List.range' (L + 3) m) (mval n (L + 1), mval n (L + 2)) = (mval n (L + 1 + m), mval n (L + 2 + m)) := by
  induction m generalizing L with
  | zero => rfl
  | succ m ih =>
    rw [List.range'_succ]
    unfold recLoop
    have e : mval n (L + 2) + n * mval n (L + 1) / (((L + 3 : ℕ) : ℝ) - 2) = mval n (L + 1 + 2) := by
      show _ = mval n (L + 2) + n * mval n (L + 1) / ((L + 1 : ℕ) : ℝ)
      congr 2; push_cast; ring
    rw [e]
    have := ih (L + 1)
    have e1 : L + 1 + 1 + m = L + 1 + (m + 1) := by omega
    have e2 : L + 1 + 2 + m = L + 2 + (m + 1) := by omega
    rw [e1, e2] at this
    exact this

theorem multinomial_eq (L n : ℕ) (hL : 1 ≤ L) (hn : 1 ≤ n) : multinomial L n = .ok (mval n L) := by
  unfold multinomial
  rw [if_neg (by omega), if_neg (by omega)]
  by_cases h1 : L = 1
  · subst h1; simp [mval]
  · rw [if_neg (by omega), if_neg (by omega)]
    obtain ⟨m, rfl⟩ : ∃ m, L = m + 2 := ⟨L - 2, by omega⟩
    have hs := sumLoop_eq n hn (bound n) 0
    have ht : term n 0 = 1 := by simp [term]
    simp only [zero_add, range_one, sum_singleton, ht] at hs
    have e : (((m + 2 : ℕ) : ℤ).toNat - 2) = m := by omega
    have e' : ((n : ℤ).toNat) = n := by simp
    simp only [e, e', hs]
    have := recLoop_eq n m 0
    simp only [zero_add] at this
    rw [show (3 : ℕ) = 0 + 3 from rfl] at this
    have h2 : mval n 2 = ∑ k ∈ range (bound n + 1), term n k := rfl
    have h1 : mval n 1 = 1 := rfl
    rw [h1, h2] at this
    simp only [zero_add] at this
    rw [this, add_comm 2 m]

theorem one_le_mval (n L : ℕ) (hn : 1 ≤ n) (hL : 1 ≤ L) : 1 ≤ mval n L ∧ 1 ≤ mval n (L + 1) := by
  induction L with
  | zero => omega
  | succ L ih =>
    rcases Nat.eq_zero_or_pos L with rfl | h
    · exact ⟨le_refl _, one_le_sum n _⟩
    · have := ih h
      refine ⟨this.2, ?_⟩
      obtain ⟨m, rfl⟩ : ∃ m, L = m + 1 := ⟨L - 1, by omega⟩
      show 1 ≤ mval n (m + 2) + n * mval n (m + 1) / ((m + 1 : ℕ) : ℝ)
      have h0 : 0 ≤ (n : ℝ) * mval n (m + 1) / ((m + 1 : ℕ) : ℝ) := by
        have : 0 ≤ mval n (m + 1) := by linarith [this.1]
        positivity
      have h2 : 1 ≤ mval n (m + 2) := this.2
      linarith

theorem mval_precision (n L : ℕ) (hn : 1 ≤ n) (hL : 1 ≤ L) :
    (mval n L ≤ nmlComplexity L n ∧ (1 - (10 : ℝ)⁻¹ ^ 10) * nmlComplexity L n ≤ mval n L) ∧
    (mval n (L + 1) ≤ nmlComplexity (L + 1) n ∧ (1 - (10 : ℝ)⁻¹ ^ 10) * nmlComplexity (L + 1) n ≤ mval n (L + 1)) := by
  induction L with
  | zero => omega
  | succ L ih =>
    rcases Nat.eq_zero_or_pos L with rfl | h
    · refine ⟨?_, sum_precision n hn⟩
      show mval n 1 ≤ nmlComplexity 1 n ∧ (1 - (10 : ℝ)⁻¹ ^ 10) * nmlComplexity 1 n ≤ mval n 1
      rw [NML.nml_one n hn]
      show (1 : ℝ) ≤ 1 ∧ _ ≤ (1 : ℝ)
      norm_num
    · have := ih h
      refine ⟨this.2, ?_⟩
      obtain ⟨m, rfl⟩ : ∃ m, L = m + 1 := ⟨L - 1, by omega⟩
      rw [NML.nml_rec (m + 1) n (by omega) hn]
      show mval n (m + 2) + n * mval n (m + 1) / ((m + 1 : ℕ) : ℝ) ≤ _ ∧
        _ ≤ mval n (m + 2) + n * mval n (m + 1) / ((m + 1 : ℕ) : ℝ)
      have e : (n : ℝ) * mval n (m + 1) / ((m + 1 : ℕ) : ℝ) = (n : ℝ) / ((m + 1 : ℕ) : ℝ) * mval n (m + 1) := by ring
      rw [e]
      have hq : 0 ≤ (n : ℝ) / ((m + 1 : ℕ) : ℝ) := by positivity
      have a1 := mul_le_mul_of_nonneg_left this.1.1 hq
      have a2 := mul_le_mul_of_nonneg_left this.1.2 hq
      have a3 := this.2.1
      have a4 := this.2.2
      constructor
      · exact add_le_add a3 a1
      · calc _ = (1 - (10 : ℝ)⁻¹ ^ 10) * nmlComplexity (m + 1 + 1) n +
              (n : ℝ) / ((m + 1 : ℕ) : ℝ) * ((1 - (10 : ℝ)⁻¹ ^ 10) * nmlComplexity (m + 1) n) := by ring
          _ ≤ _ := add_le_add a4 a2

theorem mval_two (n : ℕ) : mval n 2 = complexityTwo n := by
  unfold complexityTwo
  show ∑ k ∈ range (bound n + 1), term n k = _
  unfold bound term
  rw [show (2 * (n : ℝ) * 10 * Real.log 10) = 20 * n * Real.log 10 by ring]

theorem log2Multinomial_two (n : ℕ) (hn : 1 ≤ n) : log2Multinomial 2 n = .ok (Real.logb 2 (complexityTwo n)) := by
  have h := multinomial_eq 2 n (by norm_num) hn
  have h1 := (one_le_mval n 2 hn (by norm_num)).1
  have h' : multinomial 2 (n : Int) = .ok (mval n 2) := h
  unfold log2Multinomial
  rw [h']
  simp only
  rw [if_pos (by linarith), mval_two]

end Verif.MDL
