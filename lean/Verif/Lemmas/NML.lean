import Verif.Lemmas.Abel
import Verif.Spec.MDL
import Mathlib.RingTheory.PowerSeries.Derivative
import Mathlib.RingTheory.PowerSeries.Basic
import Mathlib.Topology.Algebra.Polynomial
import Mathlib.Topology.Instances.Real.Lemmas
/-! The recurrence of Kontkanen and Myllymäki for the multinomial stochastic complexity, through the generating function
`∑ kᵏ/k! zᵏ`. -/
namespace Verif.NML
open Finset PowerSeries Verif.Spec

/-- the derivative of Abel's theorem at 0 -/
theorem abel_zero (n : ℕ) (w : ℝ) :
    ∑ k ∈ range n, (n.choose (k + 1) : ℝ) * ((k + 1 : ℕ) : ℝ) ^ k * (w - ((k + 1 : ℕ) : ℝ)) ^ (n - (k + 1)) =
      ∑ i ∈ range n, w ^ i * w ^ (n - 1 - i) := by
  let g : ℝ → ℝ := fun x => ∑ k ∈ range n, (n.choose (k + 1) : ℝ) * (x + ((k + 1 : ℕ) : ℝ)) ^ k *
    (w - (x + ((k + 1 : ℕ) : ℝ))) ^ (n - (k + 1))
  let h : ℝ → ℝ := fun x => ∑ i ∈ range n, w ^ i * (w - x) ^ (n - 1 - i)
  have hg : Continuous g := by
    apply continuous_finsetSum; intro k _; fun_prop
  have hh : Continuous h := by
    apply continuous_finsetSum; intro k _; fun_prop
  have hd : Dense ({0}ᶜ : Set ℝ) := dense_compl_singleton 0
  have key : Set.EqOn g h ({0}ᶜ : Set ℝ) := by
    intro x hx
    have hx : x ≠ 0 := hx
    have h1 := Abel.abel n x w
    rw [sum_range_succ'] at h1
    have h2 := Commute.geom_sum₂_mul (Commute.all w (w - x)) n
    have e : (∑ k ∈ range n, (n.choose (k + 1) : ℝ) * Abel.P x (k + 1) * (w - (x + ((k + 1 : ℕ) : ℝ))) ^ (n - (k + 1)))
        = x * g x := by
      rw [mul_sum]
      refine sum_congr rfl fun k _ => ?_
      simp only [Abel.P, Nat.add_eq_zero_iff, one_ne_zero, and_false, if_false, Nat.add_sub_cancel]
      ring
    rw [e] at h1
    simp [Abel.P] at h1
    have h3 : h x * x = w ^ n - (w - x) ^ n := by
      rw [← h2]; congr 1; ring
    apply mul_left_cancel₀ hx
    linarith
  have := congrFun (Continuous.ext_on hd hg hh key) 0
  simpa [g, h] using this

/-- `∑_{k≥1} C(n,k) k^(k-1) (n-k)^(n-k) = n^n` for `n ≥ 1` -/
theorem abel_n (n : ℕ) (hn : 1 ≤ n) :
    ∑ k ∈ range n, (n.choose (k + 1) : ℝ) * ((k + 1 : ℕ) : ℝ) ^ k * ((n : ℝ) - ((k + 1 : ℕ) : ℝ)) ^ (n - (k + 1)) =
      (n : ℝ) ^ n := by
  rw [abel_zero]
  have : ∀ i ∈ range n, (n : ℝ) ^ i * (n : ℝ) ^ (n - 1 - i) = (n : ℝ) ^ (n - 1) := by
    intro i hi
    have := mem_range.1 hi
    rw [← pow_add]; congr 1; omega
  rw [sum_congr rfl this, sum_const, card_range, nsmul_eq_mul, ← pow_succ']
  congr 1; omega

noncomputable def B : ℝ⟦X⟧ := PowerSeries.mk fun k => (k : ℝ) ^ k / k.factorial
noncomputable def T : ℝ⟦X⟧ := PowerSeries.mk fun k => if k = 0 then 0 else (k : ℝ) ^ (k - 1) / k.factorial

theorem choose_div (n k : ℕ) (h : k ≤ n) :
    (n.choose k : ℝ) = n.factorial / (k.factorial * (n - k).factorial) := by
  rw [Nat.cast_choose ℝ h]

theorem T_mul_B : T * B = B - 1 := by
  ext n
  rw [coeff_mul, Nat.sum_antidiagonal_eq_sum_range_succ_mk, sum_range_succ']
  simp only [T, B, coeff_mk, map_sub, coeff_one, if_true, zero_mul, add_zero, Nat.add_eq_zero_iff, one_ne_zero,
    and_false, if_false, Nat.add_sub_cancel]
  rcases Nat.eq_zero_or_pos n with rfl | hn
  · simp
  · rw [if_neg (by omega), sub_zero, ← abel_n n hn, sum_div]
    refine sum_congr rfl fun k hk => ?_
    have hk' := mem_range.1 hk
    rw [choose_div n (k + 1) (by omega)]
    have h1 : (n.factorial : ℝ) ≠ 0 := by exact_mod_cast n.factorial_ne_zero
    have h2 : ((k + 1).factorial : ℝ) ≠ 0 := by exact_mod_cast (k + 1).factorial_ne_zero
    have h3 : ((n - (k + 1)).factorial : ℝ) ≠ 0 := by exact_mod_cast (n - (k + 1)).factorial_ne_zero
    have h4 : ((n - (k + 1) : ℕ) : ℝ) = (n : ℝ) - ((k + 1 : ℕ) : ℝ) := by rw [Nat.cast_sub (by omega)]
    rw [h4]
    field_simp

theorem coeff_X_mul_d (f : ℝ⟦X⟧) (n : ℕ) : coeff n (X * derivative ℝ f) = n * coeff n f := by
  cases n with
  | zero => simp
  | succ n => rw [coeff_succ_X_mul, coeff_derivative]; push_cast; ring

theorem X_dT : X * derivative ℝ T = B - 1 := by
  ext n
  rw [coeff_X_mul_d]
  simp only [T, B, coeff_mk, map_sub, coeff_one]
  cases n with
  | zero => simp
  | succ n =>
    simp only [Nat.add_eq_zero_iff, one_ne_zero, and_false, if_false, Nat.add_sub_cancel, pow_succ]
    ring

theorem B_one_sub_T : B * (1 - T) = 1 := by
  have := T_mul_B
  linear_combination -this

theorem X_dB : X * derivative ℝ B = B ^ 2 * (B - 1) := by
  have h := congrArg (derivative ℝ) B_one_sub_T
  rw [Derivation.leibniz, map_sub] at h
  simp only [smul_eq_mul, Derivation.map_one_eq_zero, zero_sub] at h
  have h1 := X_dT
  have h2 := B_one_sub_T
  linear_combination (X * B) * h + B ^ 2 * h1 - (X * derivative ℝ B) * h2

theorem X_dBpow (L : ℕ) : X * derivative ℝ (B ^ (L + 1)) = ((L + 1 : ℕ) : ℝ⟦X⟧) * (B ^ (L + 3) - B ^ (L + 2)) := by
  rw [Derivation.leibniz_pow]
  simp only [Nat.add_sub_cancel, smul_eq_mul, nsmul_eq_mul]
  have := X_dB
  linear_combination ((L + 1 : ℕ) : ℝ⟦X⟧) * B ^ L * this

theorem coeff_rec (L n : ℕ) (hL : 1 ≤ L) :
    coeff n (B ^ (L + 2)) = coeff n (B ^ (L + 1)) + (n : ℝ) / L * coeff n (B ^ L) := by
  obtain ⟨L, rfl⟩ : ∃ m, L = m + 1 := ⟨L - 1, by omega⟩
  have h := congrArg (coeff n) (X_dBpow L)
  rw [coeff_X_mul_d] at h
  have e : coeff n (((L + 1 : ℕ) : ℝ⟦X⟧) * (B ^ (L + 3) - B ^ (L + 2))) =
      ((L + 1 : ℕ) : ℝ) * (coeff n (B ^ (L + 3)) - coeff n (B ^ (L + 2))) := by
    have : ((L + 1 : ℕ) : ℝ⟦X⟧) = C ((L + 1 : ℕ) : ℝ) := by simp
    rw [this, coeff_C_mul, map_sub]
  rw [e] at h
  have hL' : ((L + 1 : ℕ) : ℝ) ≠ 0 := by positivity
  show coeff n (B ^ (L + 3)) = coeff n (B ^ (L + 2)) + _
  field_simp
  linarith

/-- the coefficients of the powers of the generating function are the complexities -/
theorem coeff_nml (L n : ℕ) (hn : 1 ≤ n) :
    coeff n (B ^ L) = (n : ℝ) ^ n / n.factorial * nmlComplexity L n := by
  rw [coeff_pow]
  unfold nmlComplexity
  rw [mul_sum]
  refine sum_congr rfl fun c hc => ?_
  have hs : ∑ i ∈ range L, c i = n := (mem_finsuppAntidiag.1 hc).1
  have h1 : (n.factorial : ℝ) ≠ 0 := by exact_mod_cast n.factorial_ne_zero
  have h2 : (∏ i ∈ range L, ((c i).factorial : ℝ)) ≠ 0 :=
    prod_ne_zero_iff.2 fun i _ => by exact_mod_cast (c i).factorial_ne_zero
  have h3 : (n : ℝ) ≠ 0 := by positivity
  have hm : (Nat.multinomial (range L) c : ℝ) = n.factorial / ∏ i ∈ range L, ((c i).factorial : ℝ) := by
    have := Nat.multinomial_spec (range L) c
    rw [hs] at this
    rw [eq_div_iff h2, mul_comm]
    exact_mod_cast this
  have hp : ∏ i ∈ range L, ((c i : ℝ) / n) ^ (c i) = (∏ i ∈ range L, (c i : ℝ) ^ (c i)) / (n : ℝ) ^ n := by
    simp only [div_pow]
    rw [prod_div_distrib, prod_pow_eq_pow_sum, hs]
  simp only [B, coeff_mk]
  rw [prod_div_distrib, hm, hp]
  field_simp

theorem nml_rec (L n : ℕ) (hL : 1 ≤ L) (hn : 1 ≤ n) :
    nmlComplexity (L + 2) n = nmlComplexity (L + 1) n + (n : ℝ) / L * nmlComplexity L n := by
  have h := coeff_rec L n hL
  rw [coeff_nml _ n hn, coeff_nml _ n hn, coeff_nml _ n hn] at h
  have h1 : (n : ℝ) ^ n / n.factorial ≠ 0 := by
    have : (n.factorial : ℝ) ≠ 0 := by exact_mod_cast n.factorial_ne_zero
    have : (n : ℝ) ≠ 0 := by positivity
    positivity
  apply mul_left_cancel₀ h1
  rw [h]; ring

theorem nml_one (n : ℕ) (hn : 1 ≤ n) : nmlComplexity 1 n = 1 := by
  have h := coeff_nml 1 n hn
  rw [pow_one] at h
  simp only [B, coeff_mk] at h
  have h1 : (n : ℝ) ^ n / n.factorial ≠ 0 := by
    have : (n.factorial : ℝ) ≠ 0 := by exact_mod_cast n.factorial_ne_zero
    have : (n : ℝ) ≠ 0 := by positivity
    positivity
  apply mul_left_cancel₀ h1
  rw [← h, mul_one]

/-- with two categories: the sum of the falling products -/
theorem nml_two (n : ℕ) (hn : 1 ≤ n) :
    nmlComplexity 2 n = ∑ k ∈ range (n + 1), (n.descFactorial k : ℝ) / (n : ℝ) ^ k := by
  have h := coeff_nml 2 n hn
  rw [pow_two, coeff_mul, Nat.sum_antidiagonal_eq_sum_range_succ_mk] at h
  have hF := Abel.F_eq n 0 n
  have h1 : (n.factorial : ℝ) ≠ 0 := by exact_mod_cast n.factorial_ne_zero
  have h3 : (n : ℝ) ≠ 0 := by positivity
  have e : (∑ k ∈ range n.succ, coeff k B * coeff (n - k) B) = Abel.F n 0 n / n.factorial := by
    unfold Abel.F
    rw [sum_div]
    refine sum_congr rfl fun k hk => ?_
    have hk' : k ≤ n := by have := mem_range.1 hk; omega
    simp only [B, coeff_mk]
    rw [choose_div n k hk', Nat.cast_sub hk']
    have h5 : (k.factorial : ℝ) ≠ 0 := by exact_mod_cast k.factorial_ne_zero
    have h6 : ((n - k).factorial : ℝ) ≠ 0 := by exact_mod_cast (n - k).factorial_ne_zero
    rw [zero_add]
    field_simp
  rw [e, hF] at h
  have h4 : (n : ℝ) ^ n / n.factorial ≠ 0 := by positivity
  apply mul_left_cancel₀ h4
  rw [← h, mul_sum, sum_div]
  refine sum_congr rfl fun k hk => ?_
  have hk' : k ≤ n := by have := mem_range.1 hk; omega
  have : (n : ℝ) ^ n = (n : ℝ) ^ (n - k) * (n : ℝ) ^ k := by rw [← pow_add]; congr 1; omega
  rw [this]
  field_simp

end Verif.NML
