import Verif.Lemmas.Multinomial
import Verif.Lemmas.MDLCode
import Verif.Spec.FloatMDL
import Mathlib.Tactic.Linarith
/-! The MDL functions on a machine with rounding errors: the loops of `multinomial_with_recurrence`. -/
namespace Verif.FloatMDL
open Finset Verif.Spec Verif.MDL

/-- `x` is `r ≥ 0` up to `k` roundings -/
def Rounded (u : ℝ) (k : ℕ) (x r : ℝ) : Prop := 0 ≤ r ∧ |x - r| ≤ ((1 + u) ^ k - 1) * r

section
variable {u : ℝ} {A : MDLArith}

theorem one_le_pow' (hu : 0 ≤ u) (k : ℕ) : 1 ≤ (1 + u) ^ k := one_le_pow₀ (by linarith)

theorem Rounded.mono (hu : 0 ≤ u) {j k : ℕ} (h : j ≤ k) {x r : ℝ} (hx : Rounded u j x r) : Rounded u k x r := by
  refine ⟨hx.1, hx.2.trans (mul_le_mul_of_nonneg_right ?_ hx.1)⟩
  have := pow_le_pow_right₀ (by linarith : 1 ≤ 1 + u) h
  linarith

theorem Rounded.exact {r : ℝ} (hr : 0 ≤ r) : Rounded u 0 r r := ⟨hr, by simp⟩

theorem Rounded.le (hu : 0 ≤ u) {k : ℕ} {x r : ℝ} (h : Rounded u k x r) : |x| ≤ (1 + u) ^ k * r := by
  have h1 := abs_sub_abs_le_abs_sub x r
  rw [abs_of_nonneg h.1] at h1
  have := h.2
  nlinarith

theorem Rounded.round (hu : 0 ≤ u) {k : ℕ} {x r y : ℝ} (h : Rounded u k x r) (hy : Within u y x) : Rounded u (k + 1) y r := by
  refine ⟨h.1, ?_⟩
  unfold Within at hy
  have h1 := h.le hu
  have h2 := h.2
  have h3 := abs_sub_le y x r
  have h4 := mul_le_mul_of_nonneg_left h1 hu
  rw [pow_succ]
  nlinarith

theorem Rounded.add {k : ℕ} {x r y s : ℝ} (hx : Rounded u k x r) (hy : Rounded u k y s) : Rounded u k (x + y) (r + s) := by
  refine ⟨add_nonneg hx.1 hy.1, ?_⟩
  have := abs_add_le (x - r) (y - s)
  have e : x + y - (r + s) = (x - r) + (y - s) := by ring
  rw [e]
  linarith [hx.2, hy.2]

theorem Rounded.mul (hu : 0 ≤ u) {j k : ℕ} {x r y s : ℝ} (hx : Rounded u j x r) (hy : Rounded u k y s) : Rounded u (j + k) (x * y) (r * s) := by
  refine ⟨mul_nonneg hx.1 hy.1, ?_⟩
  have e : x * y - r * s = (x - r) * y + r * (y - s) := by ring
  have h1 := hy.le hu
  have h2 : |(x - r) * y| ≤ ((1 + u) ^ j - 1) * r * ((1 + u) ^ k * s) := by
    rw [abs_mul]
    exact mul_le_mul hx.2 h1 (abs_nonneg _) (mul_nonneg (by linarith [one_le_pow' hu j]) hx.1)
  have h3 : |r * (y - s)| ≤ r * (((1 + u) ^ k - 1) * s) := by
    rw [abs_mul, abs_of_nonneg hx.1]
    exact mul_le_mul_of_nonneg_left hy.2 hx.1
  rw [e]
  refine (abs_add_le _ _).trans ((add_le_add h2 h3).trans (le_of_eq ?_))
  rw [pow_add]; ring

theorem Rounded.scale {k : ℕ} {x r c : ℝ} (hc : 0 ≤ c) (hx : Rounded u k x r) : Rounded u k (c * x) (c * r) := by
  refine ⟨mul_nonneg hc hx.1, ?_⟩
  rw [← mul_sub, abs_mul, abs_of_nonneg hc]
  calc c * |x - r| ≤ c * (((1 + u) ^ k - 1) * r) := mul_le_mul_of_nonneg_left hx.2 hc
    _ = _ := by ring

theorem Rounded.zero {k : ℕ} {x : ℝ} (hx : Rounded u k x 0) : x = 0 := by
  have := hx.2
  rw [mul_zero, sub_zero] at this
  exact abs_nonpos_iff.1 this

theorem Rounded.sqrt (hu : 0 ≤ u) {k : ℕ} {x r : ℝ} (hx0 : 0 ≤ x) (hx : Rounded u k x r) : Rounded u k (Real.sqrt x) (Real.sqrt r) := by
  refine ⟨Real.sqrt_nonneg _, ?_⟩
  have hk := one_le_pow' hu k
  rcases eq_or_lt_of_le hx.1 with h | h
  · rw [← h] at hx ⊢
    rw [hx.zero]; simp
  · have hs := Real.sqrt_pos.2 h
    have e : (Real.sqrt x - Real.sqrt r) * (Real.sqrt x + Real.sqrt r) = x - r := by
      have a := Real.mul_self_sqrt hx0
      have b := Real.mul_self_sqrt h.le
      linarith only [a, b, (by ring : (Real.sqrt x - Real.sqrt r) * (Real.sqrt x + Real.sqrt r) = Real.sqrt x * Real.sqrt x - Real.sqrt r * Real.sqrt r)]
    have e2 := congrArg abs e
    rw [abs_mul, abs_of_pos (by linarith [Real.sqrt_nonneg x] : 0 < Real.sqrt x + Real.sqrt r)] at e2
    have h3 : |Real.sqrt x - Real.sqrt r| * Real.sqrt r ≤ ((1 + u) ^ k - 1) * (Real.sqrt r * Real.sqrt r) := by
      rw [Real.mul_self_sqrt h.le]
      refine le_trans ?_ (e2.le.trans hx.2)
      exact mul_le_mul_of_nonneg_left (by linarith [Real.sqrt_nonneg x]) (abs_nonneg _)
    rw [← mul_assoc] at h3
    exact le_of_mul_le_mul_right h3 hs

theorem within_mul (hA : MDLArith.Standard A u) (hu : 0 ≤ u) {j k : ℕ} {x r y s : ℝ} (hx : Rounded u j x r) (hy : Rounded u k y s) :
    Rounded u (j + k + 1) (A.mul x y) (r * s) := (hx.mul hu hy).round hu (hA.mul x y)

/-- the first loop: after `m` turns from a state with `s` turns behind it -/
theorem sumLoop_rounded (hA : MDLArith.Standard A u) (hu : 0 ≤ u) {n : ℕ} (hn : 1 ≤ n) (m s : ℕ) {b t : ℝ} (hb : Rounded u (2 * s) b (term n s))
    (ht : Rounded u (2 * s + 1) t (∑ k ∈ range (s + 1), term n k)) :
    Rounded u (2 * (s + m) + 1) (sumLoop A n (List.range' (s + 1) m) (b, t)).2 (∑ k ∈ range (s + m + 1), term n k) := by
  induction m generalizing s b t with
  | zero => exact ht
  | succ m ih =>
    rw [List.range'_succ]
    unfold sumLoop
    simp only
    have h1 : Rounded u (2 * (s + 1)) (A.mul (A.quot ((n : Int) - (s + 1 : ℕ) + 1) n) b) (term n (s + 1)) := by
      by_cases hs : s ≤ n
      · have hq : Rounded u 1 (A.quot ((n : Int) - (s + 1 : ℕ) + 1) n) ((((n : Int) - (s + 1 : ℕ) + 1 : Int) : ℝ) / n) := by
          have h0 : (0 : ℝ) ≤ (((n : Int) - (s + 1 : ℕ) + 1 : Int) : ℝ) / n := by
            apply div_nonneg _ (by positivity)
            have : (0 : Int) ≤ (n : Int) - (s + 1 : ℕ) + 1 := by push_cast; omega
            exact_mod_cast this
          refine ⟨h0, ?_⟩
          have := hA.quot ((n : Int) - (s + 1 : ℕ) + 1) n (by omega)
          unfold Within at this
          rw [abs_of_nonneg h0] at this
          simpa using this
        have h2 := within_mul hA hu hq hb
        rw [term_succ n s hn]
        have e : (((n : Int) - (s + 1 : ℕ) + 1 : Int) : ℝ) = (n : ℝ) - ((s + 1 : ℕ) : ℝ) + 1 := by push_cast; ring
        rw [e] at h2
        have e3 : 1 + 2 * s + 1 = 2 * (s + 1) := by ring
        rw [e3] at h2
        exact h2
      · have h0 : term n s = 0 := term_zero_of_lt n s (by omega)
        rw [h0] at hb
        rw [hb.zero, term_zero_of_lt n (s + 1) (by omega)]
        refine ⟨le_refl _, ?_⟩
        have := hA.mul (A.quot ((n : Int) - (s + 1 : ℕ) + 1) n) 0
        unfold Within at this
        rw [mul_zero] at this ⊢
        simpa using this
    have h2 : Rounded u (2 * (s + 1) + 1) (A.add t (A.mul (A.quot ((n : Int) - (s + 1 : ℕ) + 1) n) b)) (∑ k ∈ range (s + 1 + 1), term n k) := by
      rw [sum_range_succ]
      exact ((ht.mono hu (by omega)).add h1).round hu (hA.add _ _)
    have := ih (s + 1) h1 h2
    have e : s + 1 + m = s + (m + 1) := by omega
    rw [e] at this
    exact this

/-- the value for `L` categories and `n` samples, when the first loop takes `M` turns -/
noncomputable def mvalM (n M : ℕ) : ℕ → ℝ
  | 0 => 0
  | 1 => 1
  | 2 => ∑ k ∈ range (M + 1), term n k
  | L + 3 => mvalM n M (L + 2) + n * mvalM n M (L + 1) / ((L + 1 : ℕ) : ℝ)

theorem recLoop_rounded (hA : MDLArith.Standard A u) (hu : 0 ≤ u) {n M K : ℕ} (m L : ℕ) {a b : ℝ} (ha : Rounded u (K + 2 * (L + 1)) a (mvalM n M (L + 1)))
    (hb : Rounded u (K + 2 * (L + 2)) b (mvalM n M (L + 2))) :
    Rounded u (K + 2 * (L + 2 + m)) (recLoop A n (List.range' (L + 3) m) (a, b)).2 (mvalM n M (L + 2 + m)) := by
  induction m generalizing L a b with
  | zero => exact hb
  | succ m ih =>
    rw [List.range'_succ]
    unfold recLoop
    have e : L + 3 - 2 = L + 1 := by omega
    rw [e]
    have h1 : Rounded u (K + 2 * (L + 3)) (A.add b (A.divN (A.scale n a) (L + 1))) (mvalM n M (L + 3)) := by
      have h2 : Rounded u (K + 2 * (L + 1) + 1) (A.scale n a) (n * mvalM n M (L + 1)) := (ha.scale (by positivity)).round hu (hA.scale _ _)
      have h3 := (h2.scale (c := 1 / ((L + 1 : ℕ) : ℝ)) (by positivity)).round hu
        (y := A.divN (A.scale n a) (L + 1)) (by
          have := hA.divN (A.scale n a) (L + 1) (by omega)
          rw [div_eq_inv_mul] at this
          rw [one_div]; exact this)
      rw [one_div, ← div_eq_inv_mul] at h3
      have e1 : K + 2 * (L + 1) + 1 + 1 = K + 2 * (L + 2) := by ring
      rw [e1] at h3
      exact ((hb.add h3).round hu (hA.add _ _)).mono hu (by omega)
    have := ih (L + 1) hb h1
    have e1 : L + 1 + 2 + m = L + 2 + (m + 1) := by omega
    rw [e1] at this
    exact this

theorem multinomial_rounded (hA : MDLArith.Standard A u) (hu : 0 ≤ u) {L n : ℕ} (hL : 1 ≤ L) (hn : 1 ≤ n) :
    ∃ c, multinomial A L n = .ok c ∧ Rounded u (2 * bound A n + 1 + 2 * L) c (mvalM n (bound A n) L) := by
  unfold multinomial
  rw [if_neg (by omega), if_neg (by omega)]
  by_cases h1 : L = 1
  · subst h1
    rw [if_pos (by norm_num)]
    exact ⟨1, rfl, (Rounded.exact (by norm_num)).mono hu (by omega)⟩
  · rw [if_neg (by omega), if_neg (by omega)]
    obtain ⟨m, rfl⟩ : ∃ m, L = m + 2 := ⟨L - 2, by omega⟩
    have e : (((m + 2 : ℕ) : ℤ).toNat - 2) = m := by omega
    have e' : ((n : ℤ).toNat) = n := by simp
    simp only [e, e']
    refine ⟨_, rfl, ?_⟩
    have ht : term n 0 = 1 := by simp [term]
    have hs := sumLoop_rounded hA hu hn (bound A n) 0 (b := 1) (t := 1) (by rw [ht]; exact Rounded.exact (by norm_num))
      (by rw [zero_add, range_one, sum_singleton, ht]; exact (Rounded.exact (by norm_num)).mono hu (by omega))
    simp only [zero_add] at hs
    have h2 := recLoop_rounded hA hu (n := n) (M := bound A n) (K := 2 * bound A n + 1) m 0 (a := 1) (by exact (Rounded.exact (by norm_num : (0:ℝ) ≤ 1)).mono hu (by omega)) (hs.mono hu (by omega))
    simp only [zero_add] at h2
    have e2 : 2 + m = m + 2 := by omega
    rw [e2] at h2
    exact h2

/-! ### the truncation -/

theorem term_boundM (n M : ℕ) (hn : 1 ≤ n) (hM : 1 + Real.sqrt (20 * n * Real.log 10) ≤ M) : term n (M + 1) ≤ (10 : ℝ)⁻¹ ^ 10 := by
  refine le_trans (term_le_exp n hn _) ?_
  have h3 : (0 : ℝ) < n := by positivity
  have hl : 0 < Real.log 10 := Real.log_pos (by norm_num)
  set s := Real.sqrt (20 * n * Real.log 10) with hs
  have hs0 : 0 ≤ s := Real.sqrt_nonneg _
  have hs2 : s * s = 20 * n * Real.log 10 := Real.mul_self_sqrt (by positivity)
  have e : (10 : ℝ)⁻¹ ^ 10 = Real.exp (-(10 * Real.log 10)) := by
    rw [Real.exp_neg, inv_pow]
    congr 1
    rw [show (10 : ℝ) * Real.log 10 = ((10 : ℕ) : ℝ) * Real.log 10 by norm_num, Real.exp_nat_mul,
      Real.exp_log (by norm_num)]
  rw [e, Real.exp_le_exp, div_le_iff₀ (by positivity)]
  push_cast
  nlinarith

theorem sum_precisionM (n M : ℕ) (hn : 1 ≤ n) (hM : 1 + Real.sqrt (20 * n * Real.log 10) ≤ M) :
    ∑ k ∈ range (M + 1), term n k ≤ nmlComplexity 2 n ∧
    (1 - (10 : ℝ)⁻¹ ^ 10) * nmlComplexity 2 n ≤ ∑ k ∈ range (M + 1), term n k := by
  have e2 : nmlComplexity 2 n = ∑ k ∈ range (n + 1), term n k := NML.nml_two n hn
  have e : nmlComplexity 2 n = ∑ k ∈ range (M + 1 + (n + 1)), term n k := by
    rw [e2, add_comm (M + 1) (n + 1), sum_range_add _ (n + 1)]
    have hz : ∑ k ∈ range (M + 1), term n (n + 1 + k) = 0 :=
      sum_eq_zero fun k _ => term_zero_of_lt n _ (by omega)
    rw [hz, add_zero]
  have htail : ∑ k ∈ range (n + 1), term n (M + 1 + k) ≤ (10 : ℝ)⁻¹ ^ 10 * nmlComplexity 2 n := by
    rw [e2, mul_sum]
    refine sum_le_sum fun k _ => ?_
    exact le_trans (term_add_le n _ k) (mul_le_mul_of_nonneg_right (term_boundM n M hn hM) (term_nonneg _ _))
  have htail0 : 0 ≤ ∑ k ∈ range (n + 1), term n (M + 1 + k) := sum_nonneg fun k _ => term_nonneg _ _
  have e3 : nmlComplexity 2 n = ∑ k ∈ range (M + 1), term n k + ∑ k ∈ range (n + 1), term n (M + 1 + k) := by
    conv_lhs => rw [e, sum_range_add]
  constructor <;> linarith

theorem mvalM_precision (n L M : ℕ) (hn : 1 ≤ n) (hL : 1 ≤ L) (hM : 1 + Real.sqrt (20 * n * Real.log 10) ≤ M) :
    (mvalM n M L ≤ nmlComplexity L n ∧ (1 - (10 : ℝ)⁻¹ ^ 10) * nmlComplexity L n ≤ mvalM n M L) ∧
    (mvalM n M (L + 1) ≤ nmlComplexity (L + 1) n ∧ (1 - (10 : ℝ)⁻¹ ^ 10) * nmlComplexity (L + 1) n ≤ mvalM n M (L + 1)) := by
  induction L with
  | zero => omega
  | succ L ih =>
    rcases Nat.eq_zero_or_pos L with rfl | h
    · refine ⟨?_, sum_precisionM n M hn hM⟩
      show mvalM n M 1 ≤ nmlComplexity 1 n ∧ (1 - (10 : ℝ)⁻¹ ^ 10) * nmlComplexity 1 n ≤ mvalM n M 1
      rw [NML.nml_one n hn]
      show (1 : ℝ) ≤ 1 ∧ _ ≤ (1 : ℝ)
      norm_num
    · have := ih h
      refine ⟨this.2, ?_⟩
      obtain ⟨m, rfl⟩ : ∃ m, L = m + 1 := ⟨L - 1, by omega⟩
      rw [NML.nml_rec (m + 1) n (by omega) hn]
      show mvalM n M (m + 2) + n * mvalM n M (m + 1) / ((m + 1 : ℕ) : ℝ) ≤ _ ∧
        _ ≤ mvalM n M (m + 2) + n * mvalM n M (m + 1) / ((m + 1 : ℕ) : ℝ)
      have e : (n : ℝ) * mvalM n M (m + 1) / ((m + 1 : ℕ) : ℝ) = (n : ℝ) / ((m + 1 : ℕ) : ℝ) * mvalM n M (m + 1) := by ring
      rw [e]
      have hq : 0 ≤ (n : ℝ) / ((m + 1 : ℕ) : ℝ) := by positivity
      have a1 := mul_le_mul_of_nonneg_left this.1.1 hq
      have a2 := mul_le_mul_of_nonneg_left this.1.2 hq
      have a3 := this.2.1
      have a4 := this.2.2
      constructor
      · exact add_le_add a3 a1
      · calc _ = (1 - (10 : ℝ)⁻¹ ^ 10) * nmlComplexity (m + 1 + 1) n +
              (n : ℝ) / ((m + 1 : ℕ) : ℝ) * ((1 - (10 : ℝ)⁻¹ ^ 10) * nmlComplexity (m + 1) n) := by ring
          _ ≤ _ := add_le_add a4 a2

/-! ### the number of turns of the first loop -/

theorem bound_arg (hA : MDLArith.Standard A u) (hu : 0 ≤ u) (hu1 : u ≤ 1 / 16) (n : ℕ) :
    Rounded u 4 (A.add 2 (A.sqrt (A.scale (2 * n * 10) A.ln10))) (2 + Real.sqrt (20 * n * Real.log 10)) := by
  have hl : 0 < Real.log 10 := Real.log_pos (by norm_num)
  have h1 : Rounded u 1 A.ln10 (Real.log 10) := by
    refine ⟨hl.le, ?_⟩
    have := hA.ln10
    unfold Within at this
    rw [abs_of_pos hl] at this
    simpa using this
  have h2 : Rounded u 2 (A.scale (2 * n * 10) A.ln10) (((2 * n * 10 : ℕ) : ℝ) * Real.log 10) := (h1.scale (by positivity)).round hu (hA.scale _ _)
  have e : ((2 * n * 10 : ℕ) : ℝ) * Real.log 10 = 20 * n * Real.log 10 := by push_cast; ring
  rw [e] at h2
  have h0 : 0 ≤ A.scale (2 * n * 10) A.ln10 := by
    have h3 := h2.2
    have h4 : (1 + u) ^ 2 - 1 ≤ 1 := by nlinarith
    have h5 := mul_le_mul_of_nonneg_right h4 h2.1
    have := (abs_le.1 (h3.trans h5)).1
    linarith
  have h3 := (h2.sqrt hu h0).round hu (hA.sqrt _ h0)
  exact (((Rounded.exact (by norm_num : (0:ℝ) ≤ 2)).mono hu (by omega : 0 ≤ 3)).add h3).round hu (hA.add _ _)

theorem bound_ge (hA : MDLArith.Standard A u) (hu : 0 ≤ u) (hu1 : u ≤ 1 / 16) (n : ℕ)
    (h : ((1 + u) ^ 4 - 1) * (2 + Real.sqrt (20 * n * Real.log 10)) ≤ 1) :
    1 + Real.sqrt (20 * n * Real.log 10) ≤ bound A n ∧ bound A n ≤ ⌈(2 + Real.sqrt (20 * n * Real.log 10) : ℝ)⌉₊ + 1 := by
  have h1 := abs_le.1 ((bound_arg hA hu hu1 n).2.trans h)
  constructor
  · have := Nat.le_ceil (A.add 2 (A.sqrt (A.scale (2 * n * 10) A.ln10)))
    unfold bound
    linarith
  · unfold bound
    rw [← Nat.ceil_add_one (by positivity)]
    exact Nat.ceil_mono (by linarith)

end
end Verif.FloatMDL
