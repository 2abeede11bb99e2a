import Mathlib.Algebra.Group.ForwardDiff
import Mathlib.Data.Nat.Choose.Sum
import Mathlib.Tactic.Ring
import Mathlib.Tactic.FieldSimp
import Mathlib.Data.Real.Basic
/-! Abel's binomial theorem and the sum `∑ C(n,k) kᵏ (n-k)ⁿ⁻ᵏ`. -/
namespace Verif.Abel
open Finset

/-- `x (x+k)^(k-1)`, with the value 1 for `k = 0` -/
def P (x : ℝ) (k : ℕ) : ℝ := if k = 0 then 1 else x * (x + k) ^ (k - 1)

/-- alternating binomial sum of a small power -/
theorem alt_pow (x : ℝ) (m j : ℕ) (h : j < m) :
    ∑ k ∈ range (m + 1), ((-1 : ℝ) ^ (m - k) * m.choose k) * (x + k) ^ j = 0 := by
  have h1 := fwdDiff_iter_eq_sum_shift (h := (1 : ℝ)) (fun r : ℝ => r ^ j) m x
  rw [fwdDiff_iter_pow_eq_zero_of_lt h] at h1
  simp only [Pi.zero_apply] at h1
  rw [h1]
  refine sum_congr rfl fun k _ => ?_
  simp

/-- Abel's binomial theorem -/
theorem abel (n : ℕ) (x w : ℝ) :
    ∑ k ∈ range (n + 1), (n.choose k : ℝ) * P x k * (w - (x + k)) ^ (n - k) = w ^ n := by
  have e1 : ∀ k ∈ range (n + 1), (n.choose k : ℝ) * P x k * (w - (x + k)) ^ (n - k) =
      ∑ j ∈ range (n + 1), (if j ≤ n - k then
        (n.choose k : ℝ) * P x k * (((n - k).choose j : ℝ) * w ^ j * (-(x + k)) ^ (n - k - j)) else 0) := by
    intro k hk
    have hk' : k ≤ n := by have := mem_range.1 hk; omega
    rw [sub_eq_add_neg, add_pow, mul_sum]
    rw [← sum_filter]
    have : (range (n + 1)).filter (fun j => j ≤ n - k) = range (n - k + 1) := by
      ext j; simp; omega
    rw [this]
    refine sum_congr rfl fun j _ => ?_
    ring
  rw [sum_congr rfl e1, sum_comm]
  rw [sum_eq_single n]
  · rw [sum_eq_single 0]
    · simp [P]
    · intro k hk h0
      rw [if_neg (by have := mem_range.1 hk; omega)]
    · simp
  · intro j hj hjn
    have hj' : j < n := by have := mem_range.1 hj; omega
    -- all the terms of this power of w
    have e2 : ∀ k ∈ range (n + 1), (if j ≤ n - k then
        (n.choose k : ℝ) * P x k * (((n - k).choose j : ℝ) * w ^ j * (-(x + k)) ^ (n - k - j)) else 0) =
        if k < n - j + 1 then (n.choose j : ℝ) * w ^ j * x *
          (((-1 : ℝ) ^ (n - j - k) * (n - j).choose k) * (x + k) ^ (n - j - 1)) else 0 := by
      intro k hk
      have hk' : k ≤ n := by have := mem_range.1 hk; omega
      by_cases hc : j ≤ n - k
      · rw [if_pos hc, if_pos (by omega)]
        have hch : (n.choose k : ℝ) * ((n - k).choose j : ℝ) = (n.choose j : ℝ) * ((n - j).choose k : ℝ) := by
          have h1 := Nat.choose_mul (n := n) (k := j + k) (s := k) (by omega)
          have h2 := Nat.choose_mul (n := n) (k := j + k) (s := j) (by omega)
          have h3 : (j + k).choose k = (j + k).choose j := by rw [Nat.choose_symm_add]
          have e4 : j + k - k = j := by omega
          have e5 : j + k - j = k := by omega
          rw [e4] at h1
          rw [e5] at h2
          rw [← Nat.cast_mul, ← Nat.cast_mul, ← h1, ← h2, h3]
        have hP : P x k * (-(x + k)) ^ (n - k - j) = x * ((-1) ^ (n - j - k) * (x + k) ^ (n - j - 1)) := by
          have e6 : n - k - j = n - j - k := by omega
          rw [neg_pow, e6]
          unfold P
          split
          · rename_i h0
            subst h0
            have : n - j - 0 = (n - j - 1) + 1 := by omega
            rw [this, pow_succ (x + ((0 : ℕ) : ℝ)) (n - j - 1)]
            simp
            ring
          · rename_i h0
            have : n - j - 1 = (k - 1) + (n - j - k) := by omega
            rw [this, pow_add (x + (k : ℝ)) (k - 1)]
            ring
        calc (n.choose k : ℝ) * P x k * (((n - k).choose j : ℝ) * w ^ j * (-(x + k)) ^ (n - k - j))
            = ((n.choose k : ℝ) * ((n - k).choose j : ℝ)) * w ^ j * (P x k * (-(x + k)) ^ (n - k - j)) := by ring
          _ = _ := by rw [hch, hP]; ring
      · rw [if_neg hc, if_neg (by omega)]
    rw [sum_congr rfl e2, ← sum_filter]
    have : (range (n + 1)).filter (fun k => k < n - j + 1) = range (n - j + 1) := by
      ext k; simp; omega
    rw [this, ← mul_sum, alt_pow x (n - j) (n - j - 1) (by omega), mul_zero]
  · simp

/-- the two-variable sum -/
noncomputable def F (n : ℕ) (x w : ℝ) : ℝ :=
  ∑ k ∈ range (n + 1), (n.choose k : ℝ) * (x + k) ^ k * (w - (x + k)) ^ (n - k)

theorem F_rec (n : ℕ) (x w : ℝ) : F (n + 1) x w = w ^ (n + 1) + (n + 1) * F n (x + 1) w := by
  have e : ∀ k ∈ range (n + 1 + 1), ((n + 1).choose k : ℝ) * (x + k) ^ k * (w - (x + k)) ^ (n + 1 - k) =
      ((n + 1).choose k : ℝ) * P x k * (w - (x + k)) ^ (n + 1 - k) +
      (if k = 0 then 0 else ((n + 1).choose k : ℝ) * k * (x + k) ^ (k - 1) * (w - (x + k)) ^ (n + 1 - k)) := by
    intro k _
    unfold P
    split
    · rename_i h; subst h; simp
    · rename_i h
      obtain ⟨m, rfl⟩ : ∃ m, k = m + 1 := ⟨k - 1, by omega⟩
      simp only [Nat.add_sub_cancel, pow_succ]
      ring
  unfold F
  rw [sum_congr rfl e, sum_add_distrib, abel]
  congr 1
  rw [sum_range_succ']
  simp only [if_true, add_zero, Nat.add_eq_zero_iff, one_ne_zero, and_false, if_false]
  rw [mul_sum]
  refine sum_congr rfl fun k _ => ?_
  have h1 : ((n + 1).choose (k + 1) : ℝ) * ((k + 1 : ℕ) : ℝ) = (n + 1 : ℝ) * (n.choose k : ℝ) := by
    have := Nat.add_one_mul_choose_eq n k
    have h2 : (((n + 1) * n.choose k : ℕ) : ℝ) = (((n + 1).choose (k + 1) * (k + 1) : ℕ) : ℝ) := by rw [this]
    push_cast at h2
    push_cast
    exact h2.symm
  have h3 : n + 1 - (k + 1) = n - k := by omega
  have h4 : x + ((k + 1 : ℕ) : ℝ) = x + 1 + k := by push_cast; ring
  rw [h1, h3, h4, Nat.add_sub_cancel]
  ring

/-- closed form with falling factorials -/
theorem F_eq (n : ℕ) (x w : ℝ) : F n x w = ∑ k ∈ range (n + 1), (n.descFactorial k : ℝ) * w ^ (n - k) := by
  induction n generalizing x with
  | zero => simp [F]
  | succ n ih =>
    rw [F_rec, ih, mul_sum, sum_range_succ' _ (n + 1)]
    have h0 : (((n + 1).descFactorial 0 : ℕ) : ℝ) * w ^ (n + 1 - 0) = w ^ (n + 1) := by simp
    rw [h0, add_comm]
    congr 1
    refine sum_congr rfl fun k _ => ?_
    rw [Nat.succ_descFactorial_succ]
    have : n + 1 - (k + 1) = n - k := by omega
    rw [this]
    push_cast
    ring

end Verif.Abel
