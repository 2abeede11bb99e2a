import Verif.Model.MDL
import Verif.Spec.MDL
import Mathlib.Analysis.SpecialFunctions.Log.Deriv
import Mathlib.Analysis.Complex.ExponentialBounds
import Mathlib.Analysis.SpecialFunctions.Pow.Real
/-! The universal code for integers: termination, value, monotonicity. -/
namespace Verif.MDL
open Verif.Spec

theorem logb_le (x : ℝ) (hx : 0 < x) : Real.logb 2 x ≤ x - 1 / 2 := by
  have h2 := Real.log_two_gt_d9
  have h2' := Real.log_two_lt_d9
  have hl : 0 < Real.log 2 := by linarith
  rw [Real.logb, div_le_iff₀ hl]
  have h1 := Real.log_le_sub_one_of_pos (mul_pos hx hl)
  rw [Real.log_mul hx.ne' hl.ne'] at h1
  have h3 := Real.one_sub_inv_le_log_of_pos hl
  have h4 : (Real.log 2)⁻¹ ≤ 1.5 := by
    rw [inv_le_comm₀ hl (by norm_num)]
    norm_num; linarith
  nlinarith

theorem codeLoop_isSome (m : Nat) (x r : ℝ) (h : x ≤ m / 2) : (codeLoop (m + 1) x r).isSome := by
  induction m generalizing x r with
  | zero =>
    have hx : ¬ x > threshold := by unfold threshold; norm_num at h ⊢; linarith
    simp only [codeLoop, if_neg hx, Option.isSome_some]
  | succ m ih =>
    unfold codeLoop
    split
    · rename_i hx
      apply ih
      have hp : 0 < x := lt_trans (by unfold threshold; norm_num) hx
      have := logb_le x hp
      push_cast at h
      linarith
    · rfl

theorem codeLoop_mono (f : Nat) (x r v : ℝ) (h : codeLoop f x r = some v) (g : Nat) (hg : f ≤ g) :
    codeLoop g x r = some v := by
  induction f generalizing x r g with
  | zero => cases h
  | succ f ih =>
    obtain ⟨g, rfl⟩ : ∃ g', g = g' + 1 := ⟨g - 1, by omega⟩
    unfold codeLoop at h ⊢
    split at h
    · rename_i hx
      rw [if_pos hx]
      exact ih _ _ h _ (by omega)
    · rename_i hx
      rw [if_neg hx]
      exact h

/-- the loop adds the iterates that exceed the threshold -/
theorem codeLoop_sum (f : Nat) (x r v : ℝ) (h : codeLoop f x r = some v) :
    ∃ K, (∀ k, k < K → threshold < (Real.logb 2)^[k] x) ∧ (Real.logb 2)^[K] x ≤ threshold ∧
      v = r + ∑ k ∈ Finset.range K, (Real.logb 2)^[k] x := by
  induction f generalizing x r with
  | zero => cases h
  | succ f ih =>
    unfold codeLoop at h
    split at h
    · rename_i hx
      obtain ⟨K, h1, h2, h3⟩ := ih _ _ h
      refine ⟨K + 1, ?_, h2, ?_⟩
      · intro k hk
        cases k with
        | zero => exact hx
        | succ k => exact h1 k (by omega)
      · rw [h3, Finset.sum_range_succ']
        simp only [Function.iterate_succ_apply, Function.iterate_zero, id]
        ring
    · rename_i hx
      cases h
      exact ⟨0, by simp, not_lt.1 hx, by simp⟩

/-- a larger start gives a larger result -/
theorem codeLoop_lt (f g : Nat) (x y r s v w : ℝ) (h : codeLoop f x r = some v) (h' : codeLoop g y s = some w)
    (hxy : x ≤ y) (hrs : r ≤ s) : v ≤ w := by
  induction f generalizing x y r s g with
  | zero => cases h
  | succ f ih =>
    cases g with
    | zero => cases h'
    | succ g =>
      unfold codeLoop at h h'
      split at h
      · rename_i hx
        have hy : y > threshold := lt_of_lt_of_le hx hxy
        rw [if_pos hy] at h'
        have hp : 0 < x := lt_trans (by unfold threshold; norm_num) hx
        exact ih _ _ _ _ _ h h' (Real.logb_le_logb_of_le (by norm_num) hp hxy) (by linarith)
      · cases h
        clear ih
        -- the other loop only adds
        have key : ∀ (g : Nat) (y s w : ℝ), codeLoop g y s = some w → s ≤ w := by
          intro g
          induction g with
          | zero => intro y s w h; cases h
          | succ g ih =>
            intro y s w h
            unfold codeLoop at h
            split at h
            · rename_i hy
              have hp : 0 < y := lt_trans (by unfold threshold; norm_num) hy
              have := ih _ _ _ h
              linarith
            · cases h; exact le_refl _
        exact le_trans hrs (key (g + 1) y s w (by unfold codeLoop; exact h'))

theorem logb_natCast_le (n : Nat) (hn : 1 ≤ n) : Real.logb 2 (n : ℝ) ≤ ((2 * n : Nat) : ℝ) / 2 := by
  have := logb_le (n : ℝ) (by exact_mod_cast hn)
  push_cast; linarith

theorem universal_isSome (n : Nat) : ∃ r, universalCodeFuel (2 * n + 1) n = .ok (some r) := by
  unfold universalCodeFuel
  rw [if_neg (by omega)]
  by_cases h0 : (n : Int) = 0
  · rw [if_pos h0]; exact ⟨0, rfl⟩
  · rw [if_neg h0]
    obtain ⟨r, hr⟩ := Option.isSome_iff_exists.1
      (codeLoop_isSome (2 * n) (Real.logb 2 (n : ℝ)) logK0 (logb_natCast_le n (by omega)))
    refine ⟨r, ?_⟩
    have : ((n : Int) : ℝ) = (n : ℝ) := by simp
    rw [this, hr]

theorem universal_mono (n : Int) (f g : Nat) (r : ℝ) (h : universalCodeFuel f n = .ok (some r)) (hg : f ≤ g) :
    universalCodeFuel g n = .ok (some r) := by
  unfold universalCodeFuel at h ⊢
  split at h
  · cases h
  rename_i h0
  rw [if_neg h0]
  split at h
  · rename_i h1; rw [if_pos h1]; exact h
  · rename_i h1
    rw [if_neg h1]
    injection h with h
    rw [codeLoop_mono _ _ _ _ h g hg]

theorem universal_code (n : Nat) (g : Nat) (hg : 2 * n + 1 ≤ g) : universalCodeFuel g n = .ok (some (code n)) := by
  obtain ⟨r, hr⟩ := universal_isSome n
  have : code n = r := by
    unfold code
    rw [universal_mono n _ (2 * n + 2) r hr (by omega)]
  rw [this]
  exact universal_mono n _ g r hr hg

theorem code_zero : code 0 = 0 := by
  have := universal_code 0 1 (by omega)
  simp [universalCodeFuel] at this
  exact this.symm

theorem code_pos_loop (n : Nat) (hn : 1 ≤ n) : codeLoop (2 * n + 1) (Real.logb 2 (n : ℝ)) logK0 = some (code n) := by
  have := universal_code n (2 * n + 1) (le_refl _)
  unfold universalCodeFuel at this
  rw [if_neg (by omega), if_neg (by omega)] at this
  injection this with this

theorem logK0_pos : 0 < logK0 := Real.logb_pos (by norm_num) (by norm_num)

theorem code_spec (n : Nat) (hn : 1 ≤ n) : IsUniversalCode n (code n) := by
  obtain ⟨K, h1, h2, h3⟩ := codeLoop_sum _ _ _ _ (code_pos_loop n hn)
  have e : ∀ k, iterLog n k = (Real.logb 2)^[k] (Real.logb 2 (n : ℝ)) := by
    intro k; unfold iterLog; rw [Function.iterate_succ_apply]; simp
  refine ⟨K, fun k hk => ?_, ?_, ?_⟩
  · rw [e]; exact h1 k hk
  · rw [e]; exact h2
  · rw [h3]; unfold logK0; simp only [e]

theorem isUniversalCode_unique {n : Int} {r s : ℝ} (hr : IsUniversalCode n r) (hs : IsUniversalCode n s) : r = s := by
  obtain ⟨K, h1, h2, h3⟩ := hr
  obtain ⟨J, g1, g2, g3⟩ := hs
  have : K = J := by
    rcases Nat.lt_trichotomy K J with h | h | h
    · exact absurd (g1 K h) (not_lt.2 h2)
    · exact h
    · exact absurd (h1 J h) (not_lt.2 g2)
  subst this
  rw [h3, g3]

theorem code_eq (n : Nat) : code n = universalCode n := by
  unfold universalCode
  by_cases hn : n = 0
  · subst hn; rw [code_zero, dif_neg (by simp)]
  · have h : n ≠ 0 ∧ ∃ r, IsUniversalCode n r := ⟨hn, _, code_spec n (by omega)⟩
    rw [dif_pos h]
    exact isUniversalCode_unique (code_spec n (by omega)) h.2.choose_spec

/-- at least the first logarithm is counted -/
theorem code_lower (n : Nat) (hn : 1 ≤ n) : logK0 + Real.logb 2 (n : ℝ) ≤ code n := by
  by_cases h1 : n = 1
  · subst h1
    have := code_pos_loop 1 (le_refl _)
    have ht : ¬ (0 : ℝ) > threshold := by unfold threshold; norm_num
    simp only [Nat.cast_one, Real.logb_one] at this
    unfold codeLoop at this
    rw [if_neg ht] at this
    injection this with this
    simp [← this]
  · have h := code_pos_loop n hn
    have hlog : (1 : ℝ) ≤ Real.logb 2 (n : ℝ) := by
      rw [Real.le_logb_iff_rpow_le (by norm_num) (by exact_mod_cast hn)]
      have : (2 : ℝ) ≤ n := by exact_mod_cast (by omega : 2 ≤ n)
      simpa using this
    have ht : Real.logb 2 (n : ℝ) > threshold := by unfold threshold; norm_num; linarith
    obtain ⟨K, h1', h2, h3⟩ := codeLoop_sum _ _ _ _ h
    rw [h3]
    have hK : 0 < K := by
      rcases Nat.eq_zero_or_pos K with rfl | hK
      · exact absurd ht (not_lt.2 h2)
      · exact hK
    have := Finset.single_le_sum (f := fun k => (Real.logb 2)^[k] (Real.logb 2 (n : ℝ))) (s := Finset.range K)
      (fun k hk => le_of_lt (lt_trans (by unfold threshold; norm_num) (h1' k (Finset.mem_range.1 hk))))
      (Finset.mem_range.2 hK)
    simp only [Function.iterate_zero, id] at this
    linarith

theorem code_nonneg (n : Nat) : 0 ≤ code n := by
  rcases Nat.eq_zero_or_pos n with rfl | hn
  · rw [code_zero]
  · have := code_lower n hn
    have h1 := logK0_pos
    have h2 : 0 ≤ Real.logb 2 (n : ℝ) := Real.logb_nonneg (by norm_num) (by exact_mod_cast hn)
    linarith

theorem code_lt_succ_of (m n : Nat) (h : m < n) : code m < code n := by
  rcases Nat.eq_zero_or_pos m with rfl | hm
  · rw [code_zero]
    have := code_lower n (by omega)
    have h1 := logK0_pos
    have h2 : 0 ≤ Real.logb 2 (n : ℝ) := Real.logb_nonneg (by norm_num) (by exact_mod_cast (by omega : 1 ≤ n))
    linarith
  · have hn : 1 ≤ n := by omega
    have hlt : Real.logb 2 (m : ℝ) < Real.logb 2 (n : ℝ) :=
      Real.logb_lt_logb (by norm_num) (by exact_mod_cast hm) (by exact_mod_cast h)
    have e1 := code_pos_loop m hm
    have e2 := code_pos_loop n hn
    by_cases h1 : m = 1
    · subst h1
      have := code_lower n hn
      have ht : ¬ (0 : ℝ) > threshold := by unfold threshold; norm_num
      simp only [Nat.cast_one, Real.logb_one] at e1 hlt
      unfold codeLoop at e1
      rw [if_neg ht] at e1
      injection e1 with e1
      linarith
    · have hlog : (1 : ℝ) ≤ Real.logb 2 (m : ℝ) := by
        rw [Real.le_logb_iff_rpow_le (by norm_num) (by exact_mod_cast hm)]
        have : (2 : ℝ) ≤ m := by exact_mod_cast (by omega : 2 ≤ m)
        simpa using this
      have ht : Real.logb 2 (m : ℝ) > threshold := by unfold threshold; norm_num; linarith
      have ht' : Real.logb 2 (n : ℝ) > threshold := by linarith
      unfold codeLoop at e1 e2
      rw [if_pos ht] at e1
      rw [if_pos ht'] at e2
      -- shift the second accumulator
      have shift : ∀ (f : Nat) (x r d v : ℝ), codeLoop f x r = some v → codeLoop f x (r + d) = some (v + d) := by
        intro f
        induction f with
        | zero => intro x r d v h; cases h
        | succ f ih =>
          intro x r d v h
          unfold codeLoop at h ⊢
          split at h
          · rename_i hx
            rw [if_pos hx]
            have := ih _ _ d _ h
            rwa [add_right_comm] at this
          · rename_i hx
            rw [if_neg hx]
            cases h; rfl
      have e1' := shift _ _ _ (Real.logb 2 (n : ℝ) - Real.logb 2 (m : ℝ)) _ e1
      have := codeLoop_lt _ _ _ _ _ _ _ _ e1' e2
        (Real.logb_le_logb_of_le (by norm_num) (by linarith) (le_of_lt hlt)) (by linarith)
      linarith

end Verif.MDL
