import Verif.Lemmas.MDLCode
import Verif.Spec.FloatMDL
import Mathlib.Analysis.Complex.ExponentialBounds
import Mathlib.Tactic.Linarith
/-! The MDL functions on a machine with rounding errors: the loop of `universal_code_for_integer`. -/
namespace Verif.FloatMDL
open Verif.Spec

section
variable {u : ℝ} {A : MDLArith}

theorem logb_sub_le {x y m : ℝ} (hm : 0 < m) (hx : m ≤ x) (hy : m ≤ y) : Real.logb 2 y - Real.logb 2 x ≤ 1.45 * (|y - x| / m) := by
  have hx0 : 0 < x := by linarith
  have hy0 : 0 < y := by linarith
  have h1 := Real.log_le_sub_one_of_pos (div_pos hy0 hx0)
  rw [Real.log_div hy0.ne' hx0.ne'] at h1
  have e : y / x - 1 = (y - x) / x := by field_simp
  rw [e] at h1
  have h2 : (y - x) / x ≤ |y - x| / m := (div_le_div_of_nonneg_right (le_abs_self _) hx0.le).trans (div_le_div_of_nonneg_left (abs_nonneg _) hm hx)
  have h3 := Real.log_two_gt_d9
  have h4 : 0 ≤ |y - x| / m := by positivity
  unfold Real.logb
  rw [← sub_div, div_le_iff₀ (by linarith)]
  nlinarith

theorem logb_diff {x y m : ℝ} (hm : 0 < m) (hx : m ≤ x) (hy : m ≤ y) : |Real.logb 2 y - Real.logb 2 x| ≤ 1.45 * (|y - x| / m) := by
  rw [abs_le]
  have h1 := logb_sub_le hm hx hy
  have h2 := logb_sub_le hm hy hx
  rw [abs_sub_comm x y] at h2
  constructor <;> linarith

/-- the error of the logarithm of a number with an error -/
theorem log_step (hA : MDLArith.Standard A u) (hu : 0 ≤ u) {x y m : ℝ} (hm : 0 < m) (hx : m ≤ x) (hy : m ≤ y) :
    |A.log2 y - Real.logb 2 x| ≤ (1 + u) * (1.45 * (|y - x| / m)) + u * |Real.logb 2 x| := by
  have h1 := logb_diff hm hx hy
  have h2 := hA.log2 y (by linarith)
  unfold Within at h2
  have h3 := abs_sub_le (A.log2 y) (Real.logb 2 y) (Real.logb 2 x)
  have h4 : |Real.logb 2 y| ≤ |Real.logb 2 y - Real.logb 2 x| + |Real.logb 2 x| := by
    have := abs_add_le (Real.logb 2 y - Real.logb 2 x) (Real.logb 2 x)
    rwa [sub_add_cancel] at this
  have h5 := mul_le_mul_of_nonneg_left h4 hu
  nlinarith

theorem codeLoop_ge (f : ℕ) (x r v : ℝ) (h : MDL.codeLoop f x r = some v) : r ≤ v := by
  induction f generalizing x r with
  | zero => cases h
  | succ f ih =>
    unfold MDL.codeLoop at h
    by_cases hx : x > MDL.threshold
    · rw [if_pos hx] at h
      have := ih _ _ h
      have : 0 < MDL.threshold := by unfold MDL.threshold; norm_num
      linarith
    · rw [if_neg hx] at h
      cases h; exact le_refl _

/-- the exact and the calculated logarithm -/
def Close (u x y : ℝ) : Prop := (1 ≤ x ∧ |y - x| ≤ u * (2 * x + 8)) ∨ (0 ≤ x ∧ x < 1 ∧ |y - x| ≤ 19 * u)

theorem theta_bounds (hA : MDLArith.Standard A u) (hu1 : u ≤ 1 / 10 ^ 8) : |A.theta - 1 / 1000000| ≤ u / 10 ^ 6 ∧ 0.99 / 10 ^ 6 ≤ A.theta ∧ A.theta ≤ 1.01 / 10 ^ 6 := by
  have h := hA.theta
  unfold Within at h
  rw [abs_of_pos (by norm_num : (0:ℝ) < 1 / 1000000)] at h
  have h' := abs_le.1 h
  norm_num at hu1 h h' ⊢
  refine ⟨by linarith, ?_, ?_⟩ <;> linarith

theorem close_log (hA : MDLArith.Standard A u) (hu : 0 ≤ u) (hu1 : u ≤ 1 / 10 ^ 8) {x y : ℝ} (hx : 1 ≤ x) (h : |y - x| ≤ u * (2 * x + 8)) :
    Close u (Real.logb 2 x) (A.log2 y) := by
  norm_num at hu1
  have hxu : u * (2 * x + 8) ≤ 10 * u * x := by nlinarith
  have hy : 0.99 * x ≤ y := by
    have := (abs_le.1 h).1
    have : 10 * u * x ≤ 0.01 * x := mul_le_mul_of_nonneg_right (by linarith) (by linarith)
    linarith
  have h1 := log_step hA hu (x := x) (y := y) (m := 0.99 * x) (by linarith) (by linarith) hy
  have hq : |y - x| / (0.99 * x) ≤ u * (2 * x + 8) / (0.99 * x) := div_le_div_of_nonneg_right h (by linarith)
  have hl : 0 ≤ Real.logb 2 x := Real.logb_nonneg (by norm_num) hx
  rw [abs_of_nonneg hl] at h1
  by_cases h2 : 2 ≤ x
  · left
    have hl1 : 1 ≤ Real.logb 2 x := by
      rw [Real.le_logb_iff_rpow_le (by norm_num) (by linarith)]; simpa using h2
    have hq2 : u * (2 * x + 8) / (0.99 * x) ≤ 6.07 * u := by
      rw [div_le_iff₀ (by linarith)]
      nlinarith
    have h3 : 1.45 * (|y - x| / (0.99 * x)) ≤ 8.81 * u := by linarith
    have h4 : (1 + u) * (1.45 * (|y - x| / (0.99 * x))) ≤ (1 + u) * (8.81 * u) := mul_le_mul_of_nonneg_left h3 (by linarith)
    have h5 : u * u ≤ u * (1 / 10 ^ 8) := mul_le_mul_of_nonneg_left (by norm_num; linarith) hu
    refine ⟨hl1, ?_⟩
    have h6 : u * 1 ≤ u * Real.logb 2 x := mul_le_mul_of_nonneg_left hl1 hu
    norm_num at h5
    linarith
  · right
    have h2' : x < 2 := lt_of_not_ge h2
    have hl1 : Real.logb 2 x < 1 := by
      rw [Real.logb_lt_iff_lt_rpow (by norm_num) (by linarith)]; simpa using h2'
    have hq2 : u * (2 * x + 8) / (0.99 * x) ≤ 10.2 * u := by
      rw [div_le_iff₀ (by linarith)]
      nlinarith
    have h3 : 1.45 * (|y - x| / (0.99 * x)) ≤ 14.8 * u := by linarith
    have h4 : (1 + u) * (1.45 * (|y - x| / (0.99 * x))) ≤ (1 + u) * (14.8 * u) := mul_le_mul_of_nonneg_left h3 (by linarith)
    have h5 : u * u ≤ u * (1 / 10 ^ 8) := mul_le_mul_of_nonneg_left (by norm_num; linarith) hu
    refine ⟨hl, hl1, ?_⟩
    have h6 : u * Real.logb 2 x ≤ u * 1 := mul_le_mul_of_nonneg_left hl1.le hu
    norm_num at h5
    linarith

/-- a number up to one and its error: the loop ends after it -/
theorem log_small (hA : MDLArith.Standard A u) (hu1 : u ≤ 1 / 10 ^ 8) {y : ℝ} (h0 : A.theta < y) (hy : y ≤ 1 + 19 * u) : A.log2 y ≤ A.theta := by
  obtain ⟨_, t1, _⟩ := theta_bounds hA hu1
  norm_num at hu1 t1
  have hy0 : 0 < y := by linarith
  have h2 := hA.log2 y hy0
  unfold Within at h2
  have h3 := (abs_le.1 h2).2
  by_cases h1 : 1 ≤ y
  · have h4 := logb_sub_le (x := 1) (y := y) (m := 1) (by norm_num) (le_refl _) h1
    rw [Real.logb_one, sub_zero, div_one, abs_of_nonneg (by linarith)] at h4
    have h5 : 0 ≤ Real.logb 2 y := Real.logb_nonneg (by norm_num) h1
    rw [abs_of_nonneg h5] at h3
    have h6 : u * Real.logb 2 y ≤ 1 * Real.logb 2 y := mul_le_mul_of_nonneg_right (by linarith) h5
    linarith
  · have h5 : Real.logb 2 y ≤ 0 := Real.logb_nonpos (by norm_num) hy0.le (by linarith)
    rw [abs_of_nonpos h5] at h3
    have h6 : u * (-Real.logb 2 y) ≤ 1 * (-Real.logb 2 y) := mul_le_mul_of_nonneg_right (by linarith) (by linarith)
    linarith

/-- the error of one more term of the sum -/
theorem add_step (hA : MDLArith.Standard A u) (hu : 0 ≤ u) {r s x y E R : ℝ} (h : |s + y - (r + x)| ≤ E) (hE : E ≤ 1) (h0 : 0 ≤ r + x) (hR : r + x ≤ R) :
    |A.add s y - (r + x)| ≤ E + u * (R + 1) := by
  have h1 := hA.add s y
  unfold Within at h1
  have h2 := abs_sub_le (A.add s y) (s + y) (r + x)
  have h3 : |s + y| ≤ R + 1 := by
    have := abs_add_le (s + y - (r + x)) (r + x)
    rw [sub_add_cancel, abs_of_nonneg h0] at this
    linarith
  have h4 := mul_le_mul_of_nonneg_left h3 hu
  linarith

theorem codeLoop_close (hA : MDLArith.Standard A u) (hu : 0 ≤ u) (hu1 : u ≤ 1 / 10 ^ 8) {G : ℝ} (hG0 : 0 ≤ G) (f : ℕ) :
    ∀ x r v y s : ℝ, MDL.codeLoop f x r = some v → Close u x y → 3 / 2 ≤ r → |s - r| ≤ u * (v + 11) * r → 20 * u * v ^ 2 ≤ 1 →
      (∀ k, |(Real.logb 2)^[k] x - 1 / 1000000| ≤ 20 * u → 1 / 1000000 ≤ G) →
      ∃ g w, (∀ g', g ≤ g' → codeLoop A g' y s = some w) ∧ |w - v| ≤ G + 20 * u * v ^ 2 := by
  induction f with
  | zero => intro x r v y s h; cases h
  | succ f ih =>
    intro x r v y s h hc hr hs hv hG
    have hrv := codeLoop_ge _ _ _ _ h
    obtain ⟨t0, t1, t2⟩ := theta_bounds hA hu1
    have t0' := abs_le.1 t0
    norm_num at t0' t1 t2
    have hu1' := hu1
    norm_num at hu1'
    have hv0 : 3 / 2 ≤ v := by linarith
    have hvv : 3 / 2 * v ≤ v ^ 2 := by nlinarith
    have hv2 : 9 / 4 ≤ v ^ 2 := by nlinarith
    have a0 : 0 ≤ u * v ^ 2 := by positivity
    have a1 : u * v ≤ u * v ^ 2 * (2 / 3) := by nlinarith
    have a2 : u ≤ u * v ^ 2 * (4 / 9) := by nlinarith
    have hthr : MDL.threshold = 1 / 1000000 := rfl
    unfold MDL.codeLoop at h
    rw [hthr] at h
    have hrr : u * (v + 11) * r ≤ u * v ^ 2 + 11 * (u * v) := by
      have : u * (v + 11) * r ≤ u * (v + 11) * v := mul_le_mul_of_nonneg_left hrv (by positivity)
      linarith only [this, (by ring : u * (v + 11) * v = u * v ^ 2 + 11 * (u * v))]
    rcases hc with ⟨hx, hxy⟩ | ⟨hx0, hx1, hxy⟩
    · -- one more turn
      rw [if_pos (by linarith)] at h
      have hrv2 := codeLoop_ge _ _ _ _ h
      have hxu : u * (2 * x + 8) ≤ 10 * u * x := by nlinarith
      have hy : A.theta < y := by
        have := (abs_le.1 hxy).1
        have : 10 * u * x ≤ 0.01 * x := mul_le_mul_of_nonneg_right (by linarith) (by linarith)
        linarith
      have e1 : |s + y - (r + x)| ≤ u * (v + 11) * r + 10 * u * x := by
        have := abs_add_le (s - r) (y - x)
        rw [(by ring : s - r + (y - x) = s + y - (r + x))] at this
        linarith
      have e2 : u * (v + 11) * r + 10 * u * x ≤ 1 := by
        have : u * (v + 11) * (r + x) ≤ u * (v + 11) * v := mul_le_mul_of_nonneg_left hrv2 (by positivity)
        have h10 : 10 * u * x ≤ u * (v + 11) * x := mul_le_mul_of_nonneg_right (by nlinarith) (by linarith)
        linarith only [this, h10, a1, hv, (by ring : u * (v + 11) * v = u * v ^ 2 + 11 * (u * v)), (by ring : u * (v + 11) * (r + x) = u * (v + 11) * r + u * (v + 11) * x)]
      have e3 := add_step hA hu e1 e2 (by linarith) hrv2
      have e4 : u * (v + 11) * r + 10 * u * x + u * (v + 1) ≤ u * (v + 11) * (r + x) := by
        have : u * (v + 1) * 1 ≤ u * (v + 1) * x := mul_le_mul_of_nonneg_left hx (by positivity)
        linarith only [this, (by ring : u * (v + 11) * (r + x) = u * (v + 11) * r + 10 * u * x + u * (v + 1) * x)]
      obtain ⟨g, w, hg, hw⟩ := ih (Real.logb 2 x) (r + x) v (A.log2 y) (A.add s y) h (close_log hA hu hu1 hx hxy) (by linarith) (e3.trans e4) hv
        (fun k hk => hG (k + 1) (by rw [Function.iterate_succ_apply]; exact hk))
      refine ⟨g + 1, w, fun g' hg' => ?_, hw⟩
      obtain ⟨j, rfl⟩ : ∃ j, g' = j + 1 := ⟨g' - 1, by omega⟩
      unfold codeLoop
      rw [if_pos hy]
      exact hg j (by omega)
    · -- the last turn
      have hxy' := abs_le.1 hxy
      have hyy : A.theta < y → ∀ g', 2 ≤ g' → codeLoop A g' y s = some (A.add s y) := by
        intro hy g' hg'
        obtain ⟨j, rfl⟩ : ∃ j, g' = j + 2 := ⟨g' - 2, by omega⟩
        have := log_small hA hu1 hy (by linarith)
        unfold codeLoop
        rw [if_pos hy]
        unfold codeLoop
        rw [if_neg (by linarith)]
      have hyn : ¬ A.theta < y → ∀ g', 2 ≤ g' → codeLoop A g' y s = some s := by
        intro hy g' hg'
        obtain ⟨j, rfl⟩ : ∃ j, g' = j + 2 := ⟨g' - 2, by omega⟩
        unfold codeLoop
        rw [if_neg hy]
      by_cases hx : x > 1 / 1000000
      · rw [if_pos hx] at h
        have hrv2 := codeLoop_ge _ _ _ _ h
        have hv' : v = r + x := by
          cases f with
          | zero => cases h
          | succ f =>
            unfold MDL.codeLoop at h
            rw [if_neg] at h
            · exact (Option.some.inj h).symm
            · rw [hthr, gt_iff_lt, not_lt]
              have : Real.logb 2 x ≤ 0 := Real.logb_nonpos (by norm_num) hx0 hx1.le
              linarith
        by_cases hy : A.theta < y
        · refine ⟨2, _, hyy hy, ?_⟩
          have e1 : |s + y - (r + x)| ≤ u * (v + 11) * r + 19 * u := by
            have := abs_add_le (s - r) (y - x)
            rw [(by ring : s - r + (y - x) = s + y - (r + x))] at this
            linarith
          have e3 := add_step hA hu e1 (by linarith) (by linarith) hrv2
          rw [← hv'] at e3
          linarith only [e3, hrr, a0, a1, a2, hG0, (by ring : u * (v + 1) = u * v + u)]
        · refine ⟨2, _, hyn hy, ?_⟩
          have hG1 := hG 0 (by
            rw [Function.iterate_zero_apply, abs_le]
            constructor <;> linarith)
          have e1 : |s - v| ≤ u * (v + 11) * r + x := by
            have := abs_add_le (s - r) (-x)
            rw [abs_neg, abs_of_nonneg hx0, (by rw [hv']; ring : s - r + -x = s - v)] at this
            linarith
          have e2 : x ≤ 1 / 1000000 + 20 * u := by linarith
          linarith only [e1, e2, hrr, a0, a1, a2, hG1]
      · rw [if_neg hx] at h
        have hv' : v = r := (Option.some.inj h).symm
        by_cases hy : A.theta < y
        · refine ⟨2, _, hyy hy, ?_⟩
          have hG1 := hG 0 (by
            rw [Function.iterate_zero_apply, abs_le]
            constructor <;> linarith)
          have e1 : |s + y - (r + 0)| ≤ u * (v + 11) * r + (1 / 1000000 + 19 * u) := by
            have := abs_add_le (s - r) y
            rw [abs_of_pos (by linarith : 0 < y), (by ring : s - r + y = s + y - (r + 0))] at this
            linarith
          have e3 := add_step hA hu e1 (by linarith) (by linarith) (R := v) (by linarith)
          rw [add_zero, ← hv'] at e3
          linarith only [e3, hrr, a0, a1, a2, hG1, hv', (by ring : u * (v + 1) = u * v + u), (by rw [← hv'] : u * (v + 11) * r = u * (v + 11) * v)]
        · refine ⟨2, _, hyn hy, ?_⟩
          have : |s - v| ≤ u * (v + 11) * r := by rw [hv']; rw [hv'] at hs; exact hs
          linarith only [this, hrr, a0, a1, a2, hG0]

end
end Verif.FloatMDL
