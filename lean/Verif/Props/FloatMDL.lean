import Verif.Lemmas.FloatMDL
import Verif.Lemmas.FloatMDLCode
import Verif.Props.MDL
/-! Property C111: the code lengths and the complexity of the MDL principle in floating point. -/
namespace Verif.FloatMDL
open Verif.Spec

/-! ### the code of integers -/

theorem logK0_ge : 3 / 2 ≤ MDL.logK0 := by
  unfold MDL.logK0
  rw [Real.le_logb_iff_rpow_le (by norm_num) (by norm_num)]
  have h : ((2 : ℝ) ^ (3 / 2 : ℝ)) ^ 2 = 8 := by
    rw [← Real.rpow_natCast, ← Real.rpow_mul (by norm_num)]
    norm_num
  have h0 : 0 ≤ (2 : ℝ) ^ (3 / 2 : ℝ) := by positivity
  nlinarith

theorem logK0_le : MDL.logK0 ≤ 2 := by
  unfold MDL.logK0
  rw [Real.logb_le_iff_le_rpow (by norm_num) (by norm_num)]
  norm_num

theorem logb_one_le {n : ℕ} (h : 2 ≤ n) : 1 ≤ Real.logb 2 (n : ℝ) := by
  rw [Real.le_logb_iff_rpow_le (by norm_num) (by positivity)]
  simpa using (by exact_mod_cast h : (2 : ℝ) ≤ n)

section
variable {u : ℝ} {A : MDLArith}

theorem code_gap (hA : MDLArith.Standard A u) (hu : 0 ≤ u) (hu1 : u ≤ 1 / 10 ^ 8) {n : ℕ} (hn : 1 ≤ n) (hv : 20 * u * Spec.universalCode n ^ 2 ≤ 1)
    {G : ℝ} (hG0 : 0 ≤ G) (hG : ∀ k, |iterLog n k - 1 / 1000000| ≤ 20 * u → 1 / 1000000 ≤ G) :
    ∃ r, ComputesCode A n r ∧ |r - Spec.universalCode n| ≤ G + 20 * u * Spec.universalCode n ^ 2 := by
  have h := MDL.code_pos_loop n hn
  rw [MDL.code_eq] at h
  have k1 := logK0_ge
  have k2 := logK0_le
  have hu1' := hu1
  norm_num at hu1'
  have hrv := codeLoop_ge _ _ _ _ h
  have hk0 := hA.k0
  unfold Within at hk0
  rw [abs_of_pos (by norm_num : (0:ℝ) < 2.865064)] at hk0
  have hk0' := abs_le.1 hk0
  have hs : |A.log2 A.k0 - MDL.logK0| ≤ u * (Spec.universalCode n + 11) * MDL.logK0 := by
    have h1 := log_step hA hu (x := 2.865064) (y := A.k0) (m := 14 / 5) (by norm_num) (by norm_num) (by linarith)
    have h2 : 1.45 * (|A.k0 - 2.865064| / (14 / 5)) ≤ 1.49 * u := by linarith
    have h3 : (1 + u) * (1.45 * (|A.k0 - 2.865064| / (14 / 5))) ≤ (1 + u) * (1.49 * u) := mul_le_mul_of_nonneg_left h2 (by linarith)
    change |A.log2 A.k0 - MDL.logK0| ≤ _ + u * |MDL.logK0| at h1
    rw [abs_of_nonneg (by linarith : 0 ≤ MDL.logK0)] at h1
    have h4 : u * MDL.logK0 ≤ u * 2 := mul_le_mul_of_nonneg_left k2 hu
    have h5 : u * 11 * (3 / 2) ≤ u * (Spec.universalCode n + 11) * MDL.logK0 :=
      mul_le_mul (mul_le_mul_of_nonneg_left (by linarith) hu) k1 (by norm_num) (mul_nonneg hu (by linarith))
    have h6 : u * u ≤ u * 1 := mul_le_mul_of_nonneg_left (by linarith) hu
    linarith
  have hc : Close u (Real.logb 2 (n : ℝ)) (A.log2N n) := by
    have h1 := hA.log2N n (by omega)
    unfold Within at h1
    by_cases h2 : n = 1
    · subst h2
      right
      simp only [Nat.cast_one, Real.logb_one, abs_zero, mul_zero] at h1 ⊢
      exact ⟨le_refl _, by norm_num, h1.trans (by linarith)⟩
    · left
      have h3 := logb_one_le (by omega : 2 ≤ n)
      rw [abs_of_nonneg (by linarith : 0 ≤ Real.logb 2 (n : ℝ))] at h1
      refine ⟨h3, h1.trans (mul_le_mul_of_nonneg_left (by linarith) hu)⟩
  obtain ⟨g, w, hg, hw⟩ := codeLoop_close hA hu hu1 hG0 _ _ _ _ _ _ h hc k1 hs hv (fun k hk => hG k (by
    unfold iterLog
    rw [Function.iterate_succ_apply]
    exact_mod_cast hk))
  refine ⟨w, ⟨g, fun g' hg' => ?_⟩, hw⟩
  unfold universalCode
  rw [if_neg (by omega), if_neg (by omega), Int.toNat_natCast, hg g' hg']

/-- **C111.** On a machine whose operations have a relative error of at most `u ≤ 10⁻⁸`, `universal_code_for_integer(n)` returns, and what it returns differs from the exact code length of C46 by at
most the threshold of its loop and `20 u` times the square of the code length. -/
theorem C111_code (hA : MDLArith.Standard A u) (hu : 0 ≤ u) (hu1 : u ≤ 1 / 10 ^ 8) {n : ℕ} (hn : 1 ≤ n) (hv : 20 * u * Spec.universalCode n ^ 2 ≤ 1) :
    ∃ r, ComputesCode A n r ∧ |r - Spec.universalCode n| ≤ 1 / 1000000 + 20 * u * Spec.universalCode n ^ 2 :=
  code_gap hA hu hu1 hn hv (by norm_num) (fun _ _ => le_refl _)

/-- **C111.** The threshold matters only when one of the iterated logarithms of `n` is within `20 u` of it. -/
theorem C111_code_clear (hA : MDLArith.Standard A u) (hu : 0 ≤ u) (hu1 : u ≤ 1 / 10 ^ 8) {n : ℕ} (hn : 1 ≤ n) (hv : 20 * u * Spec.universalCode n ^ 2 ≤ 1)
    (hk : ∀ k, 20 * u < |iterLog n k - 1 / 1000000|) :
    ∃ r, ComputesCode A n r ∧ |r - Spec.universalCode n| ≤ 20 * u * Spec.universalCode n ^ 2 := by
  obtain ⟨r, h1, h2⟩ := code_gap hA hu hu1 hn hv (le_refl 0) (fun k h => absurd h (not_le.2 (hk k)))
  exact ⟨r, h1, by linarith⟩

/-- **C111.** The code length of 0 is exactly 0, and negative numbers are refused, on every machine; and a call returns one number only. -/
theorem C111_code_conventions (A : MDLArith) :
    ComputesCode A 0 0 ∧ (∀ (n : Int) (g : ℕ), n < 0 → universalCode A g n = .error .valueError) ∧
    ∀ (n : Int) (r s : ℝ), ComputesCode A n r → ComputesCode A n s → r = s := by
  refine ⟨⟨0, fun g _ => ?_⟩, fun n g h => ?_, fun n r s ⟨f, hf⟩ ⟨g, hg⟩ => ?_⟩
  · unfold universalCode; rw [if_neg (by omega), if_pos rfl]
  · unfold universalCode; rw [if_pos h]
  · have h1 := hf (max f g) (le_max_left _ _)
    rw [hg (max f g) (le_max_right _ _)] at h1
    exact (Option.some.inj (Except.ok.inj h1)).symm

/-! ### the complexity -/

/-- **C111.** `multinomial_with_recurrence(L, n)` returns a number whose relative error, compared with the exact stochastic complexity (C46), is at most `10⁻¹⁰` for the terms left out and that
of `multinomialRoundings L n` roundings. -/
theorem C111_multinomial (hA : MDLArith.Standard A u) (hu : 0 ≤ u) (hu1 : u ≤ 1 / 16) {L n : ℕ} (hL : 1 ≤ L) (hn : 1 ≤ n)
    (hb : ((1 + u) ^ 4 - 1) * (2 + Real.sqrt (20 * n * Real.log 10)) ≤ 1) :
    ∃ c, multinomial A L n = .ok c ∧ |c - nmlComplexity L n| ≤ ((10 : ℝ)⁻¹ ^ 10 + ((1 + u) ^ multinomialRoundings L n - 1)) * nmlComplexity L n := by
  obtain ⟨c, h1, h2⟩ := multinomial_rounded hA hu hL hn
  obtain ⟨b1, b2⟩ := bound_ge hA hu hu1 n hb
  obtain ⟨p1, p2⟩ := (mvalM_precision n L (bound A n) hn hL b1).1
  have h3 := h2.mono hu (k := multinomialRoundings L n) (by unfold multinomialRoundings; omega)
  refine ⟨c, h1, ?_⟩
  have h4 := abs_sub_le c (mvalM n (bound A n) L) (nmlComplexity L n)
  have h5 : |mvalM n (bound A n) L - nmlComplexity L n| ≤ (10 : ℝ)⁻¹ ^ 10 * nmlComplexity L n := by
    rw [abs_le]; constructor <;> linarith
  have h6 := mul_le_mul_of_nonneg_left p1 (by linarith [one_le_pow' hu (multinomialRoundings L n)] : 0 ≤ (1 + u) ^ multinomialRoundings L n - 1)
  linarith [h3.2]

theorem nml_ge_one {L n : ℕ} (hL : 1 ≤ L) (hn : 1 ≤ n) : 1 ≤ nmlComplexity L n :=
  (MDL.one_le_mval n L hn hL).1.trans (MDL.mval_precision n L hn hL).1.1

/-- **C111.** `log2_multinomial_with_recurrence(L, n)` differs from the base-2 logarithm of the exact complexity by at most four times that relative error (if it is at most one half), and one rounding. -/
theorem C111_log2 (hA : MDLArith.Standard A u) (hu : 0 ≤ u) (hu1 : u ≤ 1 / 16) {L n : ℕ} (hL : 1 ≤ L) (hn : 1 ≤ n)
    (hb : ((1 + u) ^ 4 - 1) * (2 + Real.sqrt (20 * n * Real.log 10)) ≤ 1) {ε : ℝ}
    (hε : (10 : ℝ)⁻¹ ^ 10 + ((1 + u) ^ multinomialRoundings L n - 1) ≤ ε) (hε1 : ε ≤ 1 / 2) :
    ∃ c, log2Multinomial A L n = .ok c ∧ |c - Real.logb 2 (nmlComplexity L n)| ≤ 4 * ε + u * Real.logb 2 (nmlComplexity L n) := by
  obtain ⟨c, h1, h2⟩ := C111_multinomial hA hu hu1 hL hn hb
  have h0 := nml_ge_one hL hn
  have h3 := h2.trans (mul_le_mul_of_nonneg_right hε (by linarith))
  have hε0 : 0 ≤ ε := by
    have := one_le_pow' hu (multinomialRoundings L n)
    have : (0 : ℝ) ≤ (10 : ℝ)⁻¹ ^ 10 := by positivity
    linarith
  have hc : (1 - ε) * nmlComplexity L n ≤ c := by have := (abs_le.1 h3).1; linarith
  have hN : 0 ≤ nmlComplexity L n := by linarith
  have hcp : 1 / 2 * nmlComplexity L n ≤ c := le_trans (mul_le_mul_of_nonneg_right (by linarith) hN) hc
  have hl := Real.logb_nonneg (b := 2) (by norm_num) h0
  refine ⟨A.log2 c, ?_, ?_⟩
  · unfold log2Multinomial
    rw [h1]
    simp only
    rw [if_pos (by linarith)]
  · have hm : (1 - ε) * nmlComplexity L n ≤ nmlComplexity L n := by nlinarith
    have hmp : 0 < (1 - ε) * nmlComplexity L n := mul_pos (by linarith) (by linarith)
    have h4 := log_step hA hu (x := nmlComplexity L n) (y := c) (m := (1 - ε) * nmlComplexity L n) hmp hm hc
    rw [abs_of_nonneg hl] at h4
    have h5 : |c - nmlComplexity L n| / ((1 - ε) * nmlComplexity L n) ≤ 2 * ε := by
      rw [div_le_iff₀ hmp]
      refine h3.trans ?_
      have : ε * 1 ≤ ε * (2 * (1 - ε)) := mul_le_mul_of_nonneg_left (by linarith) hε0
      have := mul_le_mul_of_nonneg_right this hN
      linarith only [this, (by ring : ε * (2 * (1 - ε)) * nmlComplexity L n = 2 * ε * ((1 - ε) * nmlComplexity L n)), (by ring : ε * 1 * nmlComplexity L n = ε * nmlComplexity L n)]
    have h6 : (1 + u) * (1.45 * (|c - nmlComplexity L n| / ((1 - ε) * nmlComplexity L n))) ≤ (1 + u) * (1.45 * (2 * ε)) :=
      mul_le_mul_of_nonneg_left (by linarith) (by linarith)
    have h7 : u * ε ≤ 1 / 16 * ε := mul_le_mul_of_nonneg_right hu1 hε0
    linarith

/-- **C111.** The conventions hold on every machine: illegal arguments are refused, the complexity of one category is 1 and without samples it is 0. -/
theorem C111_multinomial_conventions (A : MDLArith) :
    (∀ (L n : Int), L ≤ 0 ∨ n < 0 → multinomial A L n = .error .valueError ∧ log2Multinomial A L n = .error .valueError) ∧
    (∀ (n : Int), 0 ≤ n → multinomial A 1 n = .ok 1) ∧
    (∀ (L : Int), 1 < L → multinomial A L 0 = .ok 0 ∧ log2Multinomial A L 0 = .ok 0) := by
  refine ⟨fun L n h => ?_, fun n hn => ?_, fun L hL => ?_⟩
  · have : multinomial A L n = .error .valueError := by
      unfold multinomial
      by_cases h1 : L ≤ 0
      · rw [if_pos h1]
      · rw [if_neg h1, if_pos (h.resolve_left h1)]
    exact ⟨this, by unfold log2Multinomial; rw [this]⟩
  · unfold multinomial
    rw [if_neg (by omega), if_neg (by omega), if_pos rfl]
  · have : multinomial A L 0 = .ok 0 := by
      unfold multinomial
      rw [if_neg (by omega), if_neg (by omega), if_neg (by omega), if_pos rfl]
    exact ⟨this, by unfold log2Multinomial; rw [this]; simp⟩

/-! ### numbers of rows that occur -/

theorem codeLoop_le (f m : ℕ) (x r v : ℝ) (h : MDL.codeLoop f x r = some v) (hx : x ≤ m / 2) : v ≤ r + m * (m + 1) / 4 := by
  induction f generalizing m x r with
  | zero => cases h
  | succ f ih =>
    unfold MDL.codeLoop at h
    have ht : MDL.threshold = 1 / 1000000 := rfl
    by_cases hx0 : x > MDL.threshold
    · rw [if_pos hx0] at h
      have hx1 : 0 < x := by rw [ht] at hx0; linarith
      cases m with
      | zero => norm_num at hx; linarith
      | succ m =>
        have hl := MDL.logb_le x hx1
        have := ih m _ _ h (by push_cast at hx; linarith)
        push_cast at hx ⊢
        linarith
    · rw [if_neg hx0] at h
      cases h
      have : (0 : ℝ) ≤ m * (m + 1) / 4 := by positivity
      linarith

theorem code_le {n : ℕ} (hn : 1 ≤ n) (h : n < 2 ^ 40) : Spec.universalCode n ≤ 1622 ∧ 3 / 2 ≤ Spec.universalCode n := by
  have e := MDL.code_pos_loop n hn
  rw [MDL.code_eq] at e
  have hl : Real.logb 2 (n : ℝ) ≤ (80 : ℕ) / 2 := by
    rw [Real.logb_le_iff_le_rpow (by norm_num) (by positivity)]
    have : (n : ℝ) ≤ (2 ^ 40 : ℕ) := by exact_mod_cast h.le
    norm_num at this ⊢
    exact this
  have h1 := codeLoop_le _ 80 _ _ _ e hl
  have h2 := logK0_le
  have h3 := logK0_ge
  have h4 := codeLoop_ge _ _ _ _ e
  norm_num at h1
  constructor <;> linarith

theorem pow_le_two (hu : 0 ≤ u) {k : ℕ} (h : k * u ≤ 1 / 2) : (1 + u) ^ k - 1 ≤ 2 * (k * u) := by
  have h1 : (1 + u) ^ k ≤ Real.exp (k * u) := by
    rw [Real.exp_nat_mul]
    exact pow_le_pow_left₀ (by linarith) (by have := Real.add_one_le_exp u; linarith) k
  have h2 : 1 - k * u ≤ Real.exp (-(k * u)) := by have := Real.add_one_le_exp (-(k * u)); linarith
  have h3 : Real.exp (k * u) * (1 - k * u) ≤ 1 := by
    have := mul_le_mul_of_nonneg_left h2 (Real.exp_pos (k * u)).le
    rwa [← Real.exp_add, add_neg_cancel, Real.exp_zero] at this
  have h0 : 0 ≤ (k : ℝ) * u := by positivity
  have h4 : 1 ≤ (1 + 2 * (k * u)) * (1 - k * u) := by nlinarith
  have h5 : Real.exp (k * u) * (1 - k * u) ≤ (1 + 2 * (k * u)) * (1 - k * u) := h3.trans h4
  have := le_of_mul_le_mul_right h5 (by linarith)
  linarith

theorem nml_ge_two {n : ℕ} (hn : 1 ≤ n) : 2 ≤ nmlComplexity 2 n := by
  rw [NML.nml_two n hn]
  have h : ({0, 1} : Finset ℕ) ⊆ Finset.range (n + 1) := by
    intro k hk
    simp only [Finset.mem_insert, Finset.mem_singleton] at hk
    rw [Finset.mem_range]; omega
  have h1 := Finset.sum_le_sum_of_subset_of_nonneg h (f := fun k => (n.descFactorial k : ℝ) / (n : ℝ) ^ k) (fun k _ _ => by positivity)
  have hn0 : (n : ℝ) ≠ 0 := by positivity
  rw [Finset.sum_pair (by norm_num)] at h1
  simp only [Nat.descFactorial_zero, Nat.cast_one, pow_zero, div_one, Nat.descFactorial_one, pow_one, div_self hn0] at h1
  linarith

/-- **C111.** With operations of relative error at most `2⁻⁵⁰` (four units in the last place of a double), both functions have a relative error of at most `10⁻⁶` up to `2⁴⁰` rows: small enough for
the bounds of C108. -/
theorem C111_small (hA : MDLArith.Standard A u) (hu : 0 ≤ u) (hu1 : u ≤ 1 / 2 ^ 50) {n : ℕ} (hn : 1 ≤ n) (h : n < 2 ^ 40) :
    (∃ r, ComputesCode A n r ∧ Within (1 / 10 ^ 6) r (Spec.universalCode n)) ∧
    ∃ c, log2Multinomial A 2 n = .ok c ∧ Within (1 / 10 ^ 6) c (Real.logb 2 (nmlComplexity 2 n)) := by
  norm_num at hu1
  constructor
  · obtain ⟨c1, c2⟩ := code_le hn h
    have e1 : u * Spec.universalCode n ≤ 1 / 1125899906842624 * 1622 := mul_le_mul hu1 c1 (by linarith) (by norm_num)
    have e2 : u * Spec.universalCode n ^ 2 ≤ 1 / 1125899906842624 * 1622 * Spec.universalCode n := by
      rw [pow_two, ← mul_assoc]
      exact mul_le_mul_of_nonneg_right e1 (by linarith)
    obtain ⟨r, h1, h2⟩ := C111_code hA hu (by norm_num; linarith) hn (by linarith)
    refine ⟨r, h1, ?_⟩
    unfold Within
    rw [abs_of_nonneg (by linarith : 0 ≤ Spec.universalCode n)]
    norm_num
    linarith
  · have hl10 : Real.log 10 < 2.4 := by
      have h1 : Real.log 10 = Real.log 2 * 3 + Real.log (10 / 8) := by
        rw [show (10 : ℝ) = 2 ^ 3 * (10 / 8) by norm_num, Real.log_mul (by norm_num) (by norm_num), Real.log_pow]
        norm_num; ring
      have h2 := Real.log_two_lt_d9
      have h3 := Real.log_le_sub_one_of_pos (by norm_num : (0:ℝ) < 10 / 8)
      norm_num at h3
      linarith
    have hl0 : 0 < Real.log 10 := Real.log_pos (by norm_num)
    have hnr : (n : ℝ) ≤ 2 ^ 40 := by exact_mod_cast h.le
    have hs : Real.sqrt (20 * n * Real.log 10) ≤ 2 ^ 23 := by
      rw [Real.sqrt_le_left (by norm_num)]
      have : (n : ℝ) * Real.log 10 ≤ 2 ^ 40 * 2.4 := mul_le_mul hnr hl10.le hl0.le (by norm_num)
      norm_num at this ⊢
      linarith
    have hs0 := Real.sqrt_nonneg (20 * n * Real.log 10)
    have hK : multinomialRoundings 2 n ≤ 2 ^ 24 + 11 := by
      have : ⌈(2 + Real.sqrt (20 * n * Real.log 10) : ℝ)⌉₊ ≤ 2 + 2 ^ 23 := by
        rw [Nat.ceil_le]; push_cast; linarith
      unfold multinomialRoundings
      generalize ⌈(2 + Real.sqrt (20 * n * Real.log 10) : ℝ)⌉₊ = c at this
      omega
    have hKr : (multinomialRoundings 2 n : ℝ) ≤ 16777227 := by
      have : (multinomialRoundings 2 n : ℝ) ≤ ((16777227 : ℕ) : ℝ) := Nat.cast_le.2 (by omega)
      simpa only [Nat.cast_ofNat] using this
    have hKu : (multinomialRoundings 2 n : ℝ) * u ≤ 16777227 * (1 / 1125899906842624) := mul_le_mul hKr hu1 hu (by norm_num)
    have h4 := pow_le_two hu (k := 4) (by norm_num; linarith)
    have hp := pow_le_two hu (k := multinomialRoundings 2 n) (by linarith)
    have hb : ((1 + u) ^ 4 - 1) * (2 + Real.sqrt (20 * n * Real.log 10)) ≤ 1 := by
      have e : ((1 + u) ^ 4 - 1) * (2 + Real.sqrt (20 * n * Real.log 10)) ≤ 8 / 1125899906842624 * (2 + 2 ^ 23) :=
        mul_le_mul (by norm_num at h4; linarith) (by linarith) (by linarith) (by norm_num)
      refine e.trans ?_
      norm_num
    obtain ⟨c, h1, h2⟩ := C111_log2 hA hu (by linarith) (L := 2) (by norm_num) hn hb (ε := 1 / 10 ^ 7)
      (by norm_num; linarith) (by norm_num)
    refine ⟨c, h1, ?_⟩
    have hN := nml_ge_two hn
    have hl1 : 1 ≤ Real.logb 2 (nmlComplexity 2 n) := by
      rw [Real.le_logb_iff_rpow_le (by norm_num) (by linarith)]; simpa using hN
    unfold Within
    rw [abs_of_nonneg (by linarith : 0 ≤ Real.logb 2 (nmlComplexity 2 n))]
    have e3 : u * Real.logb 2 (nmlComplexity 2 n) ≤ 1 / 1125899906842624 * Real.logb 2 (nmlComplexity 2 n) :=
      mul_le_mul_of_nonneg_right hu1 (by linarith)
    norm_num at h2 ⊢
    linarith

end

/-! ### without errors -/

theorem codeLoop_exact (f : ℕ) (x r : ℝ) : codeLoop exactMDL f x r = MDL.codeLoop f x r := by
  induction f generalizing x r with
  | zero => rfl
  | succ f ih =>
    unfold codeLoop MDL.codeLoop
    by_cases h : x > 1 / 1000000
    · exact (if_pos h).trans ((ih _ _).trans (if_pos h).symm)
    · exact (if_neg h).trans (if_neg h).symm

theorem sumLoop_exact (n : ℕ) (ks : List ℕ) (st : ℝ × ℝ) : sumLoop exactMDL n ks st = MDL.sumLoop n ks st := by
  induction ks generalizing st with
  | nil => rfl
  | cons k ks ih =>
    obtain ⟨b, s⟩ := st
    unfold sumLoop MDL.sumLoop
    simp only
    rw [ih]
    have e : exactMDL.mul (exactMDL.quot ((n : Int) - k + 1) n) b = ((n : ℝ) - k + 1) / n * b := by
      show (((n : Int) - k + 1 : Int) : ℝ) / n * b = _
      push_cast; ring
    rw [e]
    rfl

theorem recLoop_exact (n : ℕ) (js : List ℕ) (hj : ∀ j ∈ js, 2 ≤ j) (st : ℝ × ℝ) : recLoop exactMDL n js st = MDL.recLoop n js st := by
  induction js generalizing st with
  | nil => rfl
  | cons j js ih =>
    obtain ⟨a, s⟩ := st
    unfold recLoop MDL.recLoop
    rw [ih (fun k hk => hj k (List.mem_cons_of_mem _ hk))]
    have e : exactMDL.add s (exactMDL.divN (exactMDL.scale n a) (j - 2)) = s + n * a / ((j : ℝ) - 2) := by
      show s + n * a / ((j - 2 : ℕ) : ℝ) = _
      rw [Nat.cast_sub (hj j (List.mem_cons_self))]
      norm_num
    rw [e]

/-- **C111.** Without errors these are the functions of C46. -/
theorem C111_exact : (∀ f n, universalCode exactMDL f n = MDL.universalCodeFuel f n) ∧ (∀ L n, multinomial exactMDL L n = MDL.multinomial L n) ∧
    (∀ L n, log2Multinomial exactMDL L n = MDL.log2Multinomial L n) ∧ MDLArith.Standard exactMDL 0 := by
  have hm : ∀ L n, multinomial exactMDL L n = MDL.multinomial L n := by
    intro L n
    unfold multinomial MDL.multinomial
    have hb : bound exactMDL n.toNat = MDL.bound n.toNat := by
      unfold bound MDL.bound
      show ⌈(2 + Real.sqrt (((2 * n.toNat * 10 : ℕ) : ℝ) * Real.log 10) : ℝ)⌉₊ = _
      push_cast
      rfl
    simp only [hb, sumLoop_exact]
    rw [recLoop_exact _ _ (fun j hj => by have := List.mem_range'.1 hj; omega)]
  refine ⟨fun f n => ?_, hm, fun L n => ?_, ?_⟩
  · unfold universalCode MDL.universalCodeFuel
    by_cases h : n < 0
    · rw [if_pos h, if_pos h]
    rw [if_neg h, if_neg h]
    by_cases h0 : n = 0
    · rw [if_pos h0, if_pos h0]
    rw [if_neg h0, if_neg h0, codeLoop_exact]
    have e : exactMDL.log2N n.toNat = Real.logb 2 (n : ℝ) := by
      show Real.logb 2 ((n.toNat : ℕ) : ℝ) = _
      have : ((n.toNat : Int) : ℝ) = (n : ℝ) := by rw [Int.toNat_of_nonneg (by omega)]
      rw [← this]; norm_cast
    rw [e]
    rfl
  · unfold log2Multinomial MDL.log2Multinomial
    rw [hm]
    rfl
  · constructor <;> intros <;> simp [Within, exactMDL]

/-- an arithmetic with errors that is standard: everything is multiplied by `1 + 2⁻⁵⁰` -/
noncomputable def skewMDL : MDLArith where
  theta := 1 / 1000000 * (1 + 1 / 2 ^ 50)
  k0 := 2.865064 * (1 + 1 / 2 ^ 50)
  ln10 := Real.log 10 * (1 + 1 / 2 ^ 50)
  add x y := (x + y) * (1 + 1 / 2 ^ 50)
  mul x y := x * y * (1 + 1 / 2 ^ 50)
  quot m n := (m : ℝ) / n * (1 + 1 / 2 ^ 50)
  scale n x := n * x * (1 + 1 / 2 ^ 50)
  divN x n := x / n * (1 + 1 / 2 ^ 50)
  log2 x := Real.logb 2 x * (1 + 1 / 2 ^ 50)
  log2N n := Real.logb 2 n * (1 + 1 / 2 ^ 50)
  sqrt x := Real.sqrt x * (1 + 1 / 2 ^ 50)

theorem within_skew (x : ℝ) : Within (1 / 2 ^ 50) (x * (1 + 1 / 2 ^ 50)) x := by
  unfold Within
  rw [(by ring : x * (1 + 1 / 2 ^ 50) - x = 1 / 2 ^ 50 * x), abs_mul, abs_of_pos (by norm_num : (0:ℝ) < 1 / 2 ^ 50)]

theorem skew_standard : MDLArith.Standard skewMDL (1 / 2 ^ 50) where
  theta := within_skew _
  k0 := within_skew _
  ln10 := within_skew _
  add _ _ := within_skew _
  mul _ _ := within_skew _
  quot _ _ _ := within_skew _
  scale _ _ := within_skew _
  divN _ _ _ := within_skew _
  log2 _ _ := within_skew _
  log2N _ _ := within_skew _
  sqrt _ _ := within_skew _

/-- the hypotheses are met: 1000 rows on the machine with errors -/
example : (∃ r, ComputesCode skewMDL (1000 : ℕ) r ∧ Within (1 / 10 ^ 6) r (Spec.universalCode 1000)) ∧
    ∃ c, log2Multinomial skewMDL 2 (1000 : ℕ) = .ok c ∧ Within (1 / 10 ^ 6) c (Real.logb 2 (nmlComplexity 2 1000)) :=
  C111_small skew_standard (by norm_num) (le_refl _) (by norm_num) (by norm_num)

/-- the hypotheses of `C111_code_clear` are met: the iterated logarithms of 2 are 1 and 0 (and, as `logb 2 0 = 0`, remain 0) -/
example : ∃ r, ComputesCode skewMDL (2 : ℕ) r ∧ |r - Spec.universalCode 2| ≤ 20 * (1 / 2 ^ 50) * Spec.universalCode 2 ^ 2 := by
  have hk : ∀ k, iterLog ((2 : ℕ) : Int) k = 1 ∨ iterLog ((2 : ℕ) : Int) k = 0 := by
    intro k
    induction k with
    | zero => left; unfold iterLog; simp
    | succ k ih =>
      right
      have e : iterLog ((2 : ℕ) : Int) (k + 1) = Real.logb 2 (iterLog ((2 : ℕ) : Int) k) := by
        unfold iterLog; rw [Function.iterate_succ_apply']
      rw [e]
      rcases ih with h | h <;> rw [h] <;> simp
  refine C111_code_clear skew_standard (by norm_num) (by norm_num) (by norm_num) ?_ (fun k => ?_)
  · obtain ⟨h1, h2⟩ := code_le (n := 2) (by norm_num) (by norm_num)
    norm_num
    nlinarith
  · rcases hk k with h | h <;> rw [h] <;> norm_num [abs_of_pos, abs_of_neg]

end Verif.FloatMDL
