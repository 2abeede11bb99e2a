import Verif.Spec.FloatMDLMax
import Verif.Props.FloatMDL
import Verif.Props.MDLKraft
/-! Property C111: `universal_code_for_integer_with_maximum` on a machine with rounding errors. -/
namespace Verif.FloatMDL
open Verif.Spec

/-- `2 ** (-x)` of a number near `c` -/
theorem pow_close {c x ε : ℝ} (he : ε ≤ 1) (h : |x - c| ≤ ε) : |(2 : ℝ) ^ (-x) - (2 : ℝ) ^ (-c)| ≤ ε * (2 : ℝ) ^ (-c) := by
  have hq : (0 : ℝ) < 2 ^ (-c) := Real.rpow_pos_of_pos (by norm_num) _
  have e : (2 : ℝ) ^ (-x) = 2 ^ (-c) * 2 ^ (c - x) := by rw [← Real.rpow_add (by norm_num)]; ring_nf
  have key : |(2 : ℝ) ^ (c - x) - 1| ≤ ε := by
    rw [abs_le] at h ⊢
    constructor
    · have h1 := Real.add_one_le_exp (Real.log 2 * (c - x))
      have h2 : (2 : ℝ) ^ (c - x) = Real.exp (Real.log 2 * (c - x)) := Real.rpow_def_of_pos (by norm_num) _
      have h3 := Real.log_two_lt_d9
      have h4 := Real.log_two_gt_d9
      rw [h2]
      by_cases h5 : 0 ≤ c - x
      · have := mul_nonneg (by linarith : 0 ≤ Real.log 2) h5
        linarith
      · rw [not_le] at h5
        have : (1 - Real.log 2) * (c - x) ≤ 0 := mul_nonpos_of_nonneg_of_nonpos (by linarith) h5.le
        linarith
    · by_cases h5 : 0 ≤ c - x
      · have h6 := rpow_one_add_le_one_add_mul_self (s := (1 : ℝ)) (by norm_num) h5 (by linarith : c - x ≤ 1)
        norm_num at h6
        linarith
      · rw [not_le] at h5
        have : (2 : ℝ) ^ (c - x) ≤ 1 := Real.rpow_le_one_of_one_le_of_nonpos (by norm_num) h5.le
        have : 0 ≤ ε := by linarith
        linarith
  rw [e, (by ring : (2 : ℝ) ^ (-c) * 2 ^ (c - x) - 2 ^ (-c) = 2 ^ (-c) * (2 ^ (c - x) - 1)), abs_mul, abs_of_pos hq, mul_comm]
  exact mul_le_mul_of_nonneg_right key hq.le

section
variable {u : ℝ} {w : Nat → ℝ} {A : MDLMaxArith}

theorem powNeg_close (hA : MDLMaxArith.Standard A u w) (hu : 0 ≤ u) {c x ε : ℝ} (he : ε ≤ 1) (h : |x - c| ≤ ε) :
    |A.powNeg x - (2 : ℝ) ^ (-c)| ≤ (ε + 2 * u) * (2 : ℝ) ^ (-c) := by
  have h1 := pow_close he h
  have h2 := hA.powNeg x
  unfold Within at h2
  have hx : (0 : ℝ) < 2 ^ (-x) := Real.rpow_pos_of_pos (by norm_num) _
  have hq : (0 : ℝ) < 2 ^ (-c) := Real.rpow_pos_of_pos (by norm_num) _
  rw [abs_of_pos hx] at h2
  have h3 := abs_sub_le (A.powNeg x) ((2 : ℝ) ^ (-x)) ((2 : ℝ) ^ (-c))
  have h4 : (2 : ℝ) ^ (-x) ≤ 2 * 2 ^ (-c) := by
    have := (abs_le.1 h1).2
    have : ε * (2 : ℝ) ^ (-c) ≤ 1 * 2 ^ (-c) := mul_le_mul_of_nonneg_right he hq.le
    linarith
  have h5 := mul_le_mul_of_nonneg_left h4 hu
  linarith

/-- the sum of numbers with relative errors -/
theorem sum_close {d : ℝ} : ∀ (l : List ℝ) (f g : ℕ → ℝ) (m : ℕ), (∀ i, i < m → |f i - g i| ≤ d * g i) →
    |((List.range m).map f).sum - ((List.range m).map g).sum| ≤ d * ((List.range m).map g).sum := by
  intro _ f g m
  induction m with
  | zero => intro _; simp
  | succ m ih =>
    intro h
    have h1 := ih (fun i hi => h i (by omega))
    have h2 := h m (by omega)
    simp only [List.range_succ, List.map_append, List.sum_append, List.map_cons, List.map_nil, List.sum_cons, List.sum_nil, add_zero]
    have h3 := abs_add_le (((List.range m).map f).sum - ((List.range m).map g).sum) (f m - g m)
    rw [(by ring : ((List.range m).map f).sum + f m - (((List.range m).map g).sum + g m) = ((List.range m).map f).sum - ((List.range m).map g).sum + (f m - g m))]
    linarith

/-- the arithmetic of the function -/
theorem prob_close {ε w q q' S T S' l' t' p' m u : ℝ} (hm : 1 ≤ m) (hu : 0 ≤ u) (hw : 0 ≤ w) (he : 0 ≤ ε) (hq : 0 < q) (hS : 0 ≤ S) (hS1 : S ≤ 1)
    (h1 : |q' - q| ≤ (ε + 2 * u) * q) (h2 : |T - S| ≤ (ε + 2 * u) * S) (h3 : |S' - T| ≤ w * |T|) (h4 : |l' - (1 - S')| ≤ u * |1 - S'|)
    (h5 : |t' - l' / m| ≤ u * |l' / m|) (h6 : |p' - (q' + t')| ≤ u * |q' + t'|) (hd : ε + 7 * u + 2 * w ≤ 1 / 8) :
    |p' - (q + (1 - S) / m)| ≤ (ε + 7 * u + 2 * w) * (1 + 1 / (m * (q + (1 - S) / m))) * (q + (1 - S) / m) := by
  have m0 : 0 < m := by linarith
  have hT : |T| ≤ 2 * S := by
    have e1 := abs_sub_abs_le_abs_sub T S
    rw [abs_of_nonneg hS] at e1
    have : (ε + 2 * u) * S ≤ 1 * S := mul_le_mul_of_nonneg_right (by linarith) hS
    linarith
  have g2 : |S' - S| ≤ ε + 2 * u + 2 * w := by
    have e1 := abs_sub_le S' T S
    have e2 := mul_le_mul_of_nonneg_left hT hw
    have e3 : (ε + 2 * u + 2 * w) * S ≤ (ε + 2 * u + 2 * w) * 1 := mul_le_mul_of_nonneg_left hS1 (by linarith)
    linarith
  have g3 : |1 - S'| ≤ 2 := by
    rw [abs_le] at g2 ⊢
    constructor <;> linarith
  have g4 : |l' - (1 - S)| ≤ ε + 4 * u + 2 * w := by
    have e1 := abs_sub_le l' (1 - S') (1 - S)
    have e2 : |1 - S' - (1 - S)| = |S' - S| := by rw [abs_sub_comm]; congr 1; ring
    have e3 := mul_le_mul_of_nonneg_left g3 hu
    linarith
  have g5 : |l'| ≤ 2 := by
    rw [abs_le] at g4 ⊢
    constructor <;> linarith
  have g6 : |t' - (1 - S) / m| ≤ (ε + 6 * u + 2 * w) / m := by
    have e1 := abs_sub_le t' (l' / m) ((1 - S) / m)
    have e2 : |l' / m - (1 - S) / m| ≤ (ε + 4 * u + 2 * w) / m := by
      rw [← sub_div, abs_div, abs_of_pos m0]
      exact div_le_div_of_nonneg_right g4 m0.le
    have e3 : u * |l' / m| ≤ 2 * u / m := by
      rw [abs_div, abs_of_pos m0, ← mul_div_assoc]
      exact div_le_div_of_nonneg_right (by linarith [mul_le_mul_of_nonneg_left g5 hu]) m0.le
    have e4 : (ε + 6 * u + 2 * w) / m = 2 * u / m + (ε + 4 * u + 2 * w) / m := by ring
    linarith
  obtain ⟨p, hp⟩ : ∃ p, p = q + (1 - S) / m := ⟨_, rfl⟩
  have hlm : 0 ≤ (1 - S) / m := div_nonneg (by linarith) m0.le
  have hqp : q ≤ p := by linarith
  have p0 : 0 < p := by linarith
  rw [← hp]
  have g7 : |q' + t' - p| ≤ (ε + 2 * u) * p + (ε + 6 * u + 2 * w) / m := by
    have e1 := abs_add_le (q' - q) (t' - (1 - S) / m)
    rw [(by rw [hp]; ring : q' + t' - p = q' - q + (t' - (1 - S) / m))]
    have e2 : (ε + 2 * u) * q ≤ (ε + 2 * u) * p := mul_le_mul_of_nonneg_left hqp (by linarith)
    linarith
  have g8 : |q' + t'| ≤ p + |q' + t' - p| := by
    have := abs_add_le p (q' + t' - p)
    rw [abs_of_pos p0, (by ring : p + (q' + t' - p) = q' + t')] at this
    exact this
  have g9 := abs_sub_le p' (q' + t') p
  have g10 := mul_le_mul_of_nonneg_left g8 hu
  have g11 := mul_le_mul_of_nonneg_left g7 hu
  have e : (ε + 7 * u + 2 * w) * (1 + 1 / (m * p)) * p = (ε + 7 * u + 2 * w) * p + (ε + 7 * u + 2 * w) / m := by
    field_simp
  rw [e]
  have f1 : u * ((ε + 2 * u) * p) ≤ u * p := by
    refine mul_le_mul_of_nonneg_left ?_ hu
    have := mul_le_mul_of_nonneg_right (by linarith : ε + 2 * u ≤ 1) p0.le
    linarith
  have f2 : u * ((ε + 6 * u + 2 * w) / m) ≤ u / m := by
    rw [← mul_div_assoc]
    refine div_le_div_of_nonneg_right ?_ m0.le
    have := mul_le_mul_of_nonneg_left (by linarith : ε + 6 * u + 2 * w ≤ 1) hu
    linarith
  have f3 : (ε + 7 * u + 2 * w) / m = (ε + 6 * u + 2 * w) / m + u / m := by ring
  rw [f3]
  have f4 : 0 ≤ u * p := mul_nonneg hu p0.le
  have f5 : 0 ≤ w * p := mul_nonneg hw p0.le
  linarith [mul_add u ((ε + 2 * u) * p) ((ε + 6 * u + 2 * w) / m)]

theorem maximum_of_left (hA : MDLMaxArith.Standard A u w) (hu : 0 ≤ u) {n max : ℕ} (hw : 0 ≤ w max) (hn : 1 ≤ n) (hnm : n ≤ max) (hleft : 0 ≤ MDL.Spec.left MDL.code max) {ε : ℝ}
    (hc : ∀ i : ℕ, 1 ≤ i → i ≤ max → ∃ r, ComputesCode A.toMDLArith i r ∧ |r - Spec.universalCode i| ≤ ε) :
    ∃ M, MDL.codeWithMaximum n max = .ok (some M) ∧ ((ε + 7 * u + 2 * w max) * (1 + (2 : ℝ) ^ M / max) ≤ 1 / 8 →
      ∃ r, ComputesMax A n max r ∧ |r - M| ≤ 2 * ((ε + 7 * u + 2 * w max) * (1 + (2 : ℝ) ^ M / max)) + u * |M|) := by
  have m1 : (1 : ℝ) ≤ max := by exact_mod_cast (by omega : 1 ≤ max)
  have hpl : MDL.probabilityLeft max = MDL.Spec.left MDL.code max := by
    unfold MDL.probabilityLeft MDL.Spec.left
    rw [MDL.list_sum_range]
  have q0 : (0 : ℝ) < 2 ^ (-MDL.code n) := Real.rpow_pos_of_pos (by norm_num) _
  have hp : 0 < MDL.probability n max := by
    unfold MDL.probability
    rw [hpl]
    have : 0 ≤ MDL.Spec.left MDL.code max / (max : ℝ) := div_nonneg hleft (by linarith)
    linarith
  refine ⟨-Real.logb 2 (MDL.probability n max), ?_, ?_⟩
  · unfold MDL.codeWithMaximum
    rw [if_neg (by omega), if_pos hp]
  · intro hE
    rw [Real.rpow_neg (by norm_num), Real.rpow_logb (by norm_num) (by norm_num) hp] at hE ⊢
    have hk : (MDL.probability n max)⁻¹ / (max : ℝ) = 1 / (max * MDL.probability n max) := by field_simp
    rw [hk] at hE ⊢
    -- the codes
    have he : 0 ≤ ε := by
      obtain ⟨r, _, h⟩ := hc 1 (le_refl _) (by omega)
      exact (abs_nonneg _).trans h
    have hd0 : 0 ≤ ε + 7 * u + 2 * w max := by linarith
    have hkp : 0 ≤ 1 / ((max : ℝ) * MDL.probability n max) := by positivity
    have hd : ε + 7 * u + 2 * w max ≤ 1 / 8 := by
      have := mul_nonneg hd0 hkp
      linarith
    have hc' : ∀ i : ℕ, ∃ r, (i < max → ComputesCode A.toMDLArith ((i + 1 : ℕ) : Int) r ∧ |r - MDL.code (i + 1)| ≤ ε) := by
      intro i
      by_cases hi : i < max
      · obtain ⟨r, h1, h2⟩ := hc (i + 1) (by omega) (by omega)
        exact ⟨r, fun _ => ⟨h1, by rw [MDL.code_eq]; exact h2⟩⟩
      · exact ⟨0, fun h => absurd h hi⟩
    choose c hcs using hc'
    have hfuel : ∀ k, k ≤ max → ∃ f, ∀ g, f ≤ g → (List.range k).mapM (fun i => codeAt A g (i + 1)) = some ((List.range k).map c) := by
      intro k
      induction k with
      | zero => intro _; exact ⟨0, fun g _ => by simp⟩
      | succ k ih =>
        intro hk
        obtain ⟨f, hf⟩ := ih (by omega)
        obtain ⟨f', hf'⟩ := (hcs k (by omega)).1
        refine ⟨f + f', fun g hg => ?_⟩
        have h2 : codeAt A g (k + 1) = some (c k) := by
          unfold codeAt
          rw [hf' g (by omega)]
        rw [List.range_succ, List.mapM_append, hf g (by omega)]
        simp [h2]
    obtain ⟨f, hf⟩ := hfuel max (le_refl _)
    obtain ⟨f', hf'⟩ := (hcs (n - 1) (by omega)).1
    have en : n - 1 + 1 = n := by omega
    have hcn := (hcs (n - 1) (by omega)).2
    rw [en] at hcn hf'
    -- the numbers
    have k1 := powNeg_close hA hu (by linarith : ε ≤ 1) hcn
    have k2 := sum_close [] (fun i => A.powNeg (c i)) (fun i => (2 : ℝ) ^ (-MDL.code (i + 1))) max (fun i hi => powNeg_close hA hu (by linarith : ε ≤ 1) (hcs i hi).2)
    have k3 := hA.sum (((List.range max).map c).map A.powNeg) (by
      intro x hx
      simp only [List.map_map, List.mem_map, List.mem_range, Function.comp] at hx
      obtain ⟨i, hi, rfl⟩ := hx
      have h1 := powNeg_close hA hu (by linarith : ε ≤ 1) (hcs i hi).2
      have h2 : (0 : ℝ) < 2 ^ (-MDL.code (i + 1)) := Real.rpow_pos_of_pos (by norm_num) _
      have h3 := mul_le_mul_of_nonneg_right (by linarith : ε + 2 * u ≤ 1) h2.le
      linarith [(abs_le.1 h1).1])
    unfold Within at k3
    have hlen : (((List.range max).map c).map A.powNeg).length = max := by simp
    rw [hlen] at k3
    have hmm : ((List.range max).map c).map A.powNeg = (List.range max).map (fun i => A.powNeg (c i)) := by rw [List.map_map]; rfl
    have k4 := hA.oneSub (A.sum (((List.range max).map c).map A.powNeg))
    have k5 := hA.base.divN (A.oneSub (A.sum (((List.range max).map c).map A.powNeg))) max (by omega)
    have k6 := hA.base.add (A.powNeg (c (n - 1))) (A.divN (A.oneSub (A.sum (((List.range max).map c).map A.powNeg))) max)
    unfold Within at k4 k5 k6
    have hS0 : 0 ≤ ((List.range max).map fun i => (2 : ℝ) ^ (-MDL.code (i + 1))).sum := by
      refine List.sum_nonneg fun x hx => ?_
      obtain ⟨i, _, rfl⟩ := List.mem_map.1 hx
      exact (Real.rpow_pos_of_pos (by norm_num) _).le
    have hS1 : ((List.range max).map fun i => (2 : ℝ) ^ (-MDL.code (i + 1))).sum ≤ 1 := by
      have := hleft
      rw [← hpl] at this
      unfold MDL.probabilityLeft at this
      linarith
    rw [← hmm] at k2
    have key := prob_close m1 hu hw he q0 hS0 hS1 k1 k2 k3 k4 k5 k6 hd
    have hpe : MDL.probability n max = 2 ^ (-MDL.code n) + (1 - ((List.range max).map fun i => (2 : ℝ) ^ (-MDL.code (i + 1))).sum) / max := rfl
    rw [← hpe] at key
    obtain ⟨P, hP⟩ : ∃ P, P = MDL.probability n max := ⟨_, rfl⟩
    obtain ⟨E, hEE⟩ : ∃ E, E = (ε + 7 * u + 2 * w max) * (1 + 1 / (max * MDL.probability n max)) := ⟨_, rfl⟩
    rw [← hEE] at key hE ⊢
    rw [← hP] at key hp ⊢
    have E0 : 0 ≤ E := by rw [hEE]; exact mul_nonneg hd0 (by linarith)
    have hEp : E * P ≤ 1 / 8 * P := mul_le_mul_of_nonneg_right hE hp.le
    have hge : 7 / 8 * P ≤ A.add (A.powNeg (c (n - 1))) (A.divN (A.oneSub (A.sum (((List.range max).map c).map A.powNeg))) max) := by
      linarith [(abs_le.1 key).1]
    refine ⟨-A.log2 (probability A ((List.range max).map c) (c (n - 1)) max), ⟨f + f', fun g hg => ?_⟩, ?_⟩
    · unfold codeWithMaximum
      have h2 : codeAt A g n = some (c (n - 1)) := by
        unfold codeAt
        rw [hf' g (by omega)]
      rw [if_neg (by omega), hf g (by omega), h2]
      simp only
      rw [if_pos]
      unfold probability
      linarith
    · have hl := log_step hA.base hu (by linarith : 0 < 7 / 8 * P) (by linarith : 7 / 8 * P ≤ P) hge
      rw [abs_neg, ← neg_add_eq_sub, neg_neg, ← sub_eq_add_neg, abs_sub_comm]
      unfold probability
      refine hl.trans ?_
      have h1 : |A.add (A.powNeg (c (n - 1))) (A.divN (A.oneSub (A.sum (((List.range max).map c).map A.powNeg))) max) - P| / (7 / 8 * P) ≤ 8 / 7 * E := by
        rw [div_le_iff₀ (by linarith)]
        linarith
      have h2 : (1 + u) * (1.45 * (8 / 7 * E)) ≤ 2 * E := by
        have : u * E ≤ 1 / 56 * E := mul_le_mul_of_nonneg_right (by linarith) E0
        linarith
      have h3 := mul_le_mul_of_nonneg_left (mul_le_mul_of_nonneg_left h1 (by norm_num : (0:ℝ) ≤ 1.45)) (by linarith : 0 ≤ 1 + u)
      linarith

/-- **C111.** If the universal codes of `1..max` are computed with errors of at most `ε`, `universal_code_for_integer_with_maximum(n, max)` returns a number that differs from the exact code length
`M` of C46 by at most `2 d (1 + 2^M / max) + u |M|` with `d = ε + 7 u + 2 w`, where `u` is the relative error of an operation and `w` that of the sum of `max` numbers. -/
theorem C111_maximum (hA : MDLMaxArith.Standard A u w) (hu : 0 ≤ u) {n max : ℕ} (hw : 0 ≤ w max) (hn : 1 ≤ n) (hnm : n ≤ max) (hmax : max ≤ 2 ^ (2 ^ 65536)) {ε : ℝ}
    (hc : ∀ i : ℕ, 1 ≤ i → i ≤ max → ∃ r, ComputesCode A.toMDLArith i r ∧ |r - Spec.universalCode i| ≤ ε) :
    ∃ M, MDL.codeWithMaximum n max = .ok (some M) ∧ ((ε + 7 * u + 2 * w max) * (1 + (2 : ℝ) ^ M / max) ≤ 1 / 8 →
      ∃ r, ComputesMax A n max r ∧ |r - M| ≤ 2 * ((ε + 7 * u + 2 * w max) * (1 + (2 : ℝ) ^ M / max)) + u * |M|) :=
  maximum_of_left hA hu hw hn hnm (MDL.left_nonneg max hmax) hc

/-- what the universal codes of the numbers up to `2^40` leave -/
theorem left_ge (max : ℕ) (h : max ≤ 2 ^ 40) : 1 / 20 ≤ MDL.Spec.left MDL.code max := by
  have ht : max ≤ MDL.tower 5 := by
    rw [MDL.tower_succ, MDL.tower_four]
    exact h.trans (Nat.pow_le_pow_right (by norm_num) (by norm_num))
  clear h
  have h1 : ∑ i ∈ Finset.range max, (2 : ℝ) ^ (-MDL.code (i + 1)) ≤ ∑ i ∈ Finset.range (MDL.tower 5), (2 : ℝ) ^ (-MDL.code (i + 1)) :=
    Finset.sum_le_sum_of_subset_of_nonneg (Finset.range_mono ht) fun i _ _ => (Real.rpow_pos_of_pos (by norm_num) _).le
  have step : ∀ K, ∑ i ∈ Finset.range (MDL.tower (K + 1)), (2 : ℝ) ^ (-MDL.code (i + 1)) ≤
      ∑ i ∈ Finset.range (MDL.tower K), (2 : ℝ) ^ (-MDL.code (i + 1)) + (1 + 1 / 1000000) / 2.865064 * Real.log 2 ^ (K + 1) := by
    intro K
    have hle : MDL.tower K ≤ MDL.tower (K + 1) := by rw [MDL.tower_succ]; exact Nat.lt_two_pow_self.le
    rw [← Finset.sum_range_add_sum_Ico _ hle]
    linarith [MDL.block_prob K]
  have s1 := step 1
  have s2 := step 2
  have s3 := step 3
  have s4 := step 4
  have two : ∑ i ∈ Finset.range (MDL.tower 1), (2 : ℝ) ^ (-MDL.code (i + 1)) ≤ (1 + 1 / 1000000) / 2.865064 * (3 / 2) := by
    have p1 := MDL.prob_le 1 1 (le_refl _) (fun j hj => by obtain rfl : j = 0 := (by omega); simp)
    have p2 := MDL.prob_le 2 1 (by omega) (fun j hj => by obtain rfl : j = 0 := (by omega); simp)
    rw [show MDL.tower 1 = 2 from rfl, Finset.sum_range_succ, Finset.sum_range_succ]
    simp only [Finset.range_zero, Finset.sum_empty, zero_add, Finset.range_one, Finset.prod_singleton, Function.iterate_zero, id, Nat.reduceAdd] at p1 p2 ⊢
    push_cast at p1 p2
    linarith
  have l2 : Real.log 2 < 0.6931471808 := Real.log_two_lt_d9
  have l0 : 0 < Real.log 2 := Real.log_pos (by norm_num)
  have q2 : Real.log 2 ^ 2 ≤ 0.480454 := (pow_le_pow_left₀ l0.le l2.le 2).trans (by norm_num)
  have q3 : Real.log 2 ^ 3 ≤ 0.333026 := (pow_le_pow_left₀ l0.le l2.le 3).trans (by norm_num)
  have q4 : Real.log 2 ^ 4 ≤ 0.230836 := (pow_le_pow_left₀ l0.le l2.le 4).trans (by norm_num)
  have q5 : Real.log 2 ^ 5 ≤ 0.160004 := (pow_le_pow_left₀ l0.le l2.le 5).trans (by norm_num)
  simp only [Nat.reduceAdd] at s1 s2 s3 s4
  unfold MDL.Spec.left
  have c : (1 + 1 / 1000000 : ℝ) / 2.865064 ≤ 0.34904 := by norm_num
  have c0 : (0 : ℝ) ≤ (1 + 1 / 1000000 : ℝ) / 2.865064 := by norm_num
  generalize (1 + 1 / 1000000 : ℝ) / 2.865064 = C at *
  generalize Real.log 2 ^ 2 = a2 at *
  generalize Real.log 2 ^ 3 = a3 at *
  generalize Real.log 2 ^ 4 = a4 at *
  generalize Real.log 2 ^ 5 = a5 at *
  generalize ∑ i ∈ Finset.range (MDL.tower 5), (2 : ℝ) ^ (-MDL.code (i + 1)) = t5 at *
  generalize ∑ i ∈ Finset.range (MDL.tower 4), (2 : ℝ) ^ (-MDL.code (i + 1)) = t4 at *
  generalize ∑ i ∈ Finset.range (MDL.tower 3), (2 : ℝ) ^ (-MDL.code (i + 1)) = t3 at *
  generalize ∑ i ∈ Finset.range (MDL.tower 2), (2 : ℝ) ^ (-MDL.code (i + 1)) = t2 at *
  generalize ∑ i ∈ Finset.range (MDL.tower 1), (2 : ℝ) ^ (-MDL.code (i + 1)) = t1 at *
  have tot : t5 ≤ C * (3 / 2 + a2 + a3 + a4 + a5) := by linarith only [s1, s2, s3, s4, two]
  have : C * (3 / 2 + a2 + a3 + a4 + a5) ≤ C * 2.70433 := mul_le_mul_of_nonneg_left (by linarith) c0
  linarith

/-- **C111.** With operations of relative error at most `2⁻⁵⁰` and a sum of relative error at most `2⁻²⁸`, `universal_code_for_integer_with_maximum` is within `1/20000` of the exact code length,
for every maximum up to `2⁴⁰`. -/
theorem C111_maximum_small (hA : MDLMaxArith.Standard A u w) (hu : 0 ≤ u) (hu1 : u ≤ 1 / 2 ^ 50) {n max : ℕ} (hw : 0 ≤ w max) (hw1 : w max ≤ 1 / 2 ^ 28) (hn : 1 ≤ n) (hnm : n ≤ max)
    (hmax : max < 2 ^ 40) : ∃ M r, MDL.codeWithMaximum n max = .ok (some M) ∧ ComputesMax A n max r ∧ |r - M| ≤ 1 / 20000 := by
  norm_num at hu1 hw1
  have hlft := left_ge max hmax.le
  have hl0 : 0 ≤ MDL.Spec.left MDL.code max := by linarith
  have hc : ∀ i : ℕ, 1 ≤ i → i ≤ max → ∃ r, ComputesCode A.toMDLArith i r ∧ |r - Spec.universalCode i| ≤ 105 / 100000000 := by
    intro i h1 h2
    obtain ⟨c1, c2⟩ := code_le h1 (by omega : i < 2 ^ 40)
    have e2 : Spec.universalCode i ^ 2 ≤ 2630884 := (pow_le_pow_left₀ (by linarith) c1 2).trans (by norm_num)
    have e3 : u * Spec.universalCode i ^ 2 ≤ 1 / 1125899906842624 * 2630884 := mul_le_mul hu1 e2 (by positivity) (by norm_num)
    obtain ⟨r, h3, h4⟩ := C111_code hA.base hu (by norm_num; linarith) h1 (by linarith)
    exact ⟨r, h3, by linarith⟩
  obtain ⟨M, hM, h⟩ := maximum_of_left hA hu hw hn hnm hl0 hc
  have m1 : (1 : ℝ) ≤ max := by exact_mod_cast (by omega : 1 ≤ max)
  have hpl : MDL.probabilityLeft max = MDL.Spec.left MDL.code max := by
    unfold MDL.probabilityLeft MDL.Spec.left
    rw [MDL.list_sum_range]
  have q0 : (0 : ℝ) < 2 ^ (-MDL.code n) := Real.rpow_pos_of_pos (by norm_num) _
  have hlm : 0 ≤ MDL.Spec.left MDL.code max / (max : ℝ) := div_nonneg hl0 (by linarith)
  obtain ⟨c1, c2⟩ := code_le hn (by omega : n < 2 ^ 40)
  rw [← MDL.code_eq] at c1 c2
  have hpe : MDL.probability n max = 2 ^ (-MDL.code n) + MDL.Spec.left MDL.code max / max := by unfold MDL.probability; rw [hpl]
  have hp : 0 < MDL.probability n max := by rw [hpe]; linarith
  have hMe : M = -Real.logb 2 (MDL.probability n max) := by
    unfold MDL.codeWithMaximum at hM
    rw [if_neg (by omega), if_pos hp] at hM
    simpa using hM.symm
  have hk : (2 : ℝ) ^ M / max ≤ 20 := by
    rw [hMe, Real.rpow_neg (by norm_num), Real.rpow_logb (by norm_num) (by norm_num) hp, div_le_iff₀ (by linarith), inv_le_iff_one_le_mul₀ hp]
    have : MDL.Spec.left MDL.code max / max * max = MDL.Spec.left MDL.code max := by field_simp
    have h2 : MDL.Spec.left MDL.code max / max * max ≤ MDL.probability n max * max := mul_le_mul_of_nonneg_right (by rw [hpe]; linarith) (by linarith)
    linarith
  have hMu : |M| ≤ 1622 := by
    have h3 : (2 : ℝ) ^ (-MDL.code n) ≤ MDL.probability n max := by rw [hpe]; linarith
    have h4 := Real.logb_le_logb_of_le (b := 2) (by norm_num) q0 h3
    rw [Real.logb_rpow (by norm_num) (by norm_num)] at h4
    have h5 : MDL.probability n max ≤ 2 := by
      have e1 : (2 : ℝ) ^ (-MDL.code n) ≤ 1 := Real.rpow_le_one_of_one_le_of_nonpos (by norm_num) (by linarith)
      have e2 : MDL.Spec.left MDL.code max ≤ 1 := by
        unfold MDL.Spec.left
        have : 0 ≤ ∑ i ∈ Finset.range max, (2 : ℝ) ^ (-MDL.code (i + 1)) := Finset.sum_nonneg fun i _ => (Real.rpow_pos_of_pos (by norm_num) _).le
        linarith
      have e3 : MDL.Spec.left MDL.code max / max ≤ 1 := by rw [div_le_iff₀ (by linarith)]; linarith
      rw [hpe]; linarith
    have h6 := Real.logb_le_logb_of_le (b := 2) (by norm_num) hp h5
    rw [Real.logb_self_eq_one (by norm_num)] at h6
    rw [hMe, abs_le]
    constructor <;> linarith
  have hd : 105 / 100000000 + 7 * u + 2 * w max ≤ 106 / 100000000 := by linarith
  have hE : (105 / 100000000 + 7 * u + 2 * w max) * (1 + (2 : ℝ) ^ M / max) ≤ 106 / 100000000 * 21 :=
    mul_le_mul hd (by linarith) (by positivity) (by norm_num)
  obtain ⟨r, hr, hr'⟩ := h (by linarith)
  refine ⟨M, r, hM, hr, hr'.trans ?_⟩
  have : u * |M| ≤ 1 / 1125899906842624 * 1622 := mul_le_mul hu1 hMu (abs_nonneg _) (by norm_num)
  linarith

/-- **C111.** Adding the numbers one after the other: the relative error of the sum is that of one rounding per number. -/
theorem C111_sum (hA : MDLArith.Standard A.toMDLArith u) (hu : 0 ≤ u) (l : List ℝ) (hl : ∀ x ∈ l, 0 ≤ x) : Within ((1 + u) ^ l.length - 1) (l.foldl A.add 0) l.sum := by
  have key : ∀ (l : List ℝ) (k : ℕ) (x r : ℝ), (∀ x ∈ l, 0 ≤ x) → Rounded u k x r → Rounded u (k + l.length) (l.foldl A.add x) (r + l.sum) := by
    intro l
    induction l with
    | nil => intro k x r _ h; simpa using h
    | cons y l ih =>
      intro k x r hl h
      have h1 : Rounded u k (x + y) (r + y) := h.add ((Rounded.exact (hl y (by simp))).mono hu (Nat.zero_le k))
      have h2 := ih (k + 1) (A.add x y) (r + y) (fun z hz => hl z (by simp [hz])) (h1.round hu (hA.add x y))
      simp only [List.foldl_cons, List.length_cons, List.sum_cons]
      rw [← add_assoc r y, (by omega : k + (l.length + 1) = k + 1 + l.length)]
      exact h2
  have := key l 0 0 0 hl (Rounded.exact (le_refl 0))
  rw [Nat.zero_add, zero_add] at this
  unfold Within
  rw [abs_of_nonneg this.1]
  exact this.2

end

/-- **C111.** A maximum of zero is refused on every machine, and a call returns one number only. -/
theorem C111_maximum_conventions (A : MDLMaxArith) : (∀ g n, codeWithMaximum A g n 0 = .error .zeroDivisionError) ∧
    ∀ n max r s, ComputesMax A n max r → ComputesMax A n max s → r = s := by
  refine ⟨fun g n => ?_, fun n max r s ⟨f, hf⟩ ⟨g, hg⟩ => ?_⟩
  · unfold codeWithMaximum; rw [if_pos rfl]
  · have h1 := hf (Max.max f g) (le_max_left _ _)
    rw [hg (Max.max f g) (le_max_right _ _)] at h1
    exact (Option.some.inj (Option.some.inj (Except.ok.inj h1))).symm

/-- the machine with errors of `Props/FloatMDL`, which adds one number after the other -/
noncomputable def skewMax : MDLMaxArith where
  toMDLArith := skewMDL
  oneSub x := (1 - x) * (1 + 1 / 2 ^ 50)
  powNeg x := 2 ^ (-x) * (1 + 1 / 2 ^ 50)
  sum l := l.foldl skewMDL.add 0

theorem skewMax_standard : MDLMaxArith.Standard skewMax (1 / 2 ^ 50) (fun k => (1 + 1 / 2 ^ 50) ^ k - 1) where
  base := skew_standard
  oneSub _ := within_skew _
  powNeg _ := within_skew _
  sum l hl := C111_sum (A := skewMax) skew_standard (by norm_num) l hl

/-- the hypotheses are met: a maximum of 1000 on that machine -/
example : ∃ M r, MDL.codeWithMaximum 7 1000 = .ok (some M) ∧ ComputesMax skewMax 7 1000 r ∧ |r - M| ≤ 1 / 20000 := by
  have hp := pow_le_two (u := 1 / 2 ^ 50) (by norm_num) (k := 1000) (by norm_num)
  refine C111_maximum_small skewMax_standard (by norm_num) (le_refl _) ?_ (hp.trans (by norm_num)) (by norm_num) (by norm_num) (by norm_num)
  have := one_le_pow' (u := 1 / 2 ^ 50) (by norm_num) 1000
  linarith

end Verif.FloatMDL
