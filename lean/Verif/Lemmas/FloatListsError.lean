import Verif.Lemmas.FloatLists
import Mathlib.Analysis.SpecialFunctions.Log.Deriv
/-! Rounding errors of the compression gain. -/
namespace Verif
namespace FloatLists
open Spec

/-- `x` is a number that differs from `r` by what `k` roundings of terms of total size `w` can do -/
def Approx (u : ℝ) (k : Nat) (x : RVal) (r w : ℝ) : Prop :=
  ∃ s, x = .fin s ∧ |s - r| ≤ ((1 + u) ^ k - 1) * w ∧ |r| ≤ w

variable {A : Arith RVal} {beta u : ℝ}

theorem Approx.nonneg {k : Nat} {x : RVal} {r w : ℝ} (h : Approx u k x r w) : 0 ≤ w := by
  obtain ⟨s, -, -, h⟩ := h
  exact le_trans (abs_nonneg r) h

theorem Approx.mono (hu : 0 ≤ u) {k k' : Nat} {x : RVal} {r w : ℝ} (h : Approx u k x r w) (hk : k ≤ k') : Approx u k' x r w := by
  have hw := h.nonneg
  obtain ⟨s, h1, h2, h3⟩ := h
  refine ⟨s, h1, h2.trans ?_, h3⟩
  have : (1 + u) ^ k ≤ (1 + u) ^ k' := pow_le_pow_right₀ (by linarith) hk
  exact mul_le_mul_of_nonneg_right (by linarith) hw

theorem Rel.approx {x : RVal} {r : ℝ} (h : Rel u x r) : Approx u 1 x r |r| := by
  obtain ⟨s, h1, h2⟩ := h
  exact ⟨s, h1, by rw [pow_one]; linarith, le_refl _⟩

/-- one more rounding -/
theorem round_step (hu : 0 ≤ u) {k : Nat} {x : RVal} {t r w : ℝ} (ht : |t - r| ≤ ((1 + u) ^ k - 1) * w) (hr : |r| ≤ w)
    (h : Rel u x t) : Approx u (k + 1) x r w := by
  obtain ⟨s, h1, h2⟩ := h
  refine ⟨s, h1, ?_, hr⟩
  have e1 : |s - r| ≤ |s - t| + |t - r| := abs_sub_le s t r
  have e2 : |t| ≤ |t - r| + |r| := by
    have := abs_add_le (t - r) r
    rwa [sub_add_cancel] at this
  have e3 : u * |t| ≤ u * (((1 + u) ^ k - 1) * w + w) := mul_le_mul_of_nonneg_left (by linarith) hu
  have e4 : ((1 + u) ^ (k + 1) - 1) * w = ((1 + u) ^ k - 1) * w + u * (((1 + u) ^ k - 1) * w + w) := by rw [pow_succ]; ring
  linarith

theorem approx_sub (hA : Arith.Standard A beta u) (hu : 0 ≤ u) {k : Nat} {x y : RVal} {a b v w : ℝ} (hx : Approx u k x a v)
    (hy : Approx u k y b w) : Approx u (k + 1) (A.sub x y) (a - b) (v + w) := by
  obtain ⟨s, rfl, h1, h2⟩ := hx
  obtain ⟨t, rfl, h3, h4⟩ := hy
  refine round_step hu ?_ ?_ (hA.sub s t)
  · have e : s - t - (a - b) = (s - a) - (t - b) := by ring
    rw [e]
    have := abs_sub (s - a) (t - b)
    linarith
  · have := abs_sub a b
    linarith

theorem approx_add (hA : Arith.Standard A beta u) (hu : 0 ≤ u) {k : Nat} {x y : RVal} {a b v w : ℝ} (hx : Approx u k x a v)
    (hy : Approx u k y b w) : Approx u (k + 1) (A.add x y) (a + b) (v + w) := by
  obtain ⟨s, rfl, h1, h2⟩ := hx
  obtain ⟨t, rfl, h3, h4⟩ := hy
  refine round_step hu ?_ ?_ (hA.add s t)
  · have e : s + t - (a + b) = (s - a) + (t - b) := by ring
    rw [e]
    have := abs_add_le (s - a) (t - b)
    linarith
  · have := abs_add_le a b
    linarith

theorem approx_factor (hu : 0 ≤ u) {k : Nat} {x : RVal} {s a f w : ℝ} (h1 : |s - a| ≤ ((1 + u) ^ k - 1) * w)
    (h2 : |a| ≤ w) (h : Rel u x (f * s)) : Approx u (k + 1) x (f * a) (|f| * w) := by
  refine round_step hu ?_ ?_ h
  · have e : f * s - f * a = f * (s - a) := by ring
    rw [e, abs_mul]
    have := mul_le_mul_of_nonneg_left h1 (abs_nonneg f)
    linarith
  · rw [abs_mul]
    exact mul_le_mul_of_nonneg_left h2 (abs_nonneg f)

theorem approx_scale (hA : Arith.Standard A beta u) (hu : 0 ≤ u) {k : Nat} {x : RVal} {a w : ℝ} (n : Nat) (hx : Approx u k x a w) :
    Approx u (k + 1) (A.scale n x) (n * a) (n * w) := by
  obtain ⟨s, rfl, h1, h2⟩ := hx
  have := approx_factor (f := (n : ℝ)) hu h1 h2 (hA.scale n s)
  rwa [Nat.abs_cast] at this

theorem approx_scaleNeg (hA : Arith.Standard A beta u) (hu : 0 ≤ u) {k : Nat} {x : RVal} {a w : ℝ} (n : Nat) (hx : Approx u k x a w) :
    Approx u (k + 1) (A.scaleNeg n x) (-(n : ℝ) * a) (n * w) := by
  obtain ⟨s, rfl, h1, h2⟩ := hx
  have := approx_factor (f := -(n : ℝ)) hu h1 h2 (hA.scaleNeg n s)
  rwa [abs_neg, Nat.abs_cast] at this

theorem approx_divPow (hA : Arith.Standard A beta u) (hu : 0 ≤ u) {k : Nat} {x : RVal} {a w : ℝ} (n : Nat) (hx : Approx u k x a w) :
    Approx u (k + 1) (A.divPow x n) (a / (n : ℝ) ^ beta) (w / (n : ℝ) ^ beta) := by
  obtain ⟨s, rfl, h1, h2⟩ := hx
  have hf : 0 ≤ ((n : ℝ) ^ beta)⁻¹ := inv_nonneg.2 (Real.rpow_nonneg (Nat.cast_nonneg n) _)
  have h := hA.divPow s n
  rw [div_eq_inv_mul] at h
  have := approx_factor (f := ((n : ℝ) ^ beta)⁻¹) hu h1 h2 h
  rw [abs_of_nonneg hf] at this
  rwa [div_eq_inv_mul, div_eq_inv_mul]

theorem approx_mul (hA : Arith.Standard A beta u) (hu : 0 ≤ u) {k l : Nat} {x y : RVal} {a b v w : ℝ} (hx : Approx u k x a v)
    (hy : Approx u l y b w) : Approx u (k + l + 1) (A.mul x y) (a * b) (v * w) := by
  have hv := hx.nonneg
  have hw := hy.nonneg
  obtain ⟨s, rfl, h1, h2⟩ := hx
  obtain ⟨t, rfl, h3, h4⟩ := hy
  have hk : 1 ≤ (1 + u) ^ k := one_le_pow₀ (by linarith)
  have hl : 1 ≤ (1 + u) ^ l := one_le_pow₀ (by linarith)
  refine round_step hu ?_ ?_ (hA.mul s t)
  · have e : s * t - a * b = (s - a) * (t - b) + (s - a) * b + a * (t - b) := by ring
    rw [e]
    have t1 := abs_add_le ((s - a) * (t - b) + (s - a) * b) (a * (t - b))
    have t2 := abs_add_le ((s - a) * (t - b)) ((s - a) * b)
    rw [abs_mul] at t1
    rw [abs_mul (s - a) (t - b), abs_mul (s - a) b] at t2
    have m1 : |s - a| * |t - b| ≤ (((1 + u) ^ k - 1) * v) * (((1 + u) ^ l - 1) * w) :=
      mul_le_mul h1 h3 (abs_nonneg _) (mul_nonneg (by linarith) hv)
    have m2 : |s - a| * |b| ≤ (((1 + u) ^ k - 1) * v) * w := mul_le_mul h1 h4 (abs_nonneg _) (mul_nonneg (by linarith) hv)
    have m3 : |a| * |t - b| ≤ v * (((1 + u) ^ l - 1) * w) := mul_le_mul h2 h3 (abs_nonneg _) hv
    have e2 : ((1 + u) ^ (k + l) - 1) * (v * w) = (((1 + u) ^ k - 1) * v) * (((1 + u) ^ l - 1) * w) + (((1 + u) ^ k - 1) * v) * w
        + v * (((1 + u) ^ l - 1) * w) := by rw [pow_add]; ring
    linarith
  · rw [abs_mul]
    exact mul_le_mul h2 h4 (abs_nonneg _) hv

/-- the logarithm of a number near 1 -/
theorem logb_near {d : ℝ} (h : |d| ≤ 1 / 16) : |Real.logb 2 (1 + d)| ≤ 2 * |d| := by
  have hd := abs_le.1 h
  have h1 : |Real.log (1 + d)| ≤ |d| / (1 - |d|) := by
    rw [abs_le]
    constructor
    · have := Real.one_sub_inv_le_log_of_pos (x := 1 + d) (by linarith [hd.1])
      refine le_trans ?_ this
      have hpos : 0 < 1 + d := by linarith [hd.1]
      have e : 1 - (1 + d)⁻¹ = d / (1 + d) := by field_simp; ring
      rw [e, neg_le, ← neg_div, div_le_div_iff₀ hpos (by linarith)]
      have h3 := neg_abs_le d
      have h4 := le_abs_self d
      have h5 := abs_nonneg d
      nlinarith
    · have := Real.log_le_sub_one_of_pos (x := 1 + d) (by linarith [hd.1])
      have h2 : |d| ≤ |d| / (1 - |d|) := by
        rw [le_div_iff₀ (by linarith)]
        nlinarith [abs_nonneg d]
      linarith [le_abs_self d]
  have h2 : (0.6931 : ℝ) < Real.log 2 := lt_trans (by norm_num) Real.log_two_gt_d9
  unfold Real.logb
  rw [abs_div, abs_of_pos (by linarith : 0 < Real.log 2), div_le_iff₀ (by linarith)]
  refine h1.trans ?_
  rw [div_le_iff₀ (by linarith)]
  have h5 := abs_nonneg d
  have h6 : (0.6931 : ℝ) * (15 / 16) ≤ Real.log 2 * (1 - |d|) := mul_le_mul h2.le (by linarith) (by norm_num) (by linarith)
  have h7 : |d| * 1 ≤ |d| * (2 * (Real.log 2 * (1 - |d|))) := mul_le_mul_of_nonneg_left (by linarith) h5
  linarith

/-- the computed logarithm of a computed quotient -/
theorem approx_log (hA : Arith.Standard A beta u) (hu : 0 ≤ u) (hu1 : u ≤ 1 / 16) (m n : Nat) (hm : m ≠ 0) (hn : n ≠ 0) :
    Approx u 1 (A.logF (A.quot m n)) (Real.logb 2 ((m : ℝ) / n)) (|Real.logb 2 ((m : ℝ) / n)| + 3) := by
  obtain ⟨q, h1, h2⟩ := hA.quot m n hn
  have hpos : (0 : ℝ) < (m : ℝ) / n := by
    have : 0 < m := Nat.pos_of_ne_zero hm
    have : 0 < n := Nat.pos_of_ne_zero hn
    positivity
  rw [abs_of_pos hpos] at h2
  generalize hx : (m : ℝ) / n = x at *
  have hq : q = x * (1 + (q - x) / x) := by field_simp; ring
  have hd : |(q - x) / x| ≤ u := by
    rw [abs_div, abs_of_pos hpos, div_le_iff₀ hpos]; exact h2
  generalize (q - x) / x = d at *
  have hd2 : |d| ≤ 1 / 16 := hd.trans hu1
  have hd3 := abs_le.1 hd2
  have hq0 : 0 < q := by rw [hq]; exact mul_pos hpos (by linarith [hd3.1])
  obtain ⟨s, g1, g2⟩ := hA.logF q hq0
  refine ⟨s, by rw [h1, g1], ?_, by linarith [abs_nonneg (Real.logb 2 x)]⟩
  have hlog : Real.logb 2 q = Real.logb 2 x + Real.logb 2 (1 + d) := by
    rw [hq, Real.logb_mul hpos.ne' (by linarith [hd3.1])]
  have hnear := logb_near hd2
  rw [hlog] at g2
  generalize Real.logb 2 x = l at *
  generalize Real.logb 2 (1 + d) = η at *
  have e1 : |s - l| ≤ |s - (l + η)| + |η| := by
    have := abs_sub_le s (l + η) l
    rwa [add_sub_cancel_left] at this
  have e2 : u * |l + η| ≤ u * (|l| + |η|) := mul_le_mul_of_nonneg_left (abs_add_le l η) hu
  have e3 : |η| ≤ 2 * u := hnear.trans (by linarith)
  have e4 : u * |η| ≤ u * (2 * u) := mul_le_mul_of_nonneg_left e3 hu
  have e5 : u * (2 * u) ≤ u * 1 := mul_le_mul_of_nonneg_left (by linarith) hu
  rw [pow_one]
  have e6 : (1 + u - 1) * (|l| + 3) = u * |l| + 3 * u := by ring
  rw [e6]
  have e7 : u * (|l| + |η|) = u * |l| + u * |η| := by ring
  linarith

/-- the computed cost of rows under a distribution -/
theorem approx_cost (hA : Arith.Standard A beta u) (hu : 0 ≤ u) (hu1 : u ≤ 1 / 16) (a b R pos neg : Nat) (ha : a ≠ 0) (hb : b ≠ 0)
    (hR : R ≠ 0) :
    Approx u 3 (A.sub (A.scaleNeg pos (A.logF (A.quot a R))) (A.scale neg (A.logF (A.quot b R))))
      (-(pos : ℝ) * Real.logb 2 ((a : ℝ) / R) - (neg : ℝ) * Real.logb 2 ((b : ℝ) / R))
      (rowsWeight pos neg ((a : ℝ) / R) ((b : ℝ) / R)) :=
  approx_sub hA hu (approx_scaleNeg hA hu pos (approx_log hA hu hu1 a R ha hR)) (approx_scale hA hu neg (approx_log hA hu hu1 b R hb hR))

theorem approx_own (hA : Arith.Standard A beta u) (hu : 0 ≤ u) (hu1 : u ≤ 1 / 16) (p n : Nat) (h : p + n ≠ 0) :
    Approx u 4 (computedOwn A p n) (ownCode p n)
      (rowsWeight p n ((p : ℝ) / (p + n : Nat)) ((n : ℝ) / (p + n : Nat)) + |Real.logb 2 (complexityTwo (p + n))|) := by
  unfold computedOwn ownCode
  simp only
  refine approx_add hA hu ?_ ((Rel.approx (hA.complexity _)).mono hu (by norm_num))
  split
  · rename_i h0
    have h1 := (approx_scaleNeg hA hu n (approx_log hA hu hu1 n (p + n) (by omega) h)).mono hu (show 2 ≤ 3 by norm_num)
    subst h0
    unfold rowsWeight
    simpa using h1
  · rename_i hp
    split
    · rename_i h0
      have h1 := (approx_scaleNeg hA hu p (approx_log hA hu hu1 p (p + n) hp h)).mono hu (show 2 ≤ 3 by norm_num)
      subst h0
      unfold rowsWeight
      simpa using h1
    · rename_i hn
      exact approx_cost hA hu hu1 p n (p + n) p n hp hn h

theorem approx_fold (hA : Arith.Standard A beta u) (hu : 0 ≤ u) (l : List Nat) (hl : ∀ k ∈ l, k ≠ 0) (k : Nat) (hk : 1 ≤ k)
    {x : RVal} {r w : ℝ} (hx : Approx u k x r w) :
    Approx u (k + l.length) (l.foldl (fun r k => A.sub r (A.logN k)) x) (r - (l.map (fun k : Nat => Real.logb 2 (k : ℝ))).sum)
      (w + (l.map (fun k : Nat => |Real.logb 2 (k : ℝ)|)).sum) := by
  induction l generalizing k x r w with
  | nil => simpa using hx
  | cons n l ih =>
    have h1 := approx_sub hA hu hx ((Rel.approx (hA.logN n (hl n (by simp)))).mono hu hk)
    have h2 := ih (fun k hk => hl k (by simp [hk])) (k + 1) (by omega) h1
    simp only [List.foldl_cons, List.map_cons, List.sum_cons, List.length_cons]
    have e1 : k + (l.length + 1) = k + 1 + l.length := by omega
    rw [e1, ← sub_sub, ← add_assoc]
    exact h2

end FloatLists
end Verif
