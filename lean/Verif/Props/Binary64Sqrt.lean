import Verif.Model.Binary64Sqrt
import Verif.Props.Binary64
import Verif.Props.FloatBinomial
/-! Property C103, continued: `BinomialTest` and its optimistic estimate in binary64 with its range of exponents. -/
namespace Verif
open Spec Binary64 Float64

/-- a float that is a square has the exact root -/
theorem fsqrt_square {r : Rat} (hf : IsFloat r) (h : 0 ≤ r) : fsqrt (r ^ 2) = r := by
  obtain ⟨_, near⟩ := fsqrt_rounding (q := r ^ 2) (by positivity)
  have h1 := near r hf
  have hr : (0 : ℝ) ≤ (r : ℝ) := by exact_mod_cast h
  have e : Real.sqrt ((r ^ 2 : Rat) : ℝ) = (r : ℝ) := by
    push_cast; exact Real.sqrt_sq hr
  rw [e, sub_self, abs_zero, abs_nonpos_iff, sub_eq_zero] at h1
  exact_mod_cast h1

theorem fsqrt_pow (l : Int) : fsqrt ((2 : Rat) ^ (2 * l)) = 2 ^ l := by
  have := fsqrt_square (isFloat_pow l) (two_pos l).le
  rwa [← zpow_natCast, ← zpow_mul, mul_comm] at this

theorem Binary64.Bnd.fsqrt {l h : Int} {q : Rat} (hq : Bnd (2 * l) (2 * h) q) (h0 : 0 ≤ q) : Bnd l h (fsqrt q) := by
  rcases hq with e | ⟨a, b⟩
  · exact .inl (by rw [e, fsqrt_zero])
  · right
    rw [abs_of_nonneg h0] at a b
    rw [abs_of_nonneg (fsqrt_nonneg h0), ← fsqrt_pow l, ← fsqrt_pow h]
    exact ⟨fsqrt_mono (two_pos _).le a, fsqrt_mono h0 b⟩

/-- **C103.** The square root of a number of the format is in its range: the root computed is the number of the format nearest to the exact one. -/
theorem C103_sqrt (q : Rat) (hf : IsFloat64 q) (h : 0 ≤ q) :
    ∃ r, Binary64.sqrt (.fin q) = .ok (.fin r) ∧ IsFloat64 r ∧ ∀ g, IsFloat64 g → |(r : ℝ) - Real.sqrt q| ≤ |(g : ℝ) - Real.sqrt q| := by
  obtain ⟨fl1, near⟩ := fsqrt_rounding h
  have toFloat : ∀ g, IsFloat64 g → IsFloat g := by
    rintro g ⟨m, e, hm, _, _, rfl⟩
    exact ⟨m, e, hm, rfl⟩
  refine ⟨fsqrt q, by simp [Binary64.sqrt, not_lt.2 h], ?_, fun g hg => near g (toFloat g hg)⟩
  have hb : Bnd (2 * (-537)) (2 * 512) q := by
    obtain ⟨m, e, hm, h1, h2, rfl⟩ := hf
    by_cases hm0 : m = 0
    · exact .inl (by rw [hm0]; simp)
    · right
      rw [abs_mul, abs_of_pos (two_pos e)]
      have m1 : (1 : Rat) ≤ |(m : Rat)| := by exact_mod_cast Int.one_le_abs hm0
      have m2 : |(m : Rat)| ≤ 2 ^ (53 : Int) := by
        have : |(m : Rat)| < 2 ^ (53 : Nat) := by exact_mod_cast hm
        exact_mod_cast this.le
      constructor
      · calc (2 : Rat) ^ (2 * (-537) : Int) ≤ 2 ^ e := zpow_le (by omega)
          _ ≤ _ := le_mul_of_one_le_left (two_pos e).le m1
      · calc |(m : Rat)| * 2 ^ e ≤ 2 ^ (53 : Int) * 2 ^ e := mul_le_mul_of_nonneg_right m2 (two_pos e).le
          _ = 2 ^ (53 + e) := (zpow_add₀ (by norm_num) _ _).symm
          _ ≤ _ := zpow_le (by omega)
  rcases hb.fsqrt h with e0 | ⟨a, b⟩
  · exact ⟨0, 0, by norm_num, by norm_num, by norm_num, by rw [e0]; simp⟩
  · obtain ⟨m, e, hm, he⟩ := fl1
    rw [he, abs_mul, abs_of_pos (two_pos e)] at a b
    have hm0 : m ≠ 0 := by
      rintro rfl
      simp only [Int.cast_zero, abs_zero, zero_mul] at a
      exact absurd a (not_le.2 (two_pos _))
    have m1 : (1 : Rat) ≤ |(m : Rat)| := by exact_mod_cast Int.one_le_abs hm0
    have m2 : |(m : Rat)| ≤ 2 ^ (53 : Int) := by
      have : |(m : Rat)| < 2 ^ (53 : Nat) := by exact_mod_cast hm
      exact_mod_cast this.le
    refine ⟨m, e, hm, ?_, ?_, he⟩
    · by_contra hlt
      have : |(m : Rat)| * 2 ^ e ≤ 2 ^ (53 + e) := by
        rw [zpow_add₀ (by norm_num)]
        exact mul_le_mul_of_nonneg_right m2 (two_pos e).le
      have := a.trans this
      rw [zpow_le_zpow_iff_right₀ (by norm_num)] at this
      omega
    · by_contra hgt
      have : (2 : Rat) ^ e ≤ 2 ^ (512 : Int) := (le_mul_of_one_le_left (two_pos e).le m1).trans b
      rw [zpow_le_zpow_iff_right₀ (by norm_num)] at this
      omega

/-- both square roots fail, or both give the same number -/
theorem sqrt_agrees {l h : Int} {x : XF} {q : Rat} (a : Agrees (2 * l) (2 * h) x q) :
    (Binary64.sqrt x = .error .valueError ∧ Float64.pySqrt q = .error .valueError) ∨
    (∃ y r, Binary64.sqrt x = .ok y ∧ Float64.pySqrt q = .ok r ∧ Agrees l h y r) := by
  rw [a.eq]
  by_cases hq : q < 0
  · exact .inl ⟨by simp [Binary64.sqrt, hq], by simp [Float64.pySqrt, hq]⟩
  · have h0 := not_lt.1 hq
    exact .inr ⟨.fin (fsqrt q), fsqrt q, by simp [Binary64.sqrt, hq], by simp [Float64.pySqrt, hq], rfl, (fsqrt_rounding h0).1, a.bnd.fsqrt h0⟩

theorem Binary64.Bnd.quot {l h l' h' : Int} {x y : Rat} (hx : Bnd l h x) (hy : Bnd l' h' y) : Bnd (l - h') (h - l') (x / y) := by
  rcases hx with hx | ⟨a, b⟩
  · exact .inl (by rw [hx, zero_div])
  · rcases hy with hy | ⟨c, d⟩
    · exact .inl (by rw [hy, div_zero])
    · right
      have yp : 0 < |y| := lt_of_lt_of_le (two_pos _) c
      rw [abs_div, zpow_sub₀ (by norm_num), zpow_sub₀ (by norm_num)]
      exact ⟨div_le_div₀ (abs_nonneg _) a yp d, div_le_div₀ (two_pos _).le b (two_pos _) c⟩

theorem fdiv_agrees {l h l' h' : Int} {x y : XF} {p q : Rat} (a : Agrees l h x p) (b : Agrees l' h' y q) (hl : -1022 ≤ l - h') (hh : h - l' ≤ 1023) :
    (Binary64.fdiv x y = .error .zeroDivisionError ∧ Float64.div p q = .error .zeroDivisionError) ∨
    (∃ z r, Binary64.fdiv x y = .ok z ∧ Float64.div p q = .ok r ∧ Agrees (l - h') (h - l') z r) := by
  rw [a.eq, b.eq]
  by_cases h0 : q = 0
  · exact .inl ⟨by simp [Binary64.fdiv, h0], by simp [Float64.div, h0]⟩
  · exact .inr ⟨_, _, by simp [Binary64.fdiv, h0], by simp [Float64.div, h0], agrees_round (a.bnd.quot b.bnd) hl hh⟩

/-- **C103.** On dictionaries of integers of absolute value up to `2^256`, BinomialTest gives, in binary64, the finite number that it gives without limits of the
exponent, or the same exception. -/
theorem C103_binomial (d : Params) (hd : Integers256 d) : Binary64.binomialTest d = (Float64.binomialTest d).map XF.fin := by
  unfold Binary64.binomialTest Float64.binomialTest
  rcases int_param hd kTp with e1 | ⟨tp, e1, h1⟩ <;> rcases int_param hd kFp with e2 | ⟨fp, e2, h2⟩ <;> rcases int_param hd kTP with e3 | ⟨TP, e3, h3⟩ <;>
    rcases int_param hd kFP with e4 | ⟨FP, e4, h4⟩ <;> simp only [e1, e2, e3, e4, bind, Except.bind] <;> try rfl
  have b1 : |tp + fp| ≤ 2 ^ 257 := abs_add_int h1 h2 (by omega) (by omega)
  have b2 : |TP + FP| ≤ 2 ^ 257 := abs_add_int h3 h4 (by omega) (by omega)
  have b3 : |TP + FP - (tp + fp)| ≤ 2 ^ 258 := abs_sub_int b2 b1 (by omega) (by omega)
  rw [← Int.cast_add, ← Int.cast_add, ← Int.cast_sub]
  rcases div_agrees h1 b1 (by norm_num) (by norm_num) with ⟨_, a1, a2⟩ | ⟨_, p, p', a1, a2, a3⟩ <;> simp only [a1, a2]
  · rfl
  rcases div_agrees h3 b2 (by norm_num) (by norm_num) with ⟨_, c1, c2⟩ | ⟨_, p0, p0', c1, c2, c3⟩ <;> simp only [c1, c2]
  · rfl
  obtain ⟨m, m1, m2⟩ := exact_agrees (Bnd.int b1) (by norm_num) (by norm_num)
  simp only [m1]
  rcases sqrt_agrees (l := 0) (h := 129) (m2.mono (by norm_num) (by norm_num)) with ⟨s1, s2⟩ | ⟨rn, rn', s1, s2, s3⟩ <;> simp only [s1, s2]
  · rfl
  have v := c3.mul ((agrees_one (by norm_num) (by norm_num)).sub c3 (by norm_num) (by norm_num)) (by norm_num) (by norm_num)
  rcases sqrt_agrees (l := -283) (h := 257) (v.mono (by norm_num) (by norm_num)) with ⟨t1, t2⟩ | ⟨rv, rv', t1, t2, t3⟩ <;> simp only [t1, t2]
  · rfl
  have w := ((a3.mono (l' := -257) (h' := 256) (by norm_num) (by norm_num)).sub (c3.mono (by norm_num) (by norm_num)) (by norm_num) (by norm_num)).mul s3
    (by norm_num) (by norm_num)
  rcases fdiv_agrees w t3 (by norm_num) (by norm_num) with ⟨u1, u2⟩ | ⟨a, a', u1, u2, u3⟩ <;> simp only [u1, u2]
  · rfl
  rcases div_agrees b2 b3 (by norm_num) (by norm_num) with ⟨_, x1, x2⟩ | ⟨_, q, q', x1, x2, x3⟩ <;> simp only [x1, x2]
  · rfl
  rcases sqrt_agrees (l := -129) (h := 129) (x3.mono (by norm_num) (by norm_num)) with ⟨y1, y2⟩ | ⟨b, b', y1, y2, y3⟩ <;> simp only [y1, y2]
  · rfl
  have := u3.mul y3 (by norm_num) (by norm_num)
  simp only [pure, Except.pure, this.eq, Except.map]

/-- **C103.** The same of its optimistic estimate. -/
theorem C103_estimate (d : Params) (hd : Integers256 d) : Binary64.binomialTestOE1 d = (Float64.binomialTestOE1 d).map XF.fin := by
  unfold Binary64.binomialTestOE1 Float64.binomialTestOE1
  rcases int_param hd kTp with e1 | ⟨tp, e1, h1⟩ <;> rcases int_param hd kTP with e3 | ⟨TP, e3, h3⟩ <;>
    rcases int_param hd kFP with e4 | ⟨FP, e4, h4⟩ <;> simp only [e1, e3, e4, bind, Except.bind] <;> try rfl
  have b2 : |TP + FP| ≤ 2 ^ 257 := abs_add_int h3 h4 (by omega) (by omega)
  rw [← Int.cast_add]
  obtain ⟨m, m1, m2⟩ := exact_agrees (Bnd.int h1) (by norm_num) (by norm_num)
  simp only [m1]
  rcases sqrt_agrees (l := 0) (h := 128) (m2.mono (by norm_num) (by norm_num)) with ⟨s1, s2⟩ | ⟨r, r', s1, s2, s3⟩ <;> simp only [s1, s2]
  · rfl
  rcases div_agrees h3 b2 (by norm_num) (by norm_num) with ⟨_, c1, c2⟩ | ⟨_, a, a', c1, c2, c3⟩ <;> simp only [c1, c2]
  · rfl
  have := s3.mul ((agrees_one (by norm_num) (by norm_num)).sub c3 (by norm_num) (by norm_num)) (by norm_num) (by norm_num)
  simp only [pure, Except.pure, this.eq, Except.map]

/-- **C103.** So, on natural counts of up to `2^256` rows, C106 is about binary64 as it is. -/
theorem C103_binomial_counts (tp fp TP FP : Nat) (h1 : tp ≤ TP) (h2 : fp ≤ FP) (hN : TP + FP ≤ 2 ^ 256) :
    Binary64.binomialTest (counts tp fp TP FP) = (Float64.binomialTest (counts tp fp TP FP)).map XF.fin ∧
    Binary64.binomialTestOE1 (counts tp fp TP FP) = (Float64.binomialTestOE1 (counts tp fp TP FP)).map XF.fin := by
  have h := integers_counts (tp := tp) (fp := fp) (TP := TP) (FP := FP) (by omega) (by omega) (by omega) (by omega)
  exact ⟨C103_binomial _ h, C103_estimate _ h⟩

/-- **C103, the limit.** With larger numbers the estimate raises `OverflowError` although its value is small enough for a float. -/
theorem C103_estimate_limit : Binary64.binomialTestOE1 [(kTp, 2 ^ 1024), (kTP, 2 ^ 1024), (kFP, 2 ^ 1024)] = .error .overflowError ∧
    (Float64.binomialTestOE1 [(kTp, 2 ^ 1024), (kTP, 2 ^ 1024), (kFP, 2 ^ 1024)]).toOption = some (2 ^ 511) := by decide +kernel

/-- the values computed on ordinary counts: 4 rows, 3 of them positive, of 10 -/
example : Binary64.binomialTest (counts 3 1 5 5) = (Float64.binomialTest (counts 3 1 5 5)).map XF.fin ∧
    ∃ q, Float64.binomialTest (counts 3 1 5 5) = .ok q ∧ 0 < q :=
  ⟨(C103_binomial_counts 3 1 5 5 (by norm_num) (by norm_num) (by norm_num)).1, ok_of (p := fun q => 0 < q) (by decide +kernel)⟩

end Verif
