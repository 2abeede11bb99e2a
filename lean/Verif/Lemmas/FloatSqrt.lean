import Verif.Lemmas.FloatBounds
import Verif.Spec.FloatBinomial
import Verif.Model.FloatBinomial
/-! The square root in floating point is correctly rounded. -/
namespace Verif
open Spec
namespace Float64

theorem isFloat_scale {g : Rat} (h : IsFloat g) (t : Int) : IsFloat (g * 2 ^ t) := by
  obtain ⟨m, e, h1, rfl⟩ := h
  exact ⟨m, e + t, h1, by rw [zpow_add₀ (by norm_num), mul_assoc]⟩

/-- floats of at least `2^54` are multiples of 4 -/
theorem big_float {g : Rat} (hg : IsFloat g) (h : (2 : Rat) ^ 54 ≤ g) : ∃ n : Int, g = 4 * n := by
  obtain ⟨n, hn⟩ := grid hg (k := 54) (by exact_mod_cast h)
  refine ⟨n, ?_⟩
  norm_num at hn
  linarith

/-- rounding a number strictly between the same two multiples of 1 as `y`, from `2^60` on -/
theorem same_side {s : Nat} (hs : 2 ^ 60 ≤ s) {F G : Rat} {y : ℝ} (hF : IsFloat F) (hG : IsFloat G) (y1 : (s : ℝ) < y) (y2 : y < s + 1)
    (near : |F - (s + 1 / 2)| ≤ |G - (s + 1 / 2)|) (err : |F - (s + 1 / 2)| ≤ 2 ^ (-53 : Int) * (s + 1 / 2))
    (hlt : |(G : ℝ) - y| < |(F : ℝ) - y|) : False := by
  norm_num at hs
  have hsR : (1152921504606846976 : Rat) ≤ s := by exact_mod_cast hs
  have hsr : (1152921504606846976 : ℝ) ≤ s := by exact_mod_cast hs
  norm_num at err
  have e1 := abs_le.1 err
  have F54 : (2 : Rat) ^ 54 ≤ F := by norm_num; linarith [e1.1]
  have errR : |(F : ℝ) - (s + 1 / 2)| ≤ 1 / 9007199254740992 * (s + 1 / 2) := by
    have : ((|F - (s + 1 / 2)| : Rat) : ℝ) ≤ ((1 / 9007199254740992 * (s + 1 / 2) : Rat) : ℝ) := by exact_mod_cast err
    push_cast at this
    exact this
  have e2 := abs_le.1 errR
  have hFy : |(F : ℝ) - y| ≤ 1 / 9007199254740992 * (s + 1 / 2) + 1 := by
    rw [abs_le]; constructor <;> linarith [e2.1, e2.2]
  have e3 := abs_lt.1 (hlt.trans_le hFy)
  have G54r : (2 : ℝ) ^ 54 ≤ G := by norm_num; linarith [e3.1]
  have G54 : (2 : Rat) ^ 54 ≤ G := by exact_mod_cast G54r
  obtain ⟨n1, hn1⟩ := big_float hF F54
  obtain ⟨n2, hn2⟩ := big_float hG G54
  have key : (2 * s : ℝ) < F + G ∧ ((F : ℝ) + G) < 2 * s + 2 := by
    have nearR : |(F : ℝ) - (s + 1 / 2)| ≤ |(G : ℝ) - (s + 1 / 2)| := by
      have : ((|F - (s + 1 / 2)| : Rat) : ℝ) ≤ ((|G - (s + 1 / 2)| : Rat) : ℝ) := by exact_mod_cast near
      push_cast at this
      exact this
    rw [← sq_le_sq] at nearR
    rw [← sq_lt_sq] at hlt
    rcases lt_trichotomy (F : ℝ) G with h | h | h
    · have a1 : 2 * ((s : ℝ) + 1 / 2) ≤ F + G := by nlinarith
      have a2 : (F : ℝ) + G < 2 * y := by nlinarith
      constructor <;> linarith
    · rw [h] at hlt; exact absurd hlt (lt_irrefl _)
    · have a1 : (F : ℝ) + G ≤ 2 * ((s : ℝ) + 1 / 2) := by nlinarith
      have a2 : 2 * y < (F : ℝ) + G := by nlinarith
      constructor <;> linarith
  rw [hn1, hn2] at key
  push_cast at key
  have k1 : ((2 * (s : Int) : Int) : ℝ) < ((4 * n1 + 4 * n2 : Int) : ℝ) := by push_cast; linarith [key.1]
  have k2 : ((4 * n1 + 4 * n2 : Int) : ℝ) < ((2 * (s : Int) + 2 : Int) : ℝ) := by push_cast; linarith [key.2]
  have k1 := Int.cast_lt.1 k1
  have k2 := Int.cast_lt.1 k2
  omega

/-- `fsqrt` is correctly rounded -/
theorem fsqrt_rounding {q : Rat} (hq : 0 ≤ q) : IsSqrtRounding q (fsqrt q) := by
  rcases hq.eq_or_lt with rfl | hq
  · have : fsqrt 0 = 0 := by unfold fsqrt; simp
    rw [this]
    refine ⟨⟨0, 0, by norm_num, by simp⟩, fun g _ => ?_⟩
    simp
  unfold fsqrt
  rw [if_neg (not_le.2 hq)]
  simp only [pow2_eq]
  set t : Int := 60 - expOf q / 2 with ht
  set a : Rat := q * 2 ^ (2 * t) with ha
  set s := Nat.sqrt a.floor.toNat with hs
  obtain ⟨hk1, hk2⟩ := expOf_spec hq
  have a120 : (2 : Rat) ^ (120 : Int) ≤ a := by
    rw [ha]
    calc (2 : Rat) ^ (120 : Int) ≤ 2 ^ (expOf q + 2 * t) := zpow_le_zpow_right₀ (by norm_num) (by omega)
      _ = 2 ^ expOf q * 2 ^ (2 * t) := zpow_add₀ (by norm_num) _ _
      _ ≤ q * 2 ^ (2 * t) := mul_le_mul_of_nonneg_right hk1 (two_pos _).le
  have apos : 0 < a := lt_of_lt_of_le (two_pos _) a120
  have fl120 : (2 : Int) ^ 120 ≤ a.floor := floor_spec a _ (by push_cast; exact_mod_cast a120)
  have fn : ((a.floor.toNat : Nat) : Int) = a.floor := Int.toNat_of_nonneg (by have : (0 : Int) < 2 ^ 120 := by norm_num
                                                                               omega)
  have s60 : 2 ^ 60 ≤ s := by
    rw [hs, Nat.le_sqrt]
    have : (2 : Nat) ^ 120 ≤ a.floor.toNat := by
      have : ((2 ^ 120 : Nat) : Int) ≤ (a.floor.toNat : Int) := by rw [fn]; exact_mod_cast fl120
      exact_mod_cast this
    calc 2 ^ 60 * 2 ^ 60 = 2 ^ 120 := by norm_num
      _ ≤ _ := this
  have s1 : (s : Rat) * s ≤ a := by
    have h1 : s * s ≤ a.floor.toNat := Nat.sqrt_le _
    have h2 : ((s * s : Nat) : Int) ≤ a.floor := by rw [← fn]; exact_mod_cast h1
    have h3 : (a.floor : Rat) ≤ a := Rat.floor_le a
    have h4 : (((s * s : Nat) : Int) : Rat) ≤ (a.floor : Rat) := by exact_mod_cast h2
    push_cast at h4
    linarith
  have s2 : a < ((s : Rat) + 1) * (s + 1) := by
    have h1 : a.floor.toNat < (s + 1) * (s + 1) := Nat.lt_succ_sqrt _
    have h2 : a.floor + 1 ≤ (((s + 1) * (s + 1) : Nat) : Int) := by rw [← fn]; exact_mod_cast h1
    have h3 := Rat.lt_floor_add_one a
    push_cast at h3
    have h4 : ((a.floor + 1 : Int) : Rat) ≤ ((((s + 1) * (s + 1) : Nat) : Int) : Rat) := by exact_mod_cast h2
    push_cast at h4
    linarith
  have root : Real.sqrt (a : ℝ) = Real.sqrt q * 2 ^ t := by
    rw [ha]
    push_cast
    rw [Real.sqrt_mul (by exact_mod_cast hq.le)]
    congr 1
    rw [Real.sqrt_eq_iff_mul_self_eq (by positivity) (by positivity), ← zpow_add₀ (by norm_num)]
    congr 1; omega
  refine ⟨isFloat_fl _, fun g hg => ?_⟩
  have tpos : (0 : ℝ) < 2 ^ t := by positivity
  have hsc : ∀ r : Rat, |(r : ℝ) - Real.sqrt q| = |((r * 2 ^ t : Rat) : ℝ) - Real.sqrt a| * (2 ^ t)⁻¹ := by
    intro r
    rw [root]
    push_cast
    rw [← sub_mul, abs_mul, abs_of_pos tpos, mul_assoc, mul_inv_cancel₀ tpos.ne', mul_one]
  rw [hsc, hsc]
  refine mul_le_mul_of_nonneg_right ?_ (by positivity)
  by_cases hex : (s : Rat) * s = a
  · -- exact root
    rw [if_pos hex]
    have hx : (2 * (s : Rat) + 0) * 2 ^ (-(t + 1)) = s * 2 ^ (-t) := by
      rw [neg_add, zpow_add₀ (by norm_num)]; norm_num; ring
    rw [hx]
    have ra : Real.sqrt (a : ℝ) = s := by
      rw [← hex]; push_cast
      exact Real.sqrt_mul_self (by positivity)
    have near := (fl_isRounding ((s : Rat) * 2 ^ (-t))).nearest g hg
    rw [ra]
    have t2 : (2 : Rat) ^ (-t) * 2 ^ t = 1 := by rw [← zpow_add₀ (by norm_num)]; simp
    have sc : ∀ r : Rat, |r * 2 ^ t - s| = |r - s * 2 ^ (-t)| * 2 ^ t := by
      intro r
      rw [← abs_of_pos (two_pos t), ← abs_mul, abs_of_pos (two_pos t), sub_mul, mul_assoc (s : Rat), t2, mul_one]
    have : |fl ((s : Rat) * 2 ^ (-t)) * 2 ^ t - s| ≤ |g * 2 ^ t - s| := by
      rw [sc, sc]
      exact mul_le_mul_of_nonneg_right near (two_pos t).le
    exact_mod_cast this
  · rw [if_neg hex]
    have hx : (2 * (s : Rat) + 1) * 2 ^ (-(t + 1)) = (s + 1 / 2) * 2 ^ (-t) := by
      rw [neg_add, zpow_add₀ (by norm_num)]; norm_num; ring
    rw [hx]
    have s1' : (s : Rat) * s < a := lt_of_le_of_ne s1 hex
    have y1 : (s : ℝ) < Real.sqrt a := by
      rw [Real.lt_sqrt (by positivity)]
      have : ((s * s : Rat) : ℝ) < (a : ℝ) := by exact_mod_cast s1'
      push_cast at this
      nlinarith
    have y2 : Real.sqrt a < (s : ℝ) + 1 := by
      rw [Real.sqrt_lt' (by positivity)]
      have : (a : ℝ) < (((s + 1) * (s + 1) : Rat) : ℝ) := by exact_mod_cast s2
      push_cast at this
      nlinarith
    have t2 : (2 : Rat) ^ (-t) * 2 ^ t = 1 := by rw [← zpow_add₀ (by norm_num)]; simp
    have sc : ∀ r : Rat, |r * 2 ^ t - (s + 1 / 2)| = |r - (s + 1 / 2) * 2 ^ (-t)| * 2 ^ t := by
      intro r
      rw [← abs_of_pos (two_pos t), ← abs_mul, abs_of_pos (two_pos t), sub_mul, mul_assoc ((s : Rat) + 1 / 2), t2, mul_one]
    by_contra hlt
    rw [not_le] at hlt
    have near := (fl_isRounding (((s : Rat) + 1 / 2) * 2 ^ (-t))).nearest g hg
    refine same_side s60 (isFloat_scale (isFloat_fl (((s : Rat) + 1 / 2) * 2 ^ (-t))) t) (isFloat_scale hg t) y1 y2 ?_ ?_ hlt
    · rw [sc, sc]
      exact mul_le_mul_of_nonneg_right near (two_pos t).le
    · rw [sc]
      have e := fl_error (((s : Rat) + 1 / 2) * 2 ^ (-t))
      rw [abs_of_pos (by positivity : (0 : Rat) < ((s : Rat) + 1 / 2) * 2 ^ (-t))] at e
      have := mul_le_mul_of_nonneg_right e (two_pos t).le
      refine this.trans (le_of_eq ?_)
      rw [mul_assoc, mul_assoc ((s : Rat) + 1 / 2), t2, mul_one]

end Float64
end Verif
