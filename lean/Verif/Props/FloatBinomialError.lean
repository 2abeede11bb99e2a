import Verif.Props.FloatBinomial
/-! Property C106: the accuracy of BinomialTest in floating point. -/
namespace Verif
open Spec Float64
namespace BinErr

/-- rounding an approximation -/
theorem rnd {x x' z M a U : ℝ} (h : |x' - x| ≤ a * M) (hx : |x| ≤ M) (hz : |z - x'| ≤ U * |x'|) (ha : a ≤ 1 / 100) (hU : 0 ≤ U) :
    |z - x| ≤ (a + 101 / 100 * U) * M := by
  have hM : 0 ≤ M := (abs_nonneg _).trans hx
  have h1 : |x'| ≤ 101 / 100 * M := by
    have : |x'| ≤ |x' - x| + |x| := by have := abs_add_le (x' - x) x; simpa using this
    nlinarith
  have h2 : |z - x| ≤ |z - x'| + |x' - x| := by have := abs_add_le (z - x') (x' - x); simpa using this
  nlinarith

/-- the product of two approximations -/
theorem prod {x x' y y' M K a b : ℝ} (h : |x' - x| ≤ a * M) (hx : |x| ≤ M) (h' : |y' - y| ≤ b * K) (hy : |y| ≤ K) (ha : a ≤ 1 / 100) (hb : 0 ≤ b) (ha0 : 0 ≤ a) :
    |x' * y' - x * y| ≤ (a + 101 / 100 * b) * (M * K) := by
  have hM : 0 ≤ M := (abs_nonneg _).trans hx
  have hK : 0 ≤ K := (abs_nonneg _).trans hy
  have h1 : |x'| ≤ 101 / 100 * M := by
    have : |x'| ≤ |x' - x| + |x| := by have := abs_add_le (x' - x) x; simpa using this
    nlinarith
  have e : x' * y' - x * y = x' * (y' - y) + (x' - x) * y := by ring
  rw [e]
  refine (abs_add_le _ _).trans ?_
  rw [abs_mul, abs_mul]
  have k1 : |x'| * |y' - y| ≤ (101 / 100 * M) * (b * K) := mul_le_mul h1 h' (abs_nonneg _) (by positivity)
  have k2 : |x' - x| * |y| ≤ (a * M) * K := mul_le_mul h hy (abs_nonneg _) (by positivity)
  linarith

/-- the square root of an approximation -/
theorem root {v v' a : ℝ} (hv : 0 < v) (hv' : 0 ≤ v') (h : |v' - v| ≤ a * v) : |Real.sqrt v' - Real.sqrt v| ≤ a * Real.sqrt v := by
  have s := Real.sqrt_pos.2 hv
  have s' := Real.sqrt_nonneg v'
  have e : v' - v = (Real.sqrt v' - Real.sqrt v) * (Real.sqrt v' + Real.sqrt v) := by
    have e1 := Real.mul_self_sqrt hv.le
    have e2 := Real.mul_self_sqrt hv'
    nlinarith
  rw [e, abs_mul, abs_of_nonneg (by linarith : 0 ≤ Real.sqrt v' + Real.sqrt v)] at h
  have h2 : |Real.sqrt v' - Real.sqrt v| * Real.sqrt v ≤ a * Real.sqrt v * Real.sqrt v := by
    rw [mul_assoc, Real.mul_self_sqrt hv.le]
    have := mul_nonneg (abs_nonneg (Real.sqrt v' - Real.sqrt v)) s'
    rw [mul_add] at h
    linarith
  exact le_of_mul_le_mul_right h2 s

/-- the inverse of an approximation -/
theorem recip {V V' a : ℝ} (hV : 0 < V) (h : |V' - V| ≤ a * V) (ha : a ≤ 1 / 100) (ha0 : 0 ≤ a) : |V'⁻¹ - V⁻¹| ≤ 102 / 100 * a * V⁻¹ := by
  have h1 := abs_le.1 h
  have hV' : 99 / 100 * V ≤ V' := by nlinarith
  have hp : 0 < V' := by nlinarith
  have e : V'⁻¹ - V⁻¹ = (V - V') * (V'⁻¹ * V⁻¹) := by field_simp
  rw [e, abs_mul, abs_of_pos (by positivity : 0 < V'⁻¹ * V⁻¹), abs_sub_comm]
  have h3 : V'⁻¹ ≤ 102 / 100 * V⁻¹ := by
    rw [inv_le_comm₀ hp (by positivity), mul_inv, inv_inv]
    nlinarith
  calc |V' - V| * (V'⁻¹ * V⁻¹) ≤ (a * V) * (102 / 100 * V⁻¹ * V⁻¹) := by
        apply mul_le_mul h _ (by positivity) (by positivity)
        exact mul_le_mul_of_nonneg_right h3 (by positivity)
    _ = _ := by field_simp

theorem cast_abs {a b c : Rat} (h : |a - b| ≤ c) : |(a : ℝ) - (b : ℝ)| ≤ (c : ℝ) := by
  have : ((|a - b| : Rat) : ℝ) ≤ ((c : Rat) : ℝ) := by exact_mod_cast h
  push_cast at this
  exact this

theorem cast_fl (q : Rat) : |((fl q : Rat) : ℝ) - (q : ℝ)| ≤ ((u : Rat) : ℝ) * |(q : ℝ)| := by
  have := cast_abs (fl_abs q)
  push_cast at this
  exact this
end BinErr
open BinErr

set_option maxHeartbeats 800000 in
/-- **C106.** The accuracy of BinomialTest in floating point, up to `2^43` rows: with `S` the factor by which BinomialTest multiplies the difference of the shares,
the error is at most `(16 + 2 N / FP) * 2^-53 * S`. -/
theorem C106_error (tp fp TP FP : Nat) (h1 : tp ≤ TP) (h2 : fp ≤ FP) (hb : TP + FP ≤ 2 ^ 43) (q : Rat)
    (hq : Float64.binomialTest (counts tp fp TP FP) = .ok q) :
    ∃ x S : ℝ, Quality.binomialTest (counts tp fp TP FP) = .ok x ∧
      x = ((tp : ℝ) / (tp + fp) - (TP : ℝ) / (TP + FP)) * S ∧
      S = Real.sqrt (tp + fp) / Real.sqrt ((TP : ℝ) / (TP + FP) * ((FP : ℝ) / (TP + FP))) * Real.sqrt ((TP + FP) / ((TP - tp) + (FP - fp))) ∧
      |(q : ℝ) - x| ≤ (16 + 2 * ((TP : ℝ) + FP) / FP) * (2 : ℝ) ^ (-53 : Int) * S := by
  obtain ⟨hT, hF, hn, hlt⟩ := (C106_defined tp fp TP FP h1 h2 (by omega)).1.1 ⟨q, hq⟩
  have nQ : (0 : Rat) < tp + fp := by exact_mod_cast hn
  have bQ : (0 : Rat) < TP + FP := by exact_mod_cast (by omega : 0 < TP + FP)
  have FQ : (0 : Rat) < FP := by exact_mod_cast hF
  have TQ : (0 : Rat) < TP := by exact_mod_cast hT
  have dQ : (0 : Rat) < (TP : Rat) + FP - ((tp : Rat) + fp) := by
    have : ((tp : Rat) + fp) < TP + FP := by exact_mod_cast hlt
    linarith
  have n0 : (0 : ℝ) < tp + fp := by exact_mod_cast hn
  have b0 : (0 : ℝ) < TP + FP := by exact_mod_cast (by omega : 0 < TP + FP)
  have F0 : (0 : ℝ) < FP := by exact_mod_cast hF
  have F1 : (1 : ℝ) ≤ FP := by exact_mod_cast hF
  have T0 : (0 : ℝ) < TP := by exact_mod_cast hT
  have d0 : (0 : ℝ) < (TP : ℝ) + FP - (tp + fp) := by
    have : ((tp : ℝ) + fp) < TP + FP := by exact_mod_cast hlt
    linarith
  have bb : (TP : ℝ) + FP ≤ 8796093022208 := by exact_mod_cast (by norm_num at hb; omega : TP + FP ≤ 8796093022208)
  -- the exact value
  have hx := (C78_outcome _ _ _ _ _ (counts_has tp fp TP FP)).2.2.2.2 nQ (by positivity) (by rw [div_lt_one bQ]; linarith) (by positivity)
  refine ⟨_, Real.sqrt (tp + fp) * (Real.sqrt ((TP : ℝ) / (TP + FP) * (1 - (TP : ℝ) / (TP + FP))))⁻¹ * Real.sqrt (((TP : ℝ) + FP) / ((TP : ℝ) + FP - (tp + fp))),
    hx, by push_cast; rw [div_eq_mul_inv]; ring, ?_, ?_⟩
  · rw [div_eq_mul_inv (Real.sqrt _), show (1 : ℝ) - (TP : ℝ) / (TP + FP) = (FP : ℝ) / (TP + FP) by field_simp; ring,
      show (TP : ℝ) + FP - (tp + fp) = (TP - tp) + (FP - fp) by ring]
  -- the computed value
  rw [binomialFl_counts tp fp TP FP hn (by omega)] at hq
  have hv : fsqrt (fl (fl ((TP : Rat) / (TP + FP)) * fl (1 - fl ((TP : Rat) / (TP + FP))))) ≠ 0 :=
    (fsqrt_pos (fl_pos (mul_pos (share_pos hT) (fl_pos (by linarith [share_lt_one hF (by omega : TP + FP < 2 ^ 54)]))))).ne'
  rw [div_of hv, div_of dQ.ne'] at hq
  simp only [bind, Except.bind, pySqrt_of (fl_nonneg (div_pos bQ dQ).le)] at hq
  obtain rfl := Except.ok.inj hq
  have U0 : (0 : ℝ) < ((u : Rat) : ℝ) := by exact_mod_cast u_pos
  have Uval : ((u : Rat) : ℝ) = 1 / 9007199254740992 := by unfold u; norm_num
  have e53 : (2 : ℝ) ^ (-53 : Int) = ((u : Rat) : ℝ) := by rw [← u_eq]; push_cast; rfl
  rw [e53]
  -- k = N / FP
  have k1 : (1 : ℝ) ≤ ((TP : ℝ) + FP) / FP := by rw [one_le_div F0]; linarith
  have ku : ((TP : ℝ) + FP) / FP * ((u : Rat) : ℝ) ≤ 1 / 1000 := by
    have : ((TP : ℝ) + FP) / FP ≤ 8796093022208 := by rw [div_le_iff₀ F0]; nlinarith
    rw [Uval]; linarith
  have U1 : ((u : Rat) : ℝ) ≤ 1 / 1000000 := by rw [Uval]; norm_num
  rw [show 2 * ((TP : ℝ) + FP) / FP = 2 * (((TP : ℝ) + FP) / FP) from mul_div_assoc _ _ _]
  -- the share of positives and the share of negatives
  set p : ℝ := (TP : ℝ) / (TP + FP) with hp
  have p0 : 0 < p := by positivity
  have p1 : p < 1 := by rw [hp, div_lt_one b0]; linarith
  have wk : 1 - p = (((TP : ℝ) + FP) / FP)⁻¹ := by rw [hp]; field_simp; ring
  set k : ℝ := ((TP : ℝ) + FP) / FP with hk
  have kw : k * (1 - p) = 1 := by rw [wk]; exact mul_inv_cancel₀ (by linarith)
  have rc : |((fl ((TP : Rat) / (TP + FP)) : Rat) : ℝ) - p| ≤ ((u : Rat) : ℝ) * p := by
    have := cast_fl ((TP : Rat) / (TP + FP))
    push_cast at this
    rwa [abs_of_pos p0] at this
  have fc1 : fl ((TP : Rat) / (TP + FP)) < 1 := share_lt_one hF (by omega)
  have rd := cast_fl (1 - fl ((TP : Rat) / (TP + FP)))
  have rv := cast_fl (fl ((TP : Rat) / (TP + FP)) * fl (1 - fl ((TP : Rat) / (TP + FP))))
  have v0 : 0 ≤ fl (fl ((TP : Rat) / (TP + FP)) * fl (1 - fl ((TP : Rat) / (TP + FP)))) :=
    fl_nonneg (mul_nonneg (share_pos hT).le (fl_nonneg (by linarith)))
  have rV := fsqrt_error v0
  have rn := fsqrt_error (fl_nonneg nQ.le)
  have nfl : fl ((tp : Rat) + fp) = tp + fp := fl_add_nat (n := tp + fp) (by omega) rfl
  rw [nfl] at rn ⊢
  have rq := cast_fl (((TP : Rat) + FP) / ((TP : Rat) + FP - ((tp : Rat) + fp)))
  have q0 : 0 ≤ fl (((TP : Rat) + FP) / ((TP : Rat) + FP - ((tp : Rat) + fp))) := fl_nonneg (div_pos bQ dQ).le
  have rb := fsqrt_error q0
  obtain ⟨dl, dl1⟩ := err_diff (b := (tp : Rat) / (tp + fp)) (c := (TP : Rat) / (TP + FP)) (by positivity) (by rw [div_le_one nQ]; have : (0 : Rat) ≤ fp := by positivity
                                                                                                               linarith) (by positivity) (by rw [div_le_one bQ]; linarith)
  have dl := cast_abs dl
  set X := fl (fl ((tp : Rat) / (tp + fp)) - fl ((TP : Rat) / (TP + FP))) with hX
  set c := fl ((TP : Rat) / (TP + FP)) with hc
  set D := fl (1 - c) with hD
  set v' := fl (c * D) with hv'
  set V' := fsqrt v' with hV'
  set R := fsqrt ((tp : Rat) + fp) with hR
  set qq := fl (((TP : Rat) + FP) / ((TP : Rat) + FP - ((tp : Rat) + fp))) with hqq
  set B := fsqrt qq with hB
  have rA := cast_fl (X * R)
  have rA2 := cast_fl (fl (X * R) / V')
  have rY := cast_fl (fl (fl (X * R) / V') * B)
  set A := fl (X * R) with hA
  set A2 := fl (A / V') with hA2
  set Y := fl (A2 * B) with hY
  clear_value A A2 Y X c D v' V' R qq B
  push_cast at rc rd rv rV rn rq rb dl rA rA2 rY
  generalize ((u : Rat) : ℝ) = U at *
  have U0' := U0.le
  -- 1 - c and D
  have s1 : |(1 - (c : ℝ)) - (1 - p)| ≤ (k * U) * (1 - p) := by
    have : (k * U) * (1 - p) = U := by linear_combination U * kw
    rw [this, show (1 - (c : ℝ)) - (1 - p) = -((c : ℝ) - p) by ring, abs_neg]
    nlinarith
  have kU0 : 0 ≤ k * U := by positivity
  have w0 : 0 < 1 - p := by linarith
  have s2 : |(D : ℝ) - (1 - p)| ≤ (k * U + 101 / 100 * U) * (1 - p) := rnd s1 (abs_of_pos w0).le rd (by linarith only [ku, U1, U0, kU0]) U0'
  have s3 : |(c : ℝ) * D - p * (1 - p)| ≤ (U + 101 / 100 * (k * U + 101 / 100 * U)) * (p * (1 - p)) :=
    prod rc (abs_of_pos p0).le s2 (abs_of_pos w0).le (by linarith only [ku, U1, U0, kU0]) (by positivity) U0'
  have pv : 0 < p * (1 - p) := mul_pos p0 w0
  have s4 := rnd s3 (abs_of_pos pv).le rv (by linarith only [ku, U1, U0, kU0]) U0'
  have s5 := root pv (by exact_mod_cast v0) s4
  have sv := Real.sqrt_pos.2 pv
  have s6 := rnd s5 (abs_of_pos sv).le (by rw [abs_of_nonneg (Real.sqrt_nonneg _)]; exact rV) (by linarith only [ku, U1, U0, kU0]) U0'
  have s7 := recip sv s6 (by linarith only [ku, U1, U0, kU0]) (by positivity)
  have si : 0 < (Real.sqrt (p * (1 - p)))⁻¹ := inv_pos.2 sv
  -- the covered rows
  have sn := Real.sqrt_pos.2 n0
  -- the correction
  have Q0 : 0 < ((TP : ℝ) + FP) / ((TP : ℝ) + FP - (tp + fp)) := div_pos b0 d0
  rw [abs_of_pos Q0] at rq
  have t1 := root Q0 (by exact_mod_cast q0) rq
  have sq := Real.sqrt_pos.2 Q0
  have t2 := rnd t1 (abs_of_pos sq).le (by rw [abs_of_nonneg (Real.sqrt_nonneg _)]; exact rb) (by linarith only [ku, U1, U0, kU0]) U0'
  -- the difference of the shares
  have dd : |(tp : ℝ) / (tp + fp) - p| ≤ 1 := by
    have a1 : (tp : ℝ) / (tp + fp) ≤ 1 := by rw [div_le_one n0]; have : (0 : ℝ) ≤ fp := by positivity
                                             linarith
    have a2 : (0 : ℝ) ≤ (tp : ℝ) / (tp + fp) := by positivity
    rw [abs_le]; constructor <;> linarith
  have dl' : |(X : ℝ) - ((tp : ℝ) / (tp + fp) - p)| ≤ 3 * U * 1 := by rw [mul_one]; exact dl
  have z1 := prod dl' dd rn (abs_of_pos sn).le (by linarith only [ku, U1, U0, kU0]) U0' (by linarith only [ku, U1, U0, kU0])
  have m1 : |((tp : ℝ) / (tp + fp) - p) * Real.sqrt (tp + fp)| ≤ 1 * Real.sqrt (tp + fp) := by
    rw [abs_mul, abs_of_pos sn]; exact mul_le_mul_of_nonneg_right dd sn.le
  have z2 := rnd z1 m1 rA (by linarith only [ku, U1, U0, kU0]) U0'
  have z3 := prod z2 m1 s7 (abs_of_pos si).le (by linarith only [ku, U1, U0, kU0]) (by positivity) (by positivity)
  have m2 : |((tp : ℝ) / (tp + fp) - p) * Real.sqrt (tp + fp) * (Real.sqrt (p * (1 - p)))⁻¹| ≤ 1 * Real.sqrt (tp + fp) * (Real.sqrt (p * (1 - p)))⁻¹ := by
    rw [abs_mul, abs_of_pos si]; exact mul_le_mul_of_nonneg_right m1 si.le
  rw [div_eq_mul_inv] at rA2
  have z4 := rnd z3 m2 rA2 (by linarith only [ku, U1, U0, kU0]) U0'
  have z5 := prod z4 m2 t2 (abs_of_pos sq).le (by linarith only [ku, U1, U0, kU0]) (by positivity) (by positivity)
  have m3 : |((tp : ℝ) / (tp + fp) - p) * Real.sqrt (tp + fp) * (Real.sqrt (p * (1 - p)))⁻¹ * Real.sqrt (((TP : ℝ) + FP) / ((TP : ℝ) + FP - (tp + fp)))| ≤
      1 * Real.sqrt (tp + fp) * (Real.sqrt (p * (1 - p)))⁻¹ * Real.sqrt (((TP : ℝ) + FP) / ((TP : ℝ) + FP - (tp + fp))) := by
    rw [abs_mul, abs_of_pos sq]; exact mul_le_mul_of_nonneg_right m2 sq.le
  have z6 := rnd z5 m3 rY (by linarith only [ku, U1, U0, kU0]) U0'
  push_cast
  rw [← hp, div_eq_mul_inv (_ * Real.sqrt _) (Real.sqrt _)]
  rw [show (1 : ℝ) * Real.sqrt (tp + fp) = Real.sqrt (tp + fp) from one_mul _] at z6
  refine z6.trans (mul_le_mul_of_nonneg_right ?_ (by positivity))
  linarith only [ku, U1, U0, kU0]

/-- on concrete counts: the hypotheses are met -/
example : ∃ q, Float64.binomialTest (counts 3 1 5 5) = .ok q :=
  (C106_defined 3 1 5 5 (by decide) (by decide) (by decide)).1.2 (by decide)

end Verif
