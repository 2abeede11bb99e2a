import Verif.Props.FloatIDSD
/-! Property C109: the odds ratio in floating point. -/
namespace Verif
open Spec Float64

/-! ## for every rounding -/

theorem odds_den {ρ : Rat → Rat} {tp fp TP FP : Nat} (hρ : RoundsFor ρ (TP + FP)) (h1 : tp < TP) (h2 : fp < FP) : 0 < ρ (((TP : Rat) - tp) / ((FP : Rat) - fp)) := by
  have a1 : (1 : Rat) ≤ (TP : Rat) - tp := by
    have : ((tp + 1 : Nat) : Rat) ≤ (TP : Rat) := by exact_mod_cast h1
    push_cast at this
    linarith
  have a2 : (0 : Rat) < (FP : Rat) - fp := by
    have : (fp : Rat) < FP := by exact_mod_cast h2
    linarith
  have a3 : (FP : Rat) - fp ≤ ((TP + FP : Nat) : Rat) := by
    push_cast
    have : (0 : Rat) ≤ (TP : Rat) := Nat.cast_nonneg _
    have : (0 : Rat) ≤ (fp : Rat) := Nat.cast_nonneg _
    linarith
  refine lt_of_lt_of_le hρ.pos (hρ.mono ?_)
  rw [div_le_div_iff₀ (lt_of_lt_of_le a2 a3) a2]
  nlinarith

/-- C109 (odds ratio, every rounding): the calculated odds ratio is never `nan` nor negative. -/
theorem C109_odds_nonneg {ρ : Rat → Rat} {tp fp TP FP : Nat} (hρ : RoundsFor ρ (TP + FP)) (h1 : tp ≤ TP) (h2 : fp ≤ FP) :
    IDSDRounded.ofCounts ρ tp fp TP FP = .inf ∨ ∃ q, IDSDRounded.ofCounts ρ tp fp TP FP = .fin q ∧ 0 ≤ q := by
  unfold IDSDRounded.ofCounts
  split_ifs with a b c d e
  · exact .inr ⟨0, rfl, le_refl _⟩
  · exact .inl rfl
  · exact .inr ⟨0, rfl, le_refl _⟩
  · exact .inr ⟨0, rfl, le_refl _⟩
  · exact .inl rfl
  · refine .inr ⟨_, rfl, ?_⟩
    have hz := hρ.zero
    have n0 : 0 ≤ ρ ((tp : Rat) / fp) := by
      rw [← hz]; exact hρ.mono (by positivity)
    have d0 := odds_den hρ (lt_of_le_of_ne h1 b) (lt_of_le_of_ne h2 c)
    have : 0 ≤ ρ ((tp : Rat) / fp) / ρ (((TP : Rat) - tp) / ((FP : Rat) - fp)) := div_nonneg n0 d0.le
    have := hρ.mono this
    rw [hz] at this
    exact this

/-- C109 (odds ratio, every rounding): more covered rows with the target and fewer without it never lower the calculated odds ratio (of a subgroup that covers rows of both kinds and leaves
rows of both kinds). -/
theorem C109_odds_order {ρ : Rat → Rat} {tp fp tp' fp' TP FP : Nat} (hρ : RoundsFor ρ (TP + FP)) (h1 : tp ≤ tp') (h2 : tp' < TP) (h3 : 0 < fp') (h4 : fp' ≤ fp) (h5 : fp < FP) :
    ∃ q q', IDSDRounded.ofCounts ρ tp fp TP FP = .fin q ∧ IDSDRounded.ofCounts ρ tp' fp' TP FP = .fin q' ∧ q ≤ q' := by
  have e : ∀ a b : Nat, a < TP → 0 < b → b < FP → IDSDRounded.ofCounts ρ a b TP FP = .fin (ρ (ρ ((a : Rat) / b) / ρ (((TP : Rat) - a) / ((FP : Rat) - b)))) := by
    intro a b ha hb hb'
    unfold IDSDRounded.ofCounts
    rw [if_neg (by omega), if_neg (by omega), if_neg (by omega), if_neg (by omega), if_neg (by omega)]
  refine ⟨_, _, e tp fp (by omega) (by omega) h5, e tp' fp' h2 h3 (by omega), hρ.mono ?_⟩
  have d0 := odds_den hρ (tp := tp) (fp := fp) (by omega) h5
  have d1 := odds_den hρ (tp := tp') (fp := fp') h2 (by omega)
  have c1 : (tp : Rat) ≤ tp' := by exact_mod_cast h1
  have c2 : (tp' : Rat) < TP := by exact_mod_cast h2
  have c3 : (0 : Rat) < fp' := by exact_mod_cast h3
  have c4 : (fp' : Rat) ≤ fp := by exact_mod_cast h4
  have c5 : (fp : Rat) < FP := by exact_mod_cast h5
  have c6 : (0 : Rat) ≤ tp := Nat.cast_nonneg _
  have n1 : ρ ((tp : Rat) / fp) ≤ ρ ((tp' : Rat) / fp') := hρ.mono (by
    rw [div_le_div_iff₀ (by linarith) c3]
    exact mul_le_mul c1 c4 c3.le (by linarith))
  have n2 : ρ (((TP : Rat) - tp') / ((FP : Rat) - fp')) ≤ ρ (((TP : Rat) - tp) / ((FP : Rat) - fp)) := hρ.mono (by
    rw [div_le_div_iff₀ (by linarith) (by linarith)]
    exact mul_le_mul (by linarith) (by linarith) (by linarith) (by linarith))
  have n0 : 0 ≤ ρ ((tp' : Rat) / fp') := by
    rw [← hρ.zero]; exact hρ.mono (by positivity)
  exact div_le_div₀ n0 n1 d1 n2

/-! ## in floating point -/

/-- the odds ratio as a fraction of products of counts -/
theorem odds_fraction {tp fp TP FP : Nat} (h1 : tp < TP) (h2 : 0 < fp) (h3 : fp < FP) :
    ((tp : Rat) / fp) / (((TP : Rat) - tp) / ((FP : Rat) - fp)) = ((tp * (FP - fp) : Nat) : Rat) / ((fp * (TP - tp) : Nat) : Rat) := by
  rw [div_div_div_eq, Nat.cast_mul, Nat.cast_mul, Nat.cast_sub h3.le, Nat.cast_sub h1.le]

theorem odds_le {tp fp TP FP : Nat} (h1 : tp < TP) (h3 : fp < FP) : tp * (FP - fp) ≤ TP * FP ∧ fp * (TP - tp) ≤ TP * FP := by
  refine ⟨Nat.mul_le_mul h1.le (Nat.sub_le _ _), ?_⟩
  rw [Nat.mul_comm TP]
  exact Nat.mul_le_mul h3.le (Nat.sub_le _ _)

theorem odds_bounds {a b : Rat} (ha : 0 ≤ a) (hb : 0 < b) :
    fl (fl a / fl b) ≤ a / b * (1 + 2 ^ (-51 : Int)) ∧ a / b * (1 - 2 ^ (-51 : Int)) ≤ fl (fl a / fl b) := by
  have hfb := fl_pos hb
  have hfa := fl_nonneg ha
  obtain ⟨a1, a2⟩ := fl_le_of ha
  obtain ⟨b1, b2⟩ := fl_le_of hb.le
  obtain ⟨c1, c2⟩ := fl_le_of (div_nonneg hfa hfb.le)
  generalize fl (fl a / fl b) = r at *
  generalize fl a = x at *
  generalize fl b = y at *
  have hab : 0 ≤ a / b := div_nonneg ha hb.le
  have key : a = a / b * b := by field_simp
  have key2 : x = x / y * y := by field_simp
  have hxy : 0 ≤ x / y := div_nonneg hfa hfb.le
  generalize hq : a / b = q at *
  generalize hs : x / y = s at *
  norm_num at *
  have hsb : s * y = x := key2.symm
  -- bounds on s
  have u1 : s * (b * (9007199254740991 / 9007199254740992)) ≤ q * b * (9007199254740993 / 9007199254740992) := by
    calc s * (b * (9007199254740991 / 9007199254740992)) ≤ s * y := mul_le_mul_of_nonneg_left b2 hxy
      _ = x := hsb
      _ ≤ _ := by rw [key] at a1; linarith
  have u2 : s * (9007199254740991 / 9007199254740992) ≤ q * (9007199254740993 / 9007199254740992) := by
    have : (s * (9007199254740991 / 9007199254740992)) * b ≤ (q * (9007199254740993 / 9007199254740992)) * b := by linarith
    exact le_of_mul_le_mul_right this hb
  have v1 : q * b * (9007199254740991 / 9007199254740992) ≤ s * (b * (9007199254740993 / 9007199254740992)) := by
    calc q * b * (9007199254740991 / 9007199254740992) ≤ x := by rw [key] at a2; linarith
      _ = s * y := key2
      _ ≤ _ := mul_le_mul_of_nonneg_left b1 hxy
  have v2 : q * (9007199254740991 / 9007199254740992) ≤ s * (9007199254740993 / 9007199254740992) := by
    have : (q * (9007199254740991 / 9007199254740992)) * b ≤ (s * (9007199254740993 / 9007199254740992)) * b := by linarith
    exact le_of_mul_le_mul_right this hb
  constructor <;> linarith

/-- C109 (odds ratio, floats): the calculated odds ratio differs from the exact one by at most `2^-51` of it. -/
theorem C109_odds_error {tp fp TP FP : Nat} (h1 : tp < TP) (h2 : 0 < fp) (h3 : fp < FP) :
    ∃ q, IDSDRounded.ofCounts fl tp fp TP FP = .fin q ∧ OddsRatioStatistic.ofCounts tp fp TP FP = .fin (((tp * (FP - fp) : Nat) : Rat) / ((fp * (TP - tp) : Nat) : Rat)) ∧
      |q - ((tp * (FP - fp) : Nat) : Rat) / ((fp * (TP - tp) : Nat) : Rat)| ≤ 2 ^ (-51 : Int) * (((tp * (FP - fp) : Nat) : Rat) / ((fp * (TP - tp) : Nat) : Rat)) := by
  refine ⟨fl (fl ((tp : Rat) / fp) / fl (((TP : Rat) - tp) / ((FP : Rat) - fp))), ?_, ?_, ?_⟩
  · unfold IDSDRounded.ofCounts
    rw [if_neg (by omega), if_neg (by omega), if_neg (by omega), if_neg (by omega), if_neg (by omega)]
  · unfold OddsRatioStatistic.ofCounts
    simp only [Nat.cast_inj, Nat.cast_eq_zero]
    rw [if_neg (by omega), if_neg (by omega), if_neg (by omega), if_neg (by omega), if_neg (by omega), odds_fraction h1 h2 h3]
  · have c1 : (tp : Rat) < TP := by exact_mod_cast h1
    have c2 : (0 : Rat) < fp := by exact_mod_cast h2
    have c3 : (fp : Rat) < FP := by exact_mod_cast h3
    have hb : 0 < ((TP : Rat) - tp) / ((FP : Rat) - fp) := div_pos (by linarith) (by linarith)
    obtain ⟨e1, e2⟩ := odds_bounds (a := (tp : Rat) / fp) (by positivity) hb
    rw [odds_fraction h1 h2 h3] at e1 e2
    rw [abs_le]
    constructor <;> linarith

/-- numbers as close as the calculated odds ratio keep the order of two fractions with small products -/
theorem fraction_gap {x y z w : Nat} (hy : 0 < y) (hw : 0 < w) (hk : x * w < 2 ^ 49) (h : (x : Rat) / y < (z : Rat) / w) :
    (x : Rat) / y * (1 + 2 ^ (-51 : Int)) < (z : Rat) / w * (1 - 2 ^ (-51 : Int)) := by
  have hy' : (0 : Rat) < y := by exact_mod_cast hy
  have hw' : (0 : Rat) < w := by exact_mod_cast hw
  rw [div_lt_div_iff₀ hy' hw'] at h
  have h1 : ((x * w + 1 : Nat) : Rat) ≤ ((z * y : Nat) : Rat) := by
    have : x * w < z * y := by exact_mod_cast h
    exact_mod_cast this
  have h2 : ((x * w : Nat) : Rat) < ((2 ^ 49 : Nat) : Rat) := by exact_mod_cast hk
  rw [div_mul_eq_mul_div, div_mul_eq_mul_div, div_lt_div_iff₀ hy' hw']
  push_cast at h1 h2
  rw [mul_right_comm, mul_right_comm (z : Rat)]
  generalize (x : Rat) * w = a at *
  generalize (z : Rat) * y = b at *
  norm_num at h2 ⊢
  linarith only [h1, h2]

/-- C109 (odds ratio, floats): when the numbers of rows with and without the target have a product of at most `2^24` (so on up to 8192 rows), subgroups with different odds ratios have
calculated odds ratios in the same order. -/
theorem C109_odds_separates {tp fp tp' fp' TP FP : Nat} (hN : TP * FP ≤ 2 ^ 24) (h1 : tp < TP) (h2 : 0 < fp) (h3 : fp < FP) (h1' : tp' < TP) (h2' : 0 < fp') (h3' : fp' < FP)
    (h : (OddsRatioStatistic.ofCounts tp fp TP FP).lt (OddsRatioStatistic.ofCounts tp' fp' TP FP) = true) :
    (IDSDRounded.ofCounts fl tp fp TP FP).lt (IDSDRounded.ofCounts fl tp' fp' TP FP) = true := by
  obtain ⟨q, e1, e2, e3⟩ := C109_odds_error h1 h2 h3
  obtain ⟨q', e1', e2', e3'⟩ := C109_odds_error h1' h2' h3'
  rw [e2, e2'] at h
  rw [e1, e1']
  simp only [XF.lt, decide_eq_true_eq] at h ⊢
  obtain ⟨b1, _⟩ := odds_le h1 h3
  obtain ⟨_, b2⟩ := odds_le h1' h3'
  have hg := fraction_gap (Nat.mul_pos h2 (by omega)) (Nat.mul_pos h2' (by omega)) (lt_of_le_of_lt (Nat.mul_le_mul (b1.trans hN) (b2.trans hN)) (by norm_num)) h
  rw [abs_le] at e3 e3'
  linarith [e3.2, e3'.1]

/-- C109 (threshold of the odds ratio, floats): with a threshold `m / k` such that the products of `k`, of `m` and of the numbers of rows with and without the target stay below `2^49`, a
subgroup passes with the calculated odds ratio exactly when it passes with the exact one, unless the exact odds ratio is equal to the threshold. -/
theorem C109_odds_threshold {tp fp TP FP m k : Nat} (hk : 0 < k) (hK : TP * FP * k < 2 ^ 49) (hM : TP * FP * m < 2 ^ 49) (h1 : tp < TP) (h2 : 0 < fp) (h3 : fp < FP)
    (hne : OddsRatioStatistic.ofCounts tp fp TP FP ≠ .fin ((m : Rat) / k)) :
    (IDSDRounded.ofCounts fl tp fp TP FP).ge (.fin ((m : Rat) / k)) = (OddsRatioStatistic.ofCounts tp fp TP FP).ge (.fin ((m : Rat) / k)) := by
  obtain ⟨q, e1, e2, e3⟩ := C109_odds_error h1 h2 h3
  rw [e2] at hne
  rw [e1, e2]
  simp only [XF.ge, XF.le]
  apply decide_eq_decide.2
  obtain ⟨b1, b2⟩ := odds_le h1 h3
  have hy : 0 < fp * (TP - tp) := Nat.mul_pos h2 (by omega)
  rw [abs_le] at e3
  have pos : (0 : Rat) ≤ ((tp * (FP - fp) : Nat) : Rat) / ((fp * (TP - tp) : Nat) : Rat) := by positivity
  have posm : (0 : Rat) ≤ (m : Rat) / k := by positivity
  generalize hx : tp * (FP - fp) = x at *
  generalize hy' : fp * (TP - tp) = y at *
  rcases lt_trichotomy ((x : Rat) / y) ((m : Rat) / k) with hlt | heq | hgt
  · have hg := fraction_gap hy hk (lt_of_le_of_lt (Nat.mul_le_mul_right _ b1) hK) hlt
    refine ⟨fun h => ?_, fun h => absurd hlt (not_lt.2 h)⟩
    exfalso
    norm_num at e3 hg
    linarith only [e3.2, hg, h, posm]
  · exact absurd (by rw [heq]) hne
  · have hg := fraction_gap hk hy (lt_of_le_of_lt (by rw [Nat.mul_comm]; exact Nat.mul_le_mul_right _ b2) hM) hgt
    refine ⟨fun _ => hgt.le, fun _ => ?_⟩
    norm_num at e3 hg
    linarith only [e3.1, hg, posm]

/-- C109 (threshold 1, floats): a subgroup whose rows have exactly the odds of the other rows has the calculated odds ratio 1. -/
theorem C109_odds_one {tp fp TP FP : Nat} (h1 : tp < TP) (h2 : 0 < fp) (h3 : fp < FP) (h : OddsRatioStatistic.ofCounts tp fp TP FP = .fin 1) :
    IDSDRounded.ofCounts fl tp fp TP FP = .fin 1 := by
  have c1 : (tp : Rat) < TP := by exact_mod_cast h1
  have c2 : (0 : Rat) < fp := by exact_mod_cast h2
  have c3 : (fp : Rat) < FP := by exact_mod_cast h3
  have hb : 0 < ((TP : Rat) - tp) / ((FP : Rat) - fp) := div_pos (by linarith) (by linarith)
  unfold OddsRatioStatistic.ofCounts at h
  simp only [Nat.cast_inj, Nat.cast_eq_zero] at h
  rw [if_neg (by omega), if_neg (by omega), if_neg (by omega), if_neg (by omega), if_neg (by omega)] at h
  unfold IDSDRounded.ofCounts
  rw [if_neg (by omega), if_neg (by omega), if_neg (by omega), if_neg (by omega), if_neg (by omega)]
  simp only [XF.fin.injEq] at h ⊢
  rw [div_eq_one_iff_eq hb.ne'] at h
  rw [h, div_self (fl_pos hb).ne', fl_one]

/-! ## differences -/

/-- C109 is false at a threshold that the exact odds ratio meets with equality: 3 of 4 rows with the target and 5 of 10 without it have the odds ratio 3; the calculated one is below 3. And two subgroups
of the same data with equal odds ratios may be calculated as different. -/
theorem C109_odds_equal_fails :
    OddsRatioStatistic.ofCounts 3 5 4 10 = .fin 3 ∧ (IDSDRounded.ofCounts fl 3 5 4 10).ge (.fin 3) = false ∧
    OddsRatioStatistic.ofCounts 1 1 4 10 = .fin 3 ∧ IDSDRounded.ofCounts fl 1 1 4 10 = .fin 3 := by
  decide +kernel

/-- the hypotheses are met: 5 of 6 rows with the target and 3 of 6 without it -/
example : (IDSDRounded.ofCounts fl 5 3 6 6).ge (.fin ((2 : Nat) / (1 : Nat))) = (OddsRatioStatistic.ofCounts (5 : Nat) (3 : Nat) (6 : Nat) (6 : Nat)).ge (.fin ((2 : Nat) / (1 : Nat))) :=
  C109_odds_threshold (by norm_num) (by norm_num) (by norm_num) (by norm_num) (by norm_num) (by norm_num) (by decide +kernel)

example : (IDSDRounded.ofCounts fl 1 3 6 9).lt (IDSDRounded.ofCounts fl 2 3 6 9) = true :=
  C109_odds_separates (by norm_num) (by norm_num) (by norm_num) (by norm_num) (by norm_num) (by norm_num) (by norm_num) (by decide +kernel)

end Verif
