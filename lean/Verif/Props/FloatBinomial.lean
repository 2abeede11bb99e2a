import Verif.Lemmas.FloatSqrt
import Verif.Props.FloatOrder
import Verif.Props.Binomial
/-! Property C106: BinomialTest and its optimistic estimate in floating point. -/
namespace Verif
open Spec Float64

/-- **C106.** The square root of the model is the correctly rounded one that IEEE 754 asks for. -/
theorem C106_sqrt (q : Rat) (hq : 0 ≤ q) : IsSqrtRounding q (fsqrt q) := fsqrt_rounding hq

theorem fsqrt_zero : fsqrt 0 = 0 := by unfold fsqrt; simp

theorem fsqrt_mono {x y : Rat} (hx : 0 ≤ x) (h : x ≤ y) : fsqrt x ≤ fsqrt y := by
  rcases h.eq_or_lt with rfl | h
  · exact le_refl _
  obtain ⟨fx, nx⟩ := fsqrt_rounding hx
  obtain ⟨fy, ny⟩ := fsqrt_rounding (hx.trans h.le)
  by_contra hlt
  rw [not_le] at hlt
  have n1 := nx _ fy
  have n2 := ny _ fx
  have hs : Real.sqrt (x : ℝ) < Real.sqrt (y : ℝ) := Real.sqrt_lt_sqrt (by exact_mod_cast hx) (by exact_mod_cast h)
  have hr : ((fsqrt y : Rat) : ℝ) < ((fsqrt x : Rat) : ℝ) := by exact_mod_cast hlt
  rw [← sq_le_sq] at n1 n2
  nlinarith

theorem fsqrt_nonneg {q : Rat} (hq : 0 ≤ q) : 0 ≤ fsqrt q := by
  have := fsqrt_mono (le_refl (0 : Rat)) hq
  rwa [fsqrt_zero] at this

theorem fsqrt_pos {q : Rat} (hq : 0 < q) : 0 < fsqrt q := by
  obtain ⟨-, near⟩ := fsqrt_rounding hq.le
  by_contra hlt
  rw [not_lt] at hlt
  have hr : ((fsqrt q : Rat) : ℝ) ≤ 0 := by exact_mod_cast hlt
  have hk : (2 : Rat) ^ (2 * (expOf q / 2)) ≤ q := (zpow_le_zpow_right₀ (by norm_num) (by omega)).trans (expOf_spec hq).1
  have g1 : IsFloat ((2 : Rat) ^ (expOf q / 2)) := ⟨1, expOf q / 2, by norm_num, by simp⟩
  have n1 := near _ g1
  have hle : (((2 : Rat) ^ (expOf q / 2) : Rat) : ℝ) ≤ Real.sqrt q := by
    apply Real.le_sqrt_of_sq_le
    have e : ((2 : Rat) ^ (expOf q / 2)) ^ 2 = (2 : Rat) ^ (2 * (expOf q / 2)) := by
      rw [← zpow_natCast, ← zpow_mul]; congr 1; push_cast; ring
    have : (((2 : Rat) ^ (expOf q / 2)) ^ 2) ≤ q := by rw [e]; exact hk
    exact_mod_cast this
  have gp : (0 : ℝ) < (((2 : Rat) ^ (expOf q / 2) : Rat) : ℝ) := by exact_mod_cast two_pos _
  rw [abs_of_nonpos (by linarith), abs_of_nonpos (by linarith)] at n1
  linarith

/-- the error of the square root -/
theorem fsqrt_error {q : Rat} (hq : 0 ≤ q) : |((fsqrt q : Rat) : ℝ) - Real.sqrt q| ≤ (u : ℝ) * Real.sqrt q := by
  obtain ⟨-, near⟩ := fsqrt_rounding hq
  have hy : 0 ≤ Real.sqrt (q : ℝ) := Real.sqrt_nonneg _
  have hu : (0 : ℝ) < (u : ℝ) := by exact_mod_cast u_pos
  have hu1 : (u : ℝ) ≤ 1 := by
    have := u_small
    have h2 : ((u : Rat) : ℝ) ≤ ((1 / 1000000 : Rat) : ℝ) := by exact_mod_cast this
    push_cast at h2
    linarith
  apply le_of_forall_pos_le_add
  intro ε hε
  obtain ⟨z, z1, z2⟩ := exists_rat_btwn (show Real.sqrt (q : ℝ) < Real.sqrt q + ε / 2 by linarith)
  have zp : (0 : Rat) ≤ z := by
    have : (0 : ℝ) ≤ (z : ℝ) := by linarith
    exact_mod_cast this
  have e1 := fl_abs z
  rw [abs_of_nonneg zp] at e1
  have e2 : |((fl z : Rat) : ℝ) - z| ≤ (u : ℝ) * z := by
    have : ((|fl z - z| : Rat) : ℝ) ≤ ((u * z : Rat) : ℝ) := by exact_mod_cast e1
    push_cast at this
    exact this
  have n1 := near _ (isFloat_fl z)
  have e3 := abs_le.1 e2
  have : |((fl z : Rat) : ℝ) - Real.sqrt q| ≤ (u : ℝ) * Real.sqrt q + ε := by
    rw [abs_le]
    constructor <;> nlinarith [e3.1, e3.2]
  exact n1.trans this

/-- the share of positives, when there are negatives -/
theorem share_lt_one {TP FP : Nat} (h : 0 < FP) (hN : TP + FP < 2 ^ 54) : fl ((TP : Rat) / (TP + FP)) < 1 := by
  have hT : (0 : Rat) ≤ TP := by positivity
  have hF : (1 : Rat) ≤ FP := by exact_mod_cast h
  have hb : (TP : Rat) + FP < 18014398509481984 := by exact_mod_cast (by norm_num at hN; omega : TP + FP < 18014398509481984)
  have hx : (TP : Rat) / (TP + FP) < 1 - 1 / 18014398509481984 := by
    rw [div_lt_iff₀ (by linarith)]; nlinarith
  have g1 : IsFloat (1 - 1 / 9007199254740992) := ⟨9007199254740991, -53, by norm_num, by norm_num⟩
  have near := (fl_isRounding ((TP : Rat) / (TP + FP))).nearest _ g1
  by_contra hge
  rw [not_lt] at hge
  generalize (TP : Rat) / (TP + FP) = x at *
  rw [abs_of_nonneg (by linarith)] at near
  rcases le_total x (1 - 1 / 9007199254740992) with hc | hc
  · rw [abs_of_nonneg (by linarith)] at near
    linarith
  · rw [abs_of_nonpos (by linarith)] at near
    linarith

theorem share_pos {TP FP : Nat} (h : 0 < TP) : 0 < fl ((TP : Rat) / (TP + FP)) := by
  have hT : (0 : Rat) < TP := by exact_mod_cast h
  exact fl_pos (by positivity)

theorem pySqrt_of {x : Rat} (h : 0 ≤ x) : Float64.pySqrt x = .ok (fsqrt x) := by
  unfold Float64.pySqrt; rw [if_neg (not_lt.2 h)]

/-- the outcome on the counts of a subgroup -/
theorem binomialFl_counts (tp fp TP FP : Nat) (hn : 0 < tp + fp) (hN : 0 < TP + FP) :
    Float64.binomialTest (counts tp fp TP FP) =
      (Float64.div (fl (fl (fl ((tp : Rat) / (tp + fp)) - fl ((TP : Rat) / (TP + FP))) * fsqrt (fl ((tp : Rat) + fp))))
          (fsqrt (fl (fl ((TP : Rat) / (TP + FP)) * fl (1 - fl ((TP : Rat) / (TP + FP)))))) >>= fun a =>
        Float64.div ((TP : Rat) + FP) ((TP : Rat) + FP - ((tp : Rat) + fp)) >>= fun q => Float64.pySqrt q >>= fun b => .ok (fl (a * b))) := by
  obtain ⟨c1, c2, c3, c4⟩ := counts_has tp fp TP FP
  have a : (0 : Rat) < tp + fp := by exact_mod_cast hn
  have b : (0 : Rat) < TP + FP := by exact_mod_cast hN
  have T0 : (0 : Rat) ≤ (TP : Rat) / (TP + FP) := by positivity
  have p0 := fl_nonneg T0
  have p1 : fl ((TP : Rat) / (TP + FP)) ≤ 1 := fl_le_one (by rw [div_le_one b]; have : (0 : Rat) ≤ FP := by positivity
                                                             linarith)
  have hv : 0 ≤ fl (fl ((TP : Rat) / (TP + FP)) * fl (1 - fl ((TP : Rat) / (TP + FP)))) :=
    fl_nonneg (mul_nonneg p0 (fl_nonneg (by linarith)))
  simp only [Float64.binomialTest, getParam_some c1, getParam_some c2, getParam_some c3, getParam_some c4, div_of a.ne', div_of b.ne',
    bind, Except.bind, pySqrt_of (fl_nonneg a.le), Float64.mul, Float64.sub, pySqrt_of hv]
  rfl

/-- **C106.** On the counts of a subgroup, with fewer than `2^54` rows: BinomialTest in floating point is defined exactly when the data have positives and
negatives and the subgroup covers some rows but not all of them, as with exact arithmetic; otherwise it raises ZeroDivisionError. -/
theorem C106_defined (tp fp TP FP : Nat) (h1 : tp ≤ TP) (h2 : fp ≤ FP) (hb : TP + FP < 2 ^ 54) :
    ((∃ q, Float64.binomialTest (counts tp fp TP FP) = .ok q) ↔ 0 < TP ∧ 0 < FP ∧ 0 < tp + fp ∧ tp + fp < TP + FP) ∧
    (¬ (0 < TP ∧ 0 < FP ∧ 0 < tp + fp ∧ tp + fp < TP + FP) → Float64.binomialTest (counts tp fp TP FP) = .error .zeroDivisionError) := by
  have herr : ¬ (0 < TP ∧ 0 < FP ∧ 0 < tp + fp ∧ tp + fp < TP + FP) → Float64.binomialTest (counts tp fp TP FP) = .error .zeroDivisionError := by
    intro hno
    obtain ⟨c1, c2, c3, c4⟩ := counts_has tp fp TP FP
    rcases Nat.eq_zero_or_pos (tp + fp) with hn | hn
    · have e : (tp : Rat) + fp = 0 := by exact_mod_cast hn
      simp only [Float64.binomialTest, getParam_some c1, getParam_some c2, getParam_some c3, getParam_some c4, bind, Except.bind, Float64.div, e,
        if_true]
    have hN : 0 < TP + FP := by omega
    rw [binomialFl_counts tp fp TP FP hn hN]
    have b : (0 : Rat) < TP + FP := by exact_mod_cast hN
    rcases Nat.eq_zero_or_pos TP with hT | hT
    · subst hT
      have : (((0 : Nat) : Rat)) / (((0 : Nat) : Rat) + FP) = 0 := by simp
      rw [this]
      simp only [fl_zero, zero_mul, fsqrt_zero, Float64.div, if_true, bind, Except.bind]
    rcases Nat.eq_zero_or_pos FP with hF | hF
    · subst hF
      have hT' : (TP : Rat) ≠ 0 := by exact_mod_cast hT.ne'
      have : (TP : Rat) / ((TP : Rat) + ((0 : Nat) : Rat)) = 1 := by simp [hT']
      rw [this]
      simp only [fl_one, sub_self, fl_zero, mul_zero, fsqrt_zero, Float64.div, if_true, bind, Except.bind]
    have he : tp + fp = TP + FP := by
      by_contra hne
      exact hno ⟨hT, hF, hn, by omega⟩
    have e : (TP : Rat) + FP - ((tp : Rat) + fp) = 0 := by
      have : ((tp : Rat) + fp) = TP + FP := by exact_mod_cast he
      rw [this]; ring
    have hv : fsqrt (fl (fl ((TP : Rat) / (TP + FP)) * fl (1 - fl ((TP : Rat) / (TP + FP))))) ≠ 0 :=
      (fsqrt_pos (fl_pos (mul_pos (share_pos hT) (fl_pos (by linarith [share_lt_one hF hb]))))).ne'
    rw [div_of hv, e]
    simp only [bind, Except.bind, Float64.div, if_true]
  refine ⟨⟨fun ⟨q, hq⟩ => ?_, ?_⟩, herr⟩
  · by_contra hno
    rw [herr hno] at hq
    cases hq
  · rintro ⟨hT, hF, hn, hlt⟩
    rw [binomialFl_counts tp fp TP FP hn (by omega)]
    have hv : fsqrt (fl (fl ((TP : Rat) / (TP + FP)) * fl (1 - fl ((TP : Rat) / (TP + FP))))) ≠ 0 :=
      (fsqrt_pos (fl_pos (mul_pos (share_pos hT) (fl_pos (by linarith [share_lt_one hF hb]))))).ne'
    have hd : (0 : Rat) < (TP : Rat) + FP - ((tp : Rat) + fp) := by
      have : ((tp : Rat) + fp) < TP + FP := by exact_mod_cast hlt
      linarith
    have b : (0 : Rat) < TP + FP := by exact_mod_cast (by omega : 0 < TP + FP)
    rw [div_of hv, div_of hd.ne']
    simp only [bind, Except.bind, pySqrt_of (fl_nonneg (div_pos b hd).le)]
    exact ⟨_, rfl⟩

/-- **C106.** From `2^54` rows on this fails: with one negative among `2^54` rows the share of positives rounds to 1 and the measure divides by zero,
although BinomialTest is defined. -/
theorem C106_defined_limit : Float64.binomialTest (counts 1 0 (2 ^ 54 - 1) 1) = .error .zeroDivisionError ∧
    ∃ q, Quality.binomialTest (counts 1 0 (2 ^ 54 - 1) 1) = .ok q :=
  ⟨by decide +kernel, (C78_defined 1 0 (2 ^ 54 - 1) 1 (by norm_num) (by norm_num)).1.2 (by norm_num)⟩

theorem neg_mul_right {x c : Rat} (h : 0 < c) : x * c < 0 ↔ x < 0 := by
  constructor
  · intro hx; by_contra hn; exact absurd (mul_nonneg (not_lt.1 hn) h.le) (not_le.2 hx)
  · intro hx; exact mul_neg_of_neg_of_pos hx h

theorem neg_mul_left {x c : Rat} (h : 0 < c) : c * x < 0 ↔ x < 0 := by rw [mul_comm]; exact neg_mul_right h

theorem neg_div_right {x c : Rat} (h : 0 < c) : x / c < 0 ↔ x < 0 := by rw [div_eq_mul_inv]; exact neg_mul_right (inv_pos.2 h)

theorem fl_sign (q : Rat) : (0 < fl q ↔ 0 < q) ∧ (fl q < 0 ↔ q < 0) := by
  refine ⟨⟨fun h => ?_, fl_pos⟩, ⟨fun h => ?_, fl_sign_neg⟩⟩
  · by_contra hn
    exact absurd (fl_nonpos (not_lt.1 hn)) (not_le.2 h)
  · by_contra hn
    exact absurd (fl_nonneg (not_lt.1 hn)) (not_le.2 h)

/-- **C106.** The sign of BinomialTest in floating point is the sign of WRAcc in floating point, whatever the number of rows; and, with at most `2^26` rows, it is
the sign of the exact values of both measures. -/
theorem C106_sign (tp fp TP FP : Nat) (h1 : tp ≤ TP) (h2 : fp ≤ FP) (q : Rat)
    (hq : Float64.binomialTest (counts tp fp TP FP) = .ok q) :
    (∃ w, Measure.wracc.computeFl (counts tp fp TP FP) = .ok w ∧ (0 < q ↔ 0 < w) ∧ (q < 0 ↔ w < 0)) ∧
    (TP + FP ≤ 2 ^ 26 → ∃ x : ℝ, Quality.binomialTest (counts tp fp TP FP) = .ok x ∧ (0 < q ↔ 0 < x) ∧ (q < 0 ↔ x < 0)) := by
  have hdef : 0 < tp + fp ∧ 0 < TP + FP := by
    rcases Nat.eq_zero_or_pos (tp + fp) with hn | hn
    · exfalso
      obtain ⟨c1, c2, c3, c4⟩ := counts_has tp fp TP FP
      have e : (tp : Rat) + fp = 0 := by exact_mod_cast hn
      simp only [Float64.binomialTest, getParam_some c1, getParam_some c2, getParam_some c3, getParam_some c4, bind, Except.bind, Float64.div, e,
        if_true] at hq
      cases hq
    · exact ⟨hn, by omega⟩
  obtain ⟨hn, hN⟩ := hdef
  have a : (0 : Rat) < tp + fp := by exact_mod_cast hn
  have b : (0 : Rat) < TP + FP := by exact_mod_cast hN
  have first : ∃ w, Measure.wracc.computeFl (counts tp fp TP FP) = .ok w ∧ (0 < q ↔ 0 < w) ∧ (q < 0 ↔ w < 0) := by
    obtain ⟨c1, c2, c3, c4⟩ := counts_has tp fp TP FP
    refine ⟨fl (fl (((tp : Rat) + fp) / (TP + FP)) * fl (fl ((tp : Rat) / (tp + fp)) - fl ((TP : Rat) / (TP + FP)))), ?_, ?_⟩
    · simp only [Measure.computeFl, Float64.wracc, getParam_some c1, getParam_some c2, getParam_some c3, getParam_some c4, div_of a.ne', div_of b.ne',
        bind, Except.bind, Float64.mul, Float64.sub]
      rfl
    rw [binomialFl_counts tp fp TP FP hn hN] at hq
    have ha : 0 < fl (((tp : Rat) + fp) / (TP + FP)) := fl_pos (div_pos a b)
    have hrn : 0 < fsqrt (fl ((tp : Rat) + fp)) := fsqrt_pos (fl_pos a)
    have hT0 : (0 : Rat) ≤ (TP : Rat) / (TP + FP) := by positivity
    have hT1 : (TP : Rat) / (TP + FP) ≤ 1 := by
      rw [div_le_one b]; have : (0 : Rat) ≤ FP := by positivity
      linarith
    have hrv0 : 0 ≤ fsqrt (fl (fl ((TP : Rat) / (TP + FP)) * fl (1 - fl ((TP : Rat) / (TP + FP))))) :=
      fsqrt_nonneg (fl_nonneg (mul_nonneg (fl_nonneg hT0) (fl_nonneg (by linarith [fl_le_one hT1]))))
    generalize fl (((tp : Rat) + fp) / (TP + FP)) = A at *
    generalize fl (fl ((tp : Rat) / (tp + fp)) - fl ((TP : Rat) / (TP + FP))) = D at *
    generalize fsqrt (fl ((tp : Rat) + fp)) = R at *
    generalize fsqrt (fl (fl ((TP : Rat) / (TP + FP)) * fl (1 - fl ((TP : Rat) / (TP + FP))))) = V at *
    by_cases hV : V = 0
    · rw [hV] at hq
      simp only [Float64.div, if_true, bind, Except.bind] at hq
      cases hq
    have hVp : 0 < V := lt_of_le_of_ne hrv0 (Ne.symm hV)
    rw [div_of hV] at hq
    by_cases hd0 : (TP : Rat) + FP - ((tp : Rat) + fp) = 0
    · rw [hd0] at hq
      simp only [Float64.div, if_true, bind, Except.bind] at hq
      cases hq
    have hd : (0 : Rat) < (TP : Rat) + FP - ((tp : Rat) + fp) := by
      refine lt_of_le_of_ne ?_ (Ne.symm hd0)
      have : ((tp : Rat) + fp) ≤ TP + FP := by exact_mod_cast (by omega : tp + fp ≤ TP + FP)
      linarith
    have hB : 0 < fsqrt (fl (((TP : Rat) + FP) / ((TP : Rat) + FP - ((tp : Rat) + fp)))) := fsqrt_pos (fl_pos (div_pos b hd))
    rw [div_of hd0] at hq
    simp only [bind, Except.bind, pySqrt_of (fl_nonneg (div_pos b hd).le)] at hq
    obtain rfl := Except.ok.inj hq
    generalize fsqrt (fl (((TP : Rat) + FP) / ((TP : Rat) + FP - ((tp : Rat) + fp)))) = B at *
    rw [(fl_sign _).1, (fl_sign _).2, (fl_sign _).1, (fl_sign _).2, mul_pos_iff_of_pos_right hB, mul_pos_iff_of_pos_left ha,
      neg_mul_left ha, neg_mul_right hB, (fl_sign _).1, (fl_sign _).2, div_pos_iff_of_pos_right hVp, neg_div_right hVp,
      (fl_sign _).1, (fl_sign _).2, mul_pos_iff_of_pos_right hrn, neg_mul_right hrn]
    exact ⟨Iff.rfl, Iff.rfl⟩
  refine ⟨first, fun hb => ?_⟩
  have hcond := (C106_defined tp fp TP FP h1 h2 (by omega)).1.1 ⟨q, hq⟩
  obtain ⟨x, hx⟩ := (C78_defined tp fp TP FP h1 h2).1.2 hcond
  obtain ⟨-, -, w, hw, s1, s2⟩ := C78_range tp fp TP FP h1 h2 x hx
  obtain ⟨w', hw', t1, t2⟩ := first
  obtain ⟨r1, r2, -⟩ := C76_sign .wracc (Or.inl rfl) tp fp TP FP h1 h2 hb w w' hw hw'
  exact ⟨x, hx, by rw [t1, r1, s1], by rw [t2, r2, s2]⟩

/-- the estimate on the counts of a subgroup -/
theorem binomialOE1Fl_counts (tp fp TP FP : Nat) (hN : 0 < TP + FP) :
    Float64.binomialTestOE1 (counts tp fp TP FP) = .ok (fl (fsqrt (fl tp) * fl (1 - fl ((TP : Rat) / (TP + FP))))) := by
  obtain ⟨c1, c2, c3, c4⟩ := counts_has tp fp TP FP
  have b : (0 : Rat) < TP + FP := by exact_mod_cast hN
  have ht : (0 : Rat) ≤ tp := by positivity
  simp only [Float64.binomialTestOE1, getParam_some c1, getParam_some c3, getParam_some c4, div_of b.ne', bind, Except.bind, pySqrt_of (fl_nonneg ht),
    Float64.mul, Float64.sub]
  rfl

/-- **C106.** The optimistic estimate in floating point: it is defined exactly when there are rows, else ZeroDivisionError; it is not negative, it does not
grow when the subgroup is refined (so a threshold on it prunes whole branches), and, up to `2^53` rows, it is within `5 * 2^-53 * sqrt(tp)` of the exact one. -/
theorem C106_estimate (tp fp TP FP : Nat) (h1 : tp ≤ TP) :
    (0 < TP + FP ↔ ∃ o, Float64.binomialTestOE1 (counts tp fp TP FP) = .ok o) ∧
    (TP + FP = 0 → Float64.binomialTestOE1 (counts tp fp TP FP) = .error .zeroDivisionError) ∧
    (∀ o, Float64.binomialTestOE1 (counts tp fp TP FP) = .ok o → 0 ≤ o ∧
      (∀ tp' fp' : Nat, tp' ≤ tp → ∃ o', Float64.binomialTestOE1 (counts tp' fp' TP FP) = .ok o' ∧ o' ≤ o) ∧
      (TP + FP ≤ 2 ^ 53 → ∃ x : ℝ, Quality.binomialTestOE1 (counts tp fp TP FP) = .ok x ∧ |(o : ℝ) - x| ≤ 5 * (2 : ℝ) ^ (-53 : Int) * Real.sqrt tp)) := by
  have hzero : TP + FP = 0 → Float64.binomialTestOE1 (counts tp fp TP FP) = .error .zeroDivisionError := by
    intro h
    obtain ⟨c1, c2, c3, c4⟩ := counts_has tp fp TP FP
    have e : (TP : Rat) + FP = 0 := by exact_mod_cast h
    have ht : (0 : Rat) ≤ tp := by positivity
    simp only [Float64.binomialTestOE1, getParam_some c1, getParam_some c3, getParam_some c4, bind, Except.bind, pySqrt_of (fl_nonneg ht), Float64.div, e,
      if_true]
  have hdef : 0 < TP + FP ↔ ∃ o, Float64.binomialTestOE1 (counts tp fp TP FP) = .ok o := by
    constructor
    · intro h; exact ⟨_, binomialOE1Fl_counts tp fp TP FP h⟩
    · rintro ⟨o, ho⟩
      by_contra hn
      rw [hzero (by omega)] at ho
      cases ho
  refine ⟨hdef, hzero, fun o ho => ?_⟩
  have hN := hdef.2 ⟨o, ho⟩
  have b : (0 : Rat) < TP + FP := by exact_mod_cast hN
  rw [binomialOE1Fl_counts tp fp TP FP hN] at ho
  obtain rfl := Except.ok.inj ho
  have T0 : (0 : Rat) ≤ (TP : Rat) / (TP + FP) := by positivity
  have T1 : (TP : Rat) / (TP + FP) ≤ 1 := by
    rw [div_le_one b]; have : (0 : Rat) ≤ FP := by positivity
    linarith
  have P0 := fl_nonneg T0
  have P1 := fl_le_one T1
  have D0 : 0 ≤ fl (1 - fl ((TP : Rat) / (TP + FP))) := fl_nonneg (by linarith)
  have D1 : fl (1 - fl ((TP : Rat) / (TP + FP))) ≤ 1 := fl_le_one (by linarith)
  have ht : (0 : Rat) ≤ tp := by positivity
  refine ⟨fl_nonneg (mul_nonneg (fsqrt_nonneg (fl_nonneg ht)) D0), fun tp' fp' h => ?_, fun hb => ?_⟩
  · refine ⟨_, binomialOE1Fl_counts tp' fp' TP FP hN, fl_mono (mul_le_mul_of_nonneg_right (fsqrt_mono (fl_nonneg (by positivity)) (fl_mono ?_)) D0)⟩
    exact_mod_cast h
  · refine ⟨_, binomialTestOE1_counts tp fp TP FP hN, ?_⟩
    rw [fl_nat (by omega : tp ≤ 2 ^ 53)]
    have hr := fsqrt_error ht
    have R0 := fsqrt_nonneg ht
    have hc := fl_unit_error (q := (TP : Rat) / (TP + FP)) (by rw [abs_of_nonneg T0]; exact T1)
    have hd := fl_unit_error (q := 1 - fl ((TP : Rat) / (TP + FP))) (by rw [abs_le]; constructor <;> linarith)
    have hm := fl_abs (fsqrt tp * fl (1 - fl ((TP : Rat) / (TP + FP))))
    rw [abs_of_nonneg (mul_nonneg R0 D0)] at hm
    have hu := u_small
    have hup := u_pos
    have e53 : (2 : ℝ) ^ (-53 : Int) = ((u : Rat) : ℝ) := by rw [← u_eq]; push_cast; rfl
    rw [e53]
    push_cast
    generalize fl ((TP : Rat) / (TP + FP)) = c at *
    generalize fl (1 - c) = D at *
    generalize fl (fsqrt tp * D) = y at *
    generalize fsqrt (tp : Rat) = R at *
    rw [show ((tp : Rat) : ℝ) = (tp : ℝ) by push_cast; rfl] at hr
    have s0 : 0 ≤ Real.sqrt (tp : ℝ) := Real.sqrt_nonneg _
    generalize Real.sqrt (tp : ℝ) = s at *
    have hm' : |(y : ℝ) - R * D| ≤ u * (R * D) := by
      have : ((|y - R * D| : Rat) : ℝ) ≤ ((u * (R * D) : Rat) : ℝ) := by exact_mod_cast hm
      push_cast at this
      exact this
    have hD : |D - (1 - (TP : Rat) / (TP + FP))| ≤ 2 * u := by
      rw [abs_le] at *
      constructor <;> linarith
    have hD' : |(D : ℝ) - (1 - (TP : ℝ) / (TP + FP))| ≤ 2 * u := by
      have : ((|D - (1 - (TP : Rat) / (TP + FP))| : Rat) : ℝ) ≤ ((2 * u : Rat) : ℝ) := by exact_mod_cast hD
      push_cast at this
      exact this
    have hD0 : (0 : ℝ) ≤ D := by exact_mod_cast D0
    have hD1 : (D : ℝ) ≤ 1 := by exact_mod_cast D1
    have hR0 : (0 : ℝ) ≤ R := by exact_mod_cast R0
    have hU : (u : ℝ) ≤ 1 / 1000000 := by
      have : ((u : Rat) : ℝ) ≤ ((1 / 1000000 : Rat) : ℝ) := by exact_mod_cast hu
      push_cast at this
      exact this
    have hU0 : (0 : ℝ) < u := by exact_mod_cast hup
    generalize ((u : Rat) : ℝ) = U at *
    generalize (TP : ℝ) / (TP + FP) = p at *
    have e : (y : ℝ) - s * (1 - p) = (y - R * D) + ((R : ℝ) - s) * D + s * (D - (1 - p)) := by ring
    rw [e]
    have k2 : |((R : ℝ) - s) * D| ≤ U * s := by
      rw [abs_mul, abs_of_nonneg hD0]
      calc |(R : ℝ) - s| * D ≤ |(R : ℝ) - s| * 1 := mul_le_mul_of_nonneg_left hD1 (abs_nonneg _)
        _ ≤ _ := by rw [mul_one]; exact hr
    have k3 : |s * ((D : ℝ) - (1 - p))| ≤ s * (2 * U) := by
      rw [abs_mul, abs_of_nonneg s0]
      exact mul_le_mul_of_nonneg_left hD' s0
    have hR : (R : ℝ) ≤ 2 * s := by
      have := (abs_le.1 hr).2
      nlinarith
    have k1 : U * ((R : ℝ) * D) ≤ U * (2 * s) := by
      apply mul_le_mul_of_nonneg_left _ hU0.le
      calc (R : ℝ) * D ≤ R * 1 := mul_le_mul_of_nonneg_left hD1 hR0
        _ ≤ _ := by rw [mul_one]; exact hR
    have := abs_add_three ((y : ℝ) - R * D) (((R : ℝ) - s) * D) (s * ((D : ℝ) - (1 - p)))
    linarith

theorem ok_of {x : Except PyErr Rat} {p : Rat → Prop} [DecidablePred p] (h : (match x with | .ok q => decide (p q) | .error _ => false) = true) :
    ∃ q, x = .ok q ∧ p q := by
  cases x with
  | error e => cases h
  | ok q => exact ⟨q, rfl, of_decide_eq_true h⟩

/-- on concrete counts: 3 of 5 positives and 1 of 5 negatives covered -/
example : ∃ q, Float64.binomialTest (counts 3 1 5 5) = .ok q ∧ 0 < q ∧ (129 : Rat) / 100 < q ∧ q < 13 / 10 :=
  ok_of (p := fun q => 0 < q ∧ (129 : Rat) / 100 < q ∧ q < 13 / 10) (by decide +kernel)

example : Float64.fsqrt 4 = 2 ∧ (14142135623730951 : Rat) / 10000000000000000 < Float64.fsqrt 2 ∧ Float64.fsqrt 2 < 14142135623730952 / 10000000000000000 := by
  decide +kernel

end Verif
