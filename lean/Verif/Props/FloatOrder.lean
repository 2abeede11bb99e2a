import Verif.Props.Float64
import Mathlib.Tactic.NormNum
/-! Properties of the quality measures in floating point, continued: ranges (C75), errors, signs and order (C76). -/
namespace Verif
open Spec Float64

theorem defined_of_fl {m : Measure} {d : Params} {y : Rat} (h : m.computeFl d = .ok y) : ∃ x, m.compute d = .ok x := by
  have := C75_errors m d
  rw [h] at this
  cases hx : m.compute d with
  | ok x => exact ⟨x, rfl⟩
  | error e => rw [hx] at this; cases this

theorem fl_of_defined {m : Measure} {d : Params} {x : Rat} (h : m.compute d = .ok x) : ∃ y, m.computeFl d = .ok y := by
  have := C75_errors m d
  rw [h] at this
  cases hx : m.computeFl d with
  | ok x => exact ⟨x, rfl⟩
  | error e => rw [hx] at this; cases this

/-- the exact and the rounded value of the measures with several operations -/
theorem pairs (tp fp TP FP : Nat) (m : Measure) (x y : Rat) (hx : m.compute (counts tp fp TP FP) = .ok x)
    (hy : m.computeFl (counts tp fp TP FP) = .ok y) :
    match m with
    | .wracc => 0 < tp + fp ∧ 0 < TP + FP ∧ x = ((tp : Rat) + fp) / (TP + FP) * ((tp : Rat) / (tp + fp) - (TP : Rat) / (TP + FP)) ∧
        y = fl (fl (((tp : Rat) + fp) / (TP + FP)) * fl (fl ((tp : Rat) / (tp + fp)) - fl ((TP : Rat) / (TP + FP))))
    | .absoluteWracc => 0 < tp + fp ∧ 0 < TP + FP ∧ x = |((tp : Rat) + fp) / (TP + FP) * ((tp : Rat) / (tp + fp) - (TP : Rat) / (TP + FP))| ∧
        y = |fl (fl (((tp : Rat) + fp) / (TP + FP)) * fl (fl ((tp : Rat) / (tp + fp)) - fl ((TP : Rat) / (TP + FP))))|
    | .irr => 0 < tp + fp ∧ 0 < FP ∧ x = (tp : Rat) / (tp + fp) - 1 + ((FP : Rat) - fp) / FP ∧
        y = fl (fl (fl ((tp : Rat) / (tp + fp)) - 1) + fl (((FP : Rat) - fp) / FP))
    | .youden => 0 < TP ∧ 0 < FP ∧ x = (tp : Rat) / TP + ((FP : Rat) - fp) / FP - 1 ∧
        y = fl (fl (fl ((tp : Rat) / TP) + fl (((FP : Rat) - fp) / FP)) - 1)
    | .piatetskyShapiro => 0 < tp + fp ∧ 0 < TP + FP ∧ x = ((tp : Rat) + fp) * ((tp : Rat) / (tp + fp) - (TP : Rat) / (TP + FP)) ∧
        y = fl (fl ((tp : Rat) + fp) * fl (fl ((tp : Rat) / (tp + fp)) - fl ((TP : Rat) / (TP + FP))))
    | .psOE1 => 0 < TP + FP ∧ x = ((tp : Rat) + fp) * (1 - (TP : Rat) / (TP + FP)) ∧
        y = fl (fl ((tp : Rat) + fp) * fl (1 - fl ((TP : Rat) / (TP + FP))))
    | .psOE2 => 0 < TP + FP ∧ x = (tp : Rat) * (1 - (TP : Rat) / (TP + FP)) ∧ y = fl (fl (tp : Rat) * fl (1 - fl ((TP : Rat) / (TP + FP))))
    | .wraccOE1 => 0 < tp + fp ∧ 0 < TP + FP ∧ x = (tp : Rat) * tp / (tp + fp) * (1 - (TP : Rat) / (TP + FP)) ∧
        y = fl (fl ((tp : Rat) * tp / (tp + fp)) * fl (1 - fl ((TP : Rat) / (TP + FP))))
    | _ => y = fl x := by
  have g1 : getParam (counts tp fp TP FP) kTp = .ok (tp : Rat) := rfl
  have g2 : getParam (counts tp fp TP FP) kFp = .ok (fp : Rat) := rfl
  have g3 : getParam (counts tp fp TP FP) kTP = .ok (TP : Rat) := rfl
  have g4 : getParam (counts tp fp TP FP) kFP = .ok (FP : Rat) := rfl
  have z1 : ((tp : Rat) + fp = 0) ↔ ¬ 0 < tp + fp := by
    rw [show ((tp : Rat) + fp) = ((tp + fp : Nat) : Rat) by push_cast; rfl, Nat.cast_eq_zero]; omega
  have z2 : ((TP : Rat) + FP = 0) ↔ ¬ 0 < TP + FP := by
    rw [show ((TP : Rat) + FP) = ((TP + FP : Nat) : Rat) by push_cast; rfl, Nat.cast_eq_zero]; omega
  have z3 : ((TP : Rat) = 0) ↔ ¬ 0 < TP := by rw [Nat.cast_eq_zero]; omega
  have z4 : ((FP : Rat) = 0) ↔ ¬ 0 < FP := by rw [Nat.cast_eq_zero]; omega
  by_cases hq : m ∈ quotients
  · obtain ⟨y', h1, h2⟩ := C75_correctly_rounded m hq _ x hx
    rw [hy] at h1
    cases h1
    have := (C74_rounding x y).1 h2
    simp only [quotients, List.mem_cons, List.not_mem_nil, or_false] at hq
    rcases hq with rfl | rfl | rfl | rfl | rfl | rfl | rfl | rfl <;> exact this
  · cases m
    any_goals (exfalso; apply hq; simp [quotients]; done)
    all_goals
      simp only [Measure.computeFl, Measure.compute, Float64.wracc, Quality.wracc, Float64.absoluteWracc, Quality.absoluteWracc, Float64.irr, Quality.irr,
        Float64.youden, Quality.youden, Float64.piatetskyShapiro, Quality.piatetskyShapiro, Float64.psOE1, Quality.psOE1, Float64.psOE2, Quality.psOE2,
        Float64.wraccOE1, Quality.wraccOE1, g1, g2, g3, g4, bind, Except.bind, pure, Except.pure, Float64.div, pyDiv, z1, z2, z3, z4] at hx hy ⊢
    all_goals
      by_cases a1 : 0 < tp + fp <;> by_cases a2 : 0 < TP + FP <;> by_cases a3 : 0 < TP <;> by_cases a4 : 0 < FP <;>
        simp only [a1, a2, a3, a4, not_true_eq_false, not_false_eq_true, if_true, if_false, reduceCtorEq, Except.ok.injEq, Float64.mul, Float64.sub, Float64.add] at hx hy
    all_goals first
      | exact ⟨by omega, by omega, hx.symm, hy.symm⟩
      | exact ⟨by omega, hx.symm, hy.symm⟩

/-! ## C76: errors -/

/-- the size of the numbers a measure deals with -/
def scale (m : Measure) (tp fp : Nat) : Rat :=
  match m with
  | .piatetskyShapiro | .psOE1 => (tp : Rat) + fp
  | .psOE2 | .wraccOE1 => (tp : Rat)
  | _ => 1

theorem share01 {a b : Nat} (h : 0 < a + b) : 0 ≤ (a : Rat) / (a + b) ∧ (a : Rat) / (a + b) ≤ 1 := by
  have : (0 : Rat) < a + b := by exact_mod_cast h
  exact ⟨by positivity, (div_le_one this).2 (by simp)⟩

theorem frac01 {a b : Nat} (h : a ≤ b) (h0 : 0 < b) : 0 ≤ (a : Rat) / b ∧ (a : Rat) / b ≤ 1 := by
  have : (0 : Rat) < b := by exact_mod_cast h0
  exact ⟨by positivity, (div_le_one this).2 (by exact_mod_cast h)⟩

theorem frac01' {a b : Nat} (h : a ≤ b) (h0 : 0 < b) : 0 ≤ ((b : Rat) - a) / b ∧ ((b : Rat) - a) / b ≤ 1 := by
  have hb : (0 : Rat) < b := by exact_mod_cast h0
  have ha : (a : Rat) ≤ b := by exact_mod_cast h
  have h2 : (0 : Rat) ≤ a := by positivity
  exact ⟨div_nonneg (by linarith) hb.le, (div_le_one hb).2 (by linarith)⟩

theorem err_scaled {k D d : Rat} (k0 : 0 ≤ k) (hD : |D - d| ≤ 3 * u) (hD1 : |D| ≤ 1) : |fl (k * D) - k * d| ≤ 4 * u * k := by
  have h1 := fl_abs (k * D)
  have h2 : |k * D| ≤ k := by
    rw [abs_mul, abs_of_nonneg k0]; nlinarith
  have h3 : |k * D - k * d| ≤ 3 * u * k := by
    rw [← mul_sub, abs_mul, abs_of_nonneg k0]; nlinarith
  have := u_pos
  have h4 : u * |k * D| ≤ u * k := mul_le_mul_of_nonneg_left h2 this.le
  calc |fl (k * D) - k * d| = |(fl (k * D) - k * D) + (k * D - k * d)| := by ring_nf
    _ ≤ _ := abs_add_le _ _
    _ ≤ _ := by linarith

/-- **C76.** The rounding errors: on natural counts between 0 and those of the population (any sizes up to `2^53`), the value in floating point differs
from the exact one by at most `5 * 2^-53`; for the measures that are not normalized (Piatetsky-Shapiro and the three estimates), times the number
of covered rows or positives. -/
theorem C76_error (m : Measure) (tp fp TP FP : Nat) (h1 : tp ≤ TP) (h2 : fp ≤ FP) (hN : TP + FP ≤ 2 ^ 53) (x : Rat)
    (hx : m.compute (counts tp fp TP FP) = .ok x) :
    ∃ y, m.computeFl (counts tp fp TP FP) = .ok y ∧ |y - x| ≤ 5 * (2 : Rat) ^ (-53 : Int) * scale m tp fp := by
  obtain ⟨y, hy⟩ := fl_of_defined hx
  refine ⟨y, hy, ?_⟩
  rw [u_eq]
  have hu := u_pos
  have hp := pairs tp fp TP FP m x y hx hy
  have hadm : Admissible (counts tp fp TP FP) tp fp TP FP :=
    ⟨counts_has _ _ _ _, by positivity, by exact_mod_cast h1, by positivity, by exact_mod_cast h2⟩
  have hr := C13_ranges m _ tp fp TP FP x hadm (by intro g hg; cases hg) hx
  have quot : (rangeOf m) = (some 0, some 1) → y = fl x → |y - x| ≤ 5 * u * 1 := by
    rintro hm rfl
    have a := hr.1 0 (by rw [hm])
    have b := hr.2 1 (by rw [hm])
    have := fl_unit_error (q := x) (by rw [abs_of_nonneg a]; exact b)
    linarith
  have fs : fl ((tp : Rat) + fp) = (tp : Rat) + fp := fl_add_nat (n := tp + fp) (by omega) rfl
  have ft : fl (tp : Rat) = tp := fl_nat (by omega)
  have hE : 0 < TP + FP → |fl (1 - fl ((TP : Rat) / (TP + FP))) - (1 - (TP : Rat) / (TP + FP))| ≤ 3 * u ∧ |fl (1 - fl ((TP : Rat) / (TP + FP)))| ≤ 1 := by
    intro h
    have := err_diff (b := 1) (by norm_num) le_rfl (share01 h).1 (share01 h).2
    rwa [fl_one] at this
  cases m <;> simp only [scale]
  case support => exact quot rfl hp
  case coverage => exact quot rfl hp
  case ppv => exact quot rfl hp
  case npv => exact quot rfl hp
  case sensitivity => exact quot rfl hp
  case specificity => exact quot rfl hp
  case f1 => exact quot rfl hp
  case qg => rw [(C15_missing _ _).2 ⟨kG, by simp [needs], rfl⟩] at hx; cases hx
  case wracc =>
    obtain ⟨a, b, rfl, rfl⟩ := hp
    have hc : ((tp : Rat) + fp) / (TP + FP) = ((tp + fp : Nat) : Rat) / ((TP + FP : Nat) : Rat) := by push_cast; rfl
    have k := frac01 (a := tp + fp) (b := TP + FP) (by omega) b
    rw [← hc] at k
    rw [mul_one]
    exact err_wracc k.1 k.2 (share01 a).1 (share01 a).2 (share01 b).1 (share01 b).2
  case absoluteWracc =>
    obtain ⟨a, b, rfl, rfl⟩ := hp
    have hc : ((tp : Rat) + fp) / (TP + FP) = ((tp + fp : Nat) : Rat) / ((TP + FP : Nat) : Rat) := by push_cast; rfl
    have k := frac01 (a := tp + fp) (b := TP + FP) (by omega) b
    rw [← hc] at k
    rw [mul_one]
    exact (abs_abs_sub_abs_le _ _).trans (err_wracc k.1 k.2 (share01 a).1 (share01 a).2 (share01 b).1 (share01 b).2)
  case irr =>
    obtain ⟨a, b, rfl, rfl⟩ := hp
    have p := share01 a
    have q := frac01' h2 b
    have e1 := fl_unit_error (q := (tp : Rat) / (tp + fp)) (by rw [abs_of_nonneg p.1]; exact p.2)
    have e2 := fl_unit_error (q := ((FP : Rat) - fp) / FP) (by rw [abs_of_nonneg q.1]; exact q.2)
    have p' := fl01 p.1 p.2
    have q' := fl01 q.1 q.2
    have d1 : |fl ((tp : Rat) / (tp + fp)) - 1| ≤ 1 := by rw [abs_le]; constructor <;> linarith
    have e3 := fl_unit_error d1
    have d2 : -1 ≤ fl (fl ((tp : Rat) / (tp + fp)) - 1) ∧ fl (fl ((tp : Rat) / (tp + fp)) - 1) ≤ 0 :=
      ⟨(abs_le.1 (fl_unit d1)).1, fl_nonpos (by linarith)⟩
    have d3 : |fl (fl ((tp : Rat) / (tp + fp)) - 1) + fl (((FP : Rat) - fp) / FP)| ≤ 1 := by rw [abs_le]; constructor <;> linarith
    have e4 := fl_unit_error d3
    rw [abs_le] at *
    constructor <;> linarith
  case youden =>
    obtain ⟨a, b, rfl, rfl⟩ := hp
    have p := frac01 h1 a
    have q := frac01' h2 b
    have e1 := fl_unit_error (q := (tp : Rat) / TP) (by rw [abs_of_nonneg p.1]; exact p.2)
    have e2 := fl_unit_error (q := ((FP : Rat) - fp) / FP) (by rw [abs_of_nonneg q.1]; exact q.2)
    have p' := fl01 p.1 p.2
    have q' := fl01 q.1 q.2
    have e3 := fl_abs (fl ((tp : Rat) / TP) + fl (((FP : Rat) - fp) / FP))
    rw [abs_of_nonneg (by linarith : 0 ≤ fl ((tp : Rat) / TP) + fl (((FP : Rat) - fp) / FP))] at e3
    have e3' : u * (fl ((tp : Rat) / TP) + fl (((FP : Rat) - fp) / FP)) ≤ u * 2 := mul_le_mul_of_nonneg_left (by linarith) hu.le
    have d2 : 0 ≤ fl (fl ((tp : Rat) / TP) + fl (((FP : Rat) - fp) / FP)) := fl_nonneg (by linarith)
    have d2' : fl (fl ((tp : Rat) / TP) + fl (((FP : Rat) - fp) / FP)) ≤ 2 := by
      have := fl_mono (show fl ((tp : Rat) / TP) + fl (((FP : Rat) - fp) / FP) ≤ 2 by linarith)
      rwa [show fl 2 = 2 by decide +kernel] at this
    have d3 : |fl (fl ((tp : Rat) / TP) + fl (((FP : Rat) - fp) / FP)) - 1| ≤ 1 := by rw [abs_le]; constructor <;> linarith
    have e4 := fl_unit_error d3
    rw [abs_le] at *
    constructor <;> linarith
  case piatetskyShapiro =>
    obtain ⟨a, b, rfl, rfl⟩ := hp
    obtain ⟨k1, k2⟩ := err_diff (share01 a).1 (share01 a).2 (share01 b).1 (share01 b).2
    rw [fs]
    have := err_scaled (k := (tp : Rat) + fp) (by positivity) k1 k2
    have hn : (0 : Rat) ≤ (tp : Rat) + fp := by positivity
    nlinarith
  case psOE1 =>
    obtain ⟨b, rfl, rfl⟩ := hp
    obtain ⟨k1, k2⟩ := hE b
    rw [fs]
    have := err_scaled (k := (tp : Rat) + fp) (by positivity) k1 k2
    have hn : (0 : Rat) ≤ (tp : Rat) + fp := by positivity
    nlinarith
  case psOE2 =>
    obtain ⟨b, rfl, rfl⟩ := hp
    obtain ⟨k1, k2⟩ := hE b
    rw [ft]
    have := err_scaled (k := (tp : Rat)) (by positivity) k1 k2
    have hn : (0 : Rat) ≤ (tp : Rat) := by positivity
    nlinarith
  case wraccOE1 =>
    obtain ⟨a, b, rfl, rfl⟩ := hp
    obtain ⟨c0, c1, -⟩ := share_bounds TP FP b
    obtain ⟨s0, s1⟩ := share01 b
    have ec := fl_unit_error (q := (TP : Rat) / (TP + FP)) (by rw [abs_of_nonneg s0]; exact s1)
    have eE := fl_unit_error (q := 1 - fl ((TP : Rat) / (TP + FP))) (by rw [abs_of_nonneg (by linarith)]; linarith)
    have E0 : 0 ≤ fl (1 - fl ((TP : Rat) / (TP + FP))) := fl_nonneg (by linarith)
    have E1 : fl (1 - fl ((TP : Rat) / (TP + FP))) ≤ 1 := fl_le_one (by linarith)
    have A0 : (0 : Rat) ≤ (tp : Rat) * tp / (tp + fp) := by positivity
    have A1 : (tp : Rat) * tp / (tp + fp) ≤ tp := by
      have := (share01 a).2
      calc (tp : Rat) * tp / (tp + fp) = tp * ((tp : Rat) / (tp + fp)) := by ring
        _ ≤ tp * 1 := mul_le_mul_of_nonneg_left this (by positivity)
        _ = tp := mul_one _
    have fA0 := fl_nonneg A0
    have fA1 : fl ((tp : Rat) * tp / (tp + fp)) ≤ tp := by have := fl_mono A1; rwa [ft] at this
    have eA := fl_abs ((tp : Rat) * tp / (tp + fp))
    rw [abs_of_nonneg A0] at eA
    have eA' : |fl ((tp : Rat) * tp / (tp + fp)) - (tp : Rat) * tp / (tp + fp)| ≤ u * tp := eA.trans (mul_le_mul_of_nonneg_left A1 hu.le)
    generalize fl ((tp : Rat) * tp / (tp + fp)) = A at *
    generalize (tp : Rat) * tp / (tp + fp) = a' at *
    generalize hEg : fl (1 - fl ((TP : Rat) / (TP + FP))) = E at *
    generalize fl ((TP : Rat) / (TP + FP)) = c at *
    generalize (TP : Rat) / (TP + FP) = c' at *
    have e2 : |E - (1 - c')| ≤ 2 * u := by rw [abs_le] at *; constructor <;> linarith
    have e3 := fl_abs (A * E)
    rw [abs_of_nonneg (mul_nonneg fA0 E0)] at e3
    have hAE : A * E ≤ tp := by nlinarith
    have e3' : u * (A * E) ≤ u * tp := mul_le_mul_of_nonneg_left hAE hu.le
    have i1 : |A * (E - (1 - c'))| ≤ tp * (2 * u) := by
      rw [abs_mul, abs_of_nonneg fA0]
      exact mul_le_mul fA1 e2 (abs_nonneg _) (by positivity)
    have i2 : |(A - a') * (1 - c')| ≤ u * tp := by
      rw [abs_mul, abs_of_nonneg (by linarith : 0 ≤ 1 - c')]
      calc |A - a'| * (1 - c') ≤ |A - a'| * 1 := mul_le_mul_of_nonneg_left (by linarith) (abs_nonneg _)
        _ ≤ _ := by rw [mul_one]; exact eA'
    have : fl (A * E) - a' * (1 - c') = (fl (A * E) - A * E) + A * (E - (1 - c')) + (A - a') * (1 - c') := by ring
    rw [this]
    have t0 : (0 : Rat) ≤ u * tp := by positivity
    have := abs_add_three (fl (A * E) - A * E) (A * (E - (1 - c'))) ((A - a') * (1 - c'))
    linarith

/-! ## C75: ranges -/

/-- exact WRAcc in terms of the counts -/
theorem wracc_counts {tp fp TP FP : Nat} (h : 0 < tp + fp) (hN : 0 < TP + FP) :
    ((tp : Rat) + fp) / (TP + FP) * ((tp : Rat) / (tp + fp) - (TP : Rat) / (TP + FP)) = ((tp : Rat) * FP - fp * TP) / (((TP : Rat) + FP) * (TP + FP)) := by
  have a : (0 : Rat) < tp + fp := by exact_mod_cast h
  have b : (0 : Rat) < TP + FP := by exact_mod_cast hN
  field_simp
  ring

theorem half : fl (1 / 2) = 1 / 2 := by decide +kernel
theorem quarter : fl (1 / 4) = 1 / 4 := by decide +kernel

theorem wracc_range {tp fp TP FP : Nat} (h1 : tp ≤ TP) (h2 : fp ≤ FP) (a : 0 < tp + fp) (hN : TP + FP ≤ 2 ^ 24) :
    |fl (fl (((tp : Rat) + fp) / (TP + FP)) * fl (fl ((tp : Rat) / (tp + fp)) - fl ((TP : Rat) / (TP + FP))))| ≤ 1 / 4 := by
  have b : 0 < TP + FP := by omega
  have b' : (0 : Rat) < TP + FP := by exact_mod_cast b
  have hu : u = 1 / 9007199254740992 := rfl
  by_cases hs : TP = FP ∧ (tp = TP ∧ fp = 0 ∨ tp = 0 ∧ fp = FP)
  · obtain ⟨rfl, ⟨rfl, rfl⟩ | ⟨rfl, rfl⟩⟩ := hs
    · have k : (tp : Rat) ≠ 0 := by have : 0 < tp := by omega
                                    exact_mod_cast this.ne'
      have e1 : ((tp : Rat) + (0 : Nat)) / (tp + tp) = 1 / 2 := by push_cast; field_simp; norm_num
      have e2 : (tp : Rat) / (tp + (0 : Nat)) = 1 := by push_cast; field_simp; simp
      have e3 : (tp : Rat) / (tp + tp) = 1 / 2 := by field_simp; norm_num
      rw [e1, e2, e3, fl_one, half, show (1 : Rat) - 1 / 2 = 1 / 2 by norm_num, half, show (1 / 2 : Rat) * (1 / 2) = 1 / 4 by norm_num, quarter]
      norm_num
    · have k : (fp : Rat) ≠ 0 := by have : 0 < fp := by omega
                                    exact_mod_cast this.ne'
      have e1 : (((0 : Nat) : Rat) + fp) / (fp + fp) = 1 / 2 := by push_cast; field_simp; norm_num
      have e2 : ((0 : Nat) : Rat) / ((0 : Nat) + fp) = 0 := by simp
      have e3 : (fp : Rat) / (fp + fp) = 1 / 2 := by field_simp; norm_num
      rw [e1, e2, e3, fl_zero, half, show (0 : Rat) - 1 / 2 = -(1 / 2) by norm_num, fl_neg, half, show (1 / 2 : Rat) * -(1 / 2) = -(1 / 4) by norm_num, fl_neg,
        quarter]
      norm_num
  · have hc : ((tp : Rat) + fp) / (TP + FP) = ((tp + fp : Nat) : Rat) / ((TP + FP : Nat) : Rat) := by push_cast; rfl
    have k := frac01 (a := tp + fp) (b := TP + FP) (by omega) b
    rw [← hc] at k
    have he := err_wracc k.1 k.2 (share01 a).1 (share01 a).2 (share01 b).1 (share01 b).2
    rw [wracc_counts a b] at he
    -- the exact value is away from the ends
    have key : ∀ z : Int, |z| * 4 + 1 ≤ ((TP : Int) + FP) * (TP + FP) → |(z : Rat) / (((TP : Rat) + FP) * (TP + FP))| + 8 * u ≤ 1 / 4 := by
      intro z hz
      have hz' : |(z : Rat)| * 4 + 1 ≤ ((TP : Rat) + FP) * (TP + FP) := by exact_mod_cast hz
      rw [abs_div, abs_of_pos (mul_pos b' b')]
      have : ((TP : Rat) + FP) ≤ 2 ^ 24 := by exact_mod_cast hN
      have hNN : ((TP : Rat) + FP) * (TP + FP) * (32 * u) ≤ 1 := by
        rw [hu]; norm_num at this ⊢; nlinarith
      have hNN0 : 0 < ((TP : Rat) + FP) * (TP + FP) := mul_pos b' b'
      generalize ((TP : Rat) + FP) * (TP + FP) = M at *
      rw [div_add' _ _ _ hNN0.ne', div_le_iff₀ hNN0]
      nlinarith
    have hz : |(tp : Int) * FP - fp * TP| * 4 + 1 ≤ ((TP : Int) + FP) * (TP + FP) := by
      have t1 : (tp : Int) * FP ≤ TP * FP := by exact_mod_cast Nat.mul_le_mul_right _ h1
      have t2 : (fp : Int) * TP ≤ FP * TP := by exact_mod_cast Nat.mul_le_mul_right _ h2
      have t3 : (0 : Int) ≤ (tp : Int) * FP := by positivity
      have t4 : (0 : Int) ≤ (fp : Int) * TP := by positivity
      have sq : ((TP : Int) + FP) * (TP + FP) = 4 * (TP * FP) + (TP - FP) * (TP - FP) := by ring
      have hlt : |(tp : Int) * FP - fp * TP| ≤ TP * FP := by rw [abs_le]; constructor <;> nlinarith
      by_cases hEq : TP = FP
      · subst hEq
        have : |(tp : Int) * TP - fp * TP| < TP * TP := by
          have hpos : 0 < TP := by omega
          rw [abs_lt]
          have : ¬ (tp = TP ∧ fp = 0) ∧ ¬ (tp = 0 ∧ fp = TP) := by
            constructor <;> intro hh <;> exact hs ⟨rfl, by omega⟩
          have l1 : (tp : Int) - fp + 1 ≤ TP := by omega
          have l2 : (fp : Int) - tp + 1 ≤ TP := by omega
          have hp' : (0 : Int) < TP := by exact_mod_cast hpos
          constructor <;> nlinarith
        rw [sq]
        nlinarith
      · have : (1 : Int) ≤ ((TP : Int) - FP) * (TP - FP) := by
          have : (TP : Int) - FP ≠ 0 := by omega
          have := mul_self_pos.2 this
          omega
        rw [sq]; omega
    have := key _ hz
    push_cast at this
    have t := abs_sub_abs_le_abs_sub (fl (fl (((tp : Rat) + fp) / (TP + FP)) * fl (fl ((tp : Rat) / (tp + fp)) - fl ((TP : Rat) / (TP + FP)))))
      (((tp : Rat) * FP - fp * TP) / (((TP : Rat) + FP) * (TP + FP)))
    have := u_pos
    linarith

/-- **C75.** In floating point every measure lies in the same range as in exact arithmetic (C13), end points included; for WRAcc and its absolute value
with at most `2^24` rows. -/
theorem C75_ranges (m : Measure) (tp fp TP FP : Nat) (h1 : tp ≤ TP) (h2 : fp ≤ FP)
    (hN : m = .wracc ∨ m = .absoluteWracc → TP + FP ≤ 2 ^ 24) (y : Rat) (hy : m.computeFl (counts tp fp TP FP) = .ok y) :
    (∀ lo, (rangeOf m).1 = some lo → lo ≤ y) ∧ (∀ hi, (rangeOf m).2 = some hi → y ≤ hi) := by
  obtain ⟨x, hx⟩ := defined_of_fl hy
  have hp := pairs tp fp TP FP m x y hx hy
  have hadm : Admissible (counts tp fp TP FP) tp fp TP FP :=
    ⟨counts_has _ _ _ _, by positivity, by exact_mod_cast h1, by positivity, by exact_mod_cast h2⟩
  have hr := C13_ranges m _ tp fp TP FP x hadm (by intro g hg; cases hg) hx
  have quot : (rangeOf m) = (some 0, some 1) → y = fl x → 0 ≤ y ∧ y ≤ 1 := by
    rintro hm rfl
    exact fl01 (hr.1 0 (by rw [hm])) (hr.2 1 (by rw [hm]))
  cases m <;> simp only [rangeOf, Option.some.injEq, reduceCtorEq, false_imp_iff, implies_true, and_true, forall_eq']
  case support => exact quot rfl hp
  case coverage => exact quot rfl hp
  case ppv => exact quot rfl hp
  case npv => exact quot rfl hp
  case sensitivity => exact quot rfl hp
  case specificity => exact quot rfl hp
  case f1 => exact quot rfl hp
  case qg => rw [(C15_missing _ _).2 ⟨kG, by simp [needs], rfl⟩] at hx; cases hx
  case wracc =>
    obtain ⟨a, b, -, rfl⟩ := hp
    have := abs_le.1 (wracc_range h1 h2 a (hN (Or.inl rfl)))
    constructor <;> linarith
  case absoluteWracc =>
    obtain ⟨a, b, -, rfl⟩ := hp
    exact ⟨abs_nonneg _, wracc_range h1 h2 a (hN (Or.inr rfl))⟩
  case irr =>
    obtain ⟨a, b, -, rfl⟩ := hp
    have p' := fl01 (share01 a).1 (share01 a).2
    have q' := fl01 (frac01' h2 b).1 (frac01' h2 b).2
    have d1 : |fl ((tp : Rat) / (tp + fp)) - 1| ≤ 1 := by rw [abs_le]; constructor <;> linarith
    have d2 : -1 ≤ fl (fl ((tp : Rat) / (tp + fp)) - 1) ∧ fl (fl ((tp : Rat) / (tp + fp)) - 1) ≤ 0 :=
      ⟨(abs_le.1 (fl_unit d1)).1, fl_nonpos (by linarith)⟩
    exact abs_le.1 (fl_unit (by rw [abs_le]; constructor <;> linarith))
  case youden =>
    obtain ⟨a, b, -, rfl⟩ := hp
    have p' := fl01 (frac01 h1 a).1 (frac01 h1 a).2
    have q' := fl01 (frac01' h2 b).1 (frac01' h2 b).2
    have d2 : 0 ≤ fl (fl ((tp : Rat) / TP) + fl (((FP : Rat) - fp) / FP)) := fl_nonneg (by linarith)
    have d2' : fl (fl ((tp : Rat) / TP) + fl (((FP : Rat) - fp) / FP)) ≤ 2 := by
      have := fl_mono (show fl ((tp : Rat) / TP) + fl (((FP : Rat) - fp) / FP) ≤ 2 by linarith)
      rwa [show fl 2 = 2 by decide +kernel] at this
    exact abs_le.1 (fl_unit (by rw [abs_le]; constructor <;> linarith))
  case psOE1 =>
    obtain ⟨b, -, rfl⟩ := hp
    obtain ⟨c0, c1, -⟩ := share_bounds TP FP b
    exact fl_nonneg (mul_nonneg (fl_nonneg (by positivity)) (fl_nonneg (by linarith)))
  case psOE2 =>
    obtain ⟨b, -, rfl⟩ := hp
    obtain ⟨c0, c1, -⟩ := share_bounds TP FP b
    exact fl_nonneg (mul_nonneg (fl_nonneg (by positivity)) (fl_nonneg (by linarith)))
  case wraccOE1 =>
    obtain ⟨a, b, -, rfl⟩ := hp
    obtain ⟨c0, c1, -⟩ := share_bounds TP FP b
    exact fl_nonneg (mul_nonneg (fl_nonneg (by positivity)) (fl_nonneg (by linarith)))

/-! ## C76: signs -/

/-- a share above another one by at least `2^-52` stays above it -/
theorem shares_separate {b c : Rat} (c0 : 0 ≤ c) (b1 : b ≤ 1) (h : c + 2 * u ≤ b) : fl c < fl b := by
  have := u_pos
  have h1 := fl_le c0
  have h2 := fl_ge (q := b) (by linarith)
  nlinarith

theorem fl_sign_pos {q : Rat} (h : 0 < q) : 0 < fl q := fl_pos h
theorem fl_sign_neg {q : Rat} (h : q < 0) : fl q < 0 := by
  have := fl_pos (q := -q) (by linarith)
  rw [fl_neg] at this
  linarith

/-- the rounded difference of the shares has the sign of `tp * FP - fp * TP` -/
theorem diff_sign {tp fp TP FP : Nat} (h1 : tp ≤ TP) (h2 : fp ≤ FP) (a : 0 < tp + fp) (hN : TP + FP ≤ 2 ^ 26) :
    (fp * TP < tp * FP → 0 < fl (fl ((tp : Rat) / (tp + fp)) - fl ((TP : Rat) / (TP + FP)))) ∧
    (tp * FP < fp * TP → fl (fl ((tp : Rat) / (tp + fp)) - fl ((TP : Rat) / (TP + FP))) < 0) ∧
    (tp * FP = fp * TP → fl (fl ((tp : Rat) / (tp + fp)) - fl ((TP : Rat) / (TP + FP))) = 0) := by
  have b : 0 < TP + FP := by omega
  have a' : (0 : Rat) < tp + fp := by exact_mod_cast a
  have b' : (0 : Rat) < TP + FP := by exact_mod_cast b
  have hu : u = 1 / 9007199254740992 := rfl
  have hb : ((TP : Rat) + FP) ≤ 2 ^ 26 := by exact_mod_cast hN
  have hn : ((tp : Rat) + fp) ≤ TP + FP := by exact_mod_cast (by omega : tp + fp ≤ TP + FP)
  have hprod : ((tp : Rat) + fp) * (TP + FP) * (2 * u) ≤ 1 := by
    rw [hu]; norm_num at hb ⊢; nlinarith
  have e : (tp : Rat) / (tp + fp) - (TP : Rat) / (TP + FP) = ((tp : Rat) * FP - fp * TP) / ((tp + fp) * (TP + FP)) := by
    field_simp; ring
  have hm := mul_pos a' b'
  refine ⟨fun h => ?_, fun h => ?_, fun h => ?_⟩
  · apply fl_pos
    have h' : (fp : Rat) * TP + 1 ≤ tp * FP := by exact_mod_cast h
    have := shares_separate (share01 b).1 (share01 a).2 (by
      have : 2 * u ≤ ((tp : Rat) * FP - fp * TP) / ((tp + fp) * (TP + FP)) := by
        rw [le_div_iff₀ hm]; linarith
      linarith)
    linarith
  · apply fl_sign_neg
    have h' : (tp : Rat) * FP + 1 ≤ fp * TP := by exact_mod_cast h
    have := shares_separate (share01 a).1 (share01 b).2 (by
      have : 2 * u ≤ -(((tp : Rat) * FP - fp * TP) / ((tp + fp) * (TP + FP))) := by
        rw [← neg_div, le_div_iff₀ hm]; linarith
      linarith)
    linarith
  · have h' : (tp : Rat) * FP = fp * TP := by exact_mod_cast h
    have : (tp : Rat) / (tp + fp) = (TP : Rat) / (TP + FP) := by
      rw [h', sub_self, zero_div] at e; linarith
    rw [this, sub_self, fl_zero]

/-- **C76.** With at most `2^26` rows the sign of WRAcc and of Piatetsky-Shapiro in floating point is the sign of the exact value: positive, negative or
zero exactly when the share of positives among the covered rows is greater than, less than or equal to the one in the data. -/
theorem C76_sign (m : Measure) (hm : m = .wracc ∨ m = .piatetskyShapiro) (tp fp TP FP : Nat) (h1 : tp ≤ TP) (h2 : fp ≤ FP)
    (hN : TP + FP ≤ 2 ^ 26) (x y : Rat) (hx : m.compute (counts tp fp TP FP) = .ok x) (hy : m.computeFl (counts tp fp TP FP) = .ok y) :
    (0 < y ↔ 0 < x) ∧ (y < 0 ↔ x < 0) ∧ (y = 0 ↔ x = 0) := by
  have hp := pairs tp fp TP FP m x y hx hy
  -- enough: positive, negative and zero are preserved
  have key : (fp * TP < tp * FP → 0 < x ∧ 0 < y) ∧ (tp * FP < fp * TP → x < 0 ∧ y < 0) ∧ (tp * FP = fp * TP → x = 0 ∧ y = 0) := by
    have hab : 0 < tp + fp ∧ 0 < TP + FP := by
      rcases hm with rfl | rfl <;> exact ⟨hp.1, hp.2.1⟩
    obtain ⟨a, b⟩ := hab
    have a' : (0 : Rat) < tp + fp := by exact_mod_cast a
    have b' : (0 : Rat) < TP + FP := by exact_mod_cast b
    obtain ⟨d1, d2, d3⟩ := diff_sign h1 h2 a hN
    have e : (tp : Rat) / (tp + fp) - (TP : Rat) / (TP + FP) = ((tp : Rat) * FP - fp * TP) / ((tp + fp) * (TP + FP)) := by
      field_simp; ring
    have hm' := mul_pos a' b'
    have s1 : fp * TP < tp * FP → 0 < (tp : Rat) / (tp + fp) - (TP : Rat) / (TP + FP) := by
      intro h
      have h' : (fp : Rat) * TP < tp * FP := by exact_mod_cast h
      rw [e]; exact div_pos (by linarith) hm'
    have s2 : tp * FP < fp * TP → (tp : Rat) / (tp + fp) - (TP : Rat) / (TP + FP) < 0 := by
      intro h
      have h' : (tp : Rat) * FP < fp * TP := by exact_mod_cast h
      rw [e]; exact div_neg_of_neg_of_pos (by linarith) hm'
    have s3 : tp * FP = fp * TP → (tp : Rat) / (tp + fp) - (TP : Rat) / (TP + FP) = 0 := by
      intro h
      have h' : (tp : Rat) * FP = fp * TP := by exact_mod_cast h
      rw [e, h', sub_self, zero_div]
    have fr : ∀ k : Rat, 0 < k → (fp * TP < tp * FP → 0 < k * ((tp : Rat) / (tp + fp) - (TP : Rat) / (TP + FP)) ∧
          0 < fl (fl k * fl (fl ((tp : Rat) / (tp + fp)) - fl ((TP : Rat) / (TP + FP))))) ∧
        (tp * FP < fp * TP → k * ((tp : Rat) / (tp + fp) - (TP : Rat) / (TP + FP)) < 0 ∧
          fl (fl k * fl (fl ((tp : Rat) / (tp + fp)) - fl ((TP : Rat) / (TP + FP)))) < 0) ∧
        (tp * FP = fp * TP → k * ((tp : Rat) / (tp + fp) - (TP : Rat) / (TP + FP)) = 0 ∧
          fl (fl k * fl (fl ((tp : Rat) / (tp + fp)) - fl ((TP : Rat) / (TP + FP)))) = 0) := by
      intro k hk
      have hk' := fl_pos hk
      exact ⟨fun h => ⟨mul_pos hk (s1 h), fl_pos (mul_pos hk' (d1 h))⟩,
        fun h => ⟨mul_neg_of_pos_of_neg hk (s2 h), fl_sign_neg (mul_neg_of_pos_of_neg hk' (d2 h))⟩,
        fun h => ⟨by rw [s3 h, mul_zero], by rw [d3 h, mul_zero, fl_zero]⟩⟩
    rcases hm with rfl | rfl
    · obtain ⟨-, -, rfl, rfl⟩ := hp
      exact fr _ (div_pos a' b')
    · obtain ⟨-, -, rfl, rfl⟩ := hp
      exact fr _ a'
  rcases lt_trichotomy (fp * TP) (tp * FP) with h | h | h
  · obtain ⟨k1, k2⟩ := key.1 h
    exact ⟨by simp [k1, k2], by constructor <;> intro <;> linarith, by constructor <;> intro <;> linarith⟩
  · obtain ⟨k1, k2⟩ := key.2.2 h.symm
    simp [k1, k2]
  · obtain ⟨k1, k2⟩ := key.2.1 h
    exact ⟨by constructor <;> intro <;> linarith, by simp [k1, k2], by constructor <;> intro <;> linarith⟩

/-- **C76.** Beyond that size the sign can be lost: with 105108978 rows there is a subgroup with a negative WRAcc whose value in floating point is 0. -/
theorem C76_sign_limit : ∃ x, Measure.wracc.compute (counts 105108976 1 105108977 1) = .ok x ∧ x < 0 ∧
    Measure.wracc.computeFl (counts 105108976 1 105108977 1) = .ok 0 :=
  ⟨-1 / (105108978 * 105108978), by decide +kernel, by decide +kernel, by decide +kernel⟩

/-! ## C76: order -/

theorem ps_counts {tp fp TP FP : Nat} (h : 0 < tp + fp) (hN : 0 < TP + FP) :
    ((tp : Rat) + fp) * ((tp : Rat) / (tp + fp) - (TP : Rat) / (TP + FP)) = ((tp : Rat) * FP - fp * TP) / ((TP : Rat) + FP) := by
  have a : (0 : Rat) < tp + fp := by exact_mod_cast h
  have b : (0 : Rat) < TP + FP := by exact_mod_cast hN
  field_simp
  ring

/-- **C76.** Order: on the same data, with at most `2^24` rows, a subgroup with a smaller exact WRAcc (Piatetsky-Shapiro) has a smaller one in floating
point. (Equal exact values may be ordered either way, see `C76_ties_split`.) -/
theorem C76_order (m : Measure) (hm : m = .wracc ∨ m = .piatetskyShapiro) (tp fp tp' fp' TP FP : Nat) (h1 : tp ≤ TP) (h2 : fp ≤ FP)
    (h1' : tp' ≤ TP) (h2' : fp' ≤ FP) (hN : TP + FP ≤ 2 ^ 24) (x x' y y' : Rat)
    (hx : m.compute (counts tp fp TP FP) = .ok x) (hx' : m.compute (counts tp' fp' TP FP) = .ok x')
    (hy : m.computeFl (counts tp fp TP FP) = .ok y) (hy' : m.computeFl (counts tp' fp' TP FP) = .ok y') (hlt : x < x') : y < y' := by
  have hp := pairs tp fp TP FP m x y hx hy
  have hp' := pairs tp' fp' TP FP m x' y' hx' hy'
  obtain ⟨z, hz, e⟩ := C76_error m tp fp TP FP h1 h2 (by omega) x hx
  obtain ⟨z', hz', e'⟩ := C76_error m tp' fp' TP FP h1' h2' (by omega) x' hx'
  rw [hy] at hz; cases hz
  rw [hy'] at hz'; cases hz'
  rw [u_eq] at e e'
  have hu := u_pos
  have huv : u = 1 / 9007199254740992 := rfl
  have hb : ((TP : Rat) + FP) ≤ 2 ^ 24 := by exact_mod_cast hN
  have e1 := (abs_le.1 e).2
  have e2 := (abs_le.1 e').1
  rcases hm with rfl | rfl
  · obtain ⟨a, b, r, -⟩ := hp
    obtain ⟨a', -, r', -⟩ := hp'
    have b' : (0 : Rat) < TP + FP := by exact_mod_cast b
    rw [wracc_counts a b] at r
    rw [wracc_counts a' b] at r'
    simp only [scale, mul_one] at e1 e2
    have hM := mul_pos b' b'
    have hs : ((TP : Rat) + FP) * (TP + FP) * (32 * u) ≤ 1 := by rw [huv]; norm_num at hb ⊢; nlinarith
    have hi : (tp : Int) * FP - fp * TP + 1 ≤ tp' * FP - fp' * TP := by
      rw [r, r'] at hlt
      have := (div_lt_div_iff_of_pos_right hM).1 hlt
      have : (tp : Int) * FP - fp * TP < tp' * FP - fp' * TP := by exact_mod_cast this
      omega
    have hi' : (tp : Rat) * FP - fp * TP + 1 ≤ tp' * FP - fp' * TP := by exact_mod_cast hi
    have gap : x + 32 * u ≤ x' := by
      rw [r, r', div_add' _ _ _ hM.ne', div_le_div_iff_of_pos_right hM]
      linarith
    linarith
  · obtain ⟨a, b, r, -⟩ := hp
    obtain ⟨a', -, r', -⟩ := hp'
    have b' : (0 : Rat) < TP + FP := by exact_mod_cast b
    rw [ps_counts a b] at r
    rw [ps_counts a' b] at r'
    simp only [scale] at e1 e2
    have hn : ((tp : Rat) + fp) ≤ TP + FP := by exact_mod_cast (by omega : tp + fp ≤ TP + FP)
    have hn' : ((tp' : Rat) + fp') ≤ TP + FP := by exact_mod_cast (by omega : tp' + fp' ≤ TP + FP)
    have s1 : 5 * u * ((tp : Rat) + fp) ≤ 5 * u * (TP + FP) := mul_le_mul_of_nonneg_left hn (by linarith)
    have s2 : 5 * u * ((tp' : Rat) + fp') ≤ 5 * u * (TP + FP) := mul_le_mul_of_nonneg_left hn' (by linarith)
    have hs : (32 * u * ((TP : Rat) + FP)) * (TP + FP) ≤ 1 := by rw [huv]; norm_num at hb ⊢; nlinarith
    have hi : (tp : Int) * FP - fp * TP + 1 ≤ tp' * FP - fp' * TP := by
      rw [r, r'] at hlt
      have := (div_lt_div_iff_of_pos_right b').1 hlt
      have : (tp : Int) * FP - fp * TP < tp' * FP - fp' * TP := by exact_mod_cast this
      omega
    have hi' : (tp : Rat) * FP - fp * TP + 1 ≤ tp' * FP - fp' * TP := by exact_mod_cast hi
    have gap : x + 32 * u * ((TP : Rat) + FP) ≤ x' := by
      rw [r, r', div_add' _ _ _ b'.ne', div_le_div_iff_of_pos_right b']
      linarith
    have : 0 < u * ((TP : Rat) + FP) := mul_pos hu b'
    linarith

/-- **C76.** Ties can be split: with 4 rows, two subgroups have the same exact WRAcc (1/8) and different ones in floating point; the second one is below
1/8, so it does not reach a minimum quality of 0.125. -/
theorem C76_ties_split : Measure.wracc.compute (counts 1 0 2 2) = .ok (1 / 8) ∧ Measure.wracc.compute (counts 2 1 2 2) = .ok (1 / 8) ∧
    Measure.wracc.computeFl (counts 1 0 2 2) = .ok (1 / 8) ∧ ∃ y, Measure.wracc.computeFl (counts 2 1 2 2) = .ok y ∧ y < 1 / 8 ∧ 1 / 8 - y < 1 / 10 ^ 16 :=
  ⟨by decide +kernel, by decide +kernel, by decide +kernel, 4503599627370495 / 36028797018963968, by decide +kernel, by decide +kernel, by decide +kernel⟩

/-- the hypotheses on concrete counts: an order that is kept -/
example : ∃ y y', Measure.wracc.computeFl (counts 2 1 7 4) = .ok y ∧ Measure.wracc.computeFl (counts 3 1 7 4) = .ok y' ∧ y < y' := by
  obtain ⟨y, hy⟩ := fl_of_defined (show Measure.wracc.compute (counts 2 1 7 4) = .ok (1 / 121) by decide +kernel)
  obtain ⟨y', hy'⟩ := fl_of_defined (show Measure.wracc.compute (counts 3 1 7 4) = .ok (5 / 121) by decide +kernel)
  exact ⟨y, y', hy, hy', C76_order .wracc (Or.inl rfl) 2 1 3 1 7 4 (by decide) (by decide) (by decide) (by decide) (by decide) _ _ _ _
    (by decide +kernel) (by decide +kernel) hy hy' (by norm_num : (1 / 121 : Rat) < 5 / 121)⟩

end Verif
