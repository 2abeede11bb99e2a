import Verif.Props.QualityCompute
import Mathlib.Tactic.FieldSimp
import Mathlib.Tactic.Linarith
import Mathlib.Tactic.Ring
import Mathlib.Tactic.Positivity
/-! C13, C14, C16: ranges, identities and optimistic estimates of the quality measures. -/
namespace Verif
open Spec

/-- the outcome of a measure on a dictionary with all four counts (and, for `Qg`, the parameter `g`) -/
theorem compute_ok {m : Measure} {d : Params} {tp fp TP FP x : Rat} (h : HasCounts d tp fp TP FP)
    (hx : m.compute d = .ok x) (v : Str → Rat) (hv : ∀ k, v k = (d.lookup k).getD 0) :
    (0 : Rat) ∉ denoms m v ∧ x = formula m v ∧ v kTp = tp ∧ v kFp = fp ∧ v kTP = TP ∧ v kFP = FP := by
  obtain ⟨h1, h2, h3, h4⟩ := h
  have hall : ∀ k ∈ needs m, d.lookup k = some (v k) := by
    intro k hk
    cases hh : d.lookup k with
    | none =>
      rw [(C15_missing m d).2 ⟨k, hk, hh⟩] at hx
      cases hx
    | some y => rw [hv, hh]; rfl
  obtain ⟨a, b⟩ := C15_value m d v hall
  have h0 : (0 : Rat) ∉ denoms m v := by
    intro h0
    rw [a.2 h0] at hx
    cases hx
  refine ⟨h0, ?_, ?_, ?_, ?_, ?_⟩
  · rw [b h0] at hx
    cases hx
    rfl
  all_goals simp [hv, h1, h2, h3, h4]

/-- the claimed range of each measure; `none` is unbounded -/
def rangeOf : Measure → Option Rat × Option Rat
  | .support | .coverage | .ppv | .npv | .sensitivity | .specificity | .f1 => (some 0, some 1)
  | .irr | .youden => (some (-1), some 1)
  | .wracc => (some (-1/4), some (1/4))
  | .absoluteWracc => (some 0, some (1/4))
  | .qg | .psOE1 | .psOE2 | .wraccOE1 => (some 0, none)
  | .piatetskyShapiro => (none, none)

/-- C13: on admissible counts on which it is defined, every measure lies in its range. (`Qg` for a non-negative `g`.) -/
theorem C13_ranges (m : Measure) (d : Params) (tp fp TP FP x : Rat) (h : Admissible d tp fp TP FP)
    (hg : ∀ g, d.lookup kG = some g → 0 ≤ g) (hx : m.compute d = .ok x) :
    (∀ lo, (rangeOf m).1 = some lo → lo ≤ x) ∧ (∀ hi, (rangeOf m).2 = some hi → x ≤ hi) := by
  obtain ⟨hc, h1, h2, h3, h4⟩ := h
  obtain ⟨h0, e, e1, e2, e3, e4⟩ := compute_ok hc hx (fun k => (d.lookup k).getD 0) (fun k => rfl)
  have hwr : 0 < TP + FP → -1/4 ≤ tp / (TP + FP) - (tp + fp) / (TP + FP) * (TP / (TP + FP)) ∧
      tp / (TP + FP) - (tp + fp) / (TP + FP) * (TP / (TP + FP)) ≤ 1/4 := by
    intro hN
    have e : tp / (TP + FP) - (tp + fp) / (TP + FP) * (TP / (TP + FP)) = (tp * FP - fp * TP) / (TP + FP) ^ 2 := by
      field_simp
      ring
    rw [e]
    have hN2 : 0 < (TP + FP) ^ 2 := by positivity
    constructor
    · rw [le_div_iff₀ hN2]
      nlinarith [mul_nonneg h1 (h3.trans h4), mul_le_mul_of_nonneg_right h4 (h1.trans h2), sq_nonneg (TP - FP)]
    · rw [div_le_iff₀ hN2]
      nlinarith [mul_nonneg h3 (h1.trans h2), mul_le_mul_of_nonneg_right h2 (h3.trans h4), sq_nonneg (TP - FP)]
  have div01 : ∀ a b : Rat, 0 ≤ a → a ≤ b → b ≠ 0 → 0 ≤ a / b ∧ a / b ≤ 1 := fun a b ha hab hb =>
    ⟨div_nonneg ha (ha.trans hab), (div_le_one (lt_of_le_of_ne (ha.trans hab) (Ne.symm hb))).2 hab⟩
  cases m <;> simp only [rangeOf, Option.some.injEq, reduceCtorEq, false_imp_iff, implies_true, and_true, forall_eq'] <;>
    simp only [denoms, formula, e1, e2, e3, e4, List.mem_cons, List.not_mem_nil, or_false, not_or] at h0 e <;> subst e
  case support => exact div01 _ _ h1 (by linarith) (Ne.symm h0)
  case coverage => exact div01 _ _ (by linarith) (by linarith) (Ne.symm h0)
  case wracc =>
    exact hwr (lt_of_le_of_ne (by linarith) h0.2)
  case absoluteWracc =>
    exact ⟨abs_nonneg _, abs_le.2 (by have := hwr (lt_of_le_of_ne (by linarith) h0.2); constructor <;> linarith)⟩
  case ppv => exact div01 _ _ h1 (by linarith) (Ne.symm h0)
  case npv => exact div01 _ _ (by linarith) (by linarith) (fun hh => h0 (by linarith))
  case sensitivity => exact div01 _ _ h1 h2 (Ne.symm h0)
  case specificity => exact div01 _ _ (by linarith) (by linarith) (Ne.symm h0)
  case f1 =>
    exact div01 _ _ h1 (by linarith) (fun hh => h0 (by linarith))
  case irr =>
    have a := div01 tp (tp + fp) h1 (by linarith) (Ne.symm h0.1)
    have b := div01 fp FP h3 h4 (Ne.symm h0.2)
    constructor <;> linarith
  case youden =>
    have a := div01 tp TP h1 h2 (Ne.symm h0.1)
    have b := div01 fp FP h3 h4 (Ne.symm h0.2)
    constructor <;> linarith
  case qg =>
    refine div_nonneg h1 (add_nonneg h3 ?_)
    cases hh : d.lookup kG with
    | none => simp
    | some g => exact hg g hh
  case psOE1 => exact mul_nonneg (by linarith) (div_nonneg (by linarith) (by linarith))
  case psOE2 => exact mul_nonneg (by linarith) (div_nonneg (by linarith) (by linarith))
  case wraccOE1 =>
    exact mul_nonneg (div_nonneg (by positivity) (by linarith)) (div_nonneg (by linarith) (by linarith))

example : ∃ d tp fp TP FP, Admissible d tp fp TP FP ∧ ∀ m : Measure, m ≠ .qg → ∃ x, m.compute d = .ok x :=
  ⟨[(kTp, 2), (kFp, 1), (kTP, 4), (kFP, 4)], 2, 1, 4, 4,
    ⟨⟨by decide +kernel, by decide +kernel, by decide +kernel, by decide +kernel⟩, by decide +kernel, by decide +kernel,
      by decide +kernel, by decide +kernel⟩, by
    intro m hm
    have hv : ∀ k ∈ needs m, List.lookup k [(kTp, (2 : Rat)), (kFp, 1), (kTP, 4), (kFP, 4)] =
        some (if k = kTp then 2 else if k = kFp then 1 else 4) := by
      cases m <;> first | exact absurd rfl hm | decide +kernel
    exact ⟨_, (C15_value m _ (fun k => if k = kTp then 2 else if k = kFp then 1 else 4) hv).2
      (by cases m <;> first | exact absurd rfl hm | decide +kernel)⟩⟩

theorem compute_eq {d : Params} {tp fp TP FP : Rat} (h : HasCounts d tp fp TP FP) (m : Measure) (hm : m ≠ .qg)
    (v : Str → Rat) (h1 : v kTp = tp) (h2 : v kFp = fp) (h3 : v kTP = TP) (h4 : v kFP = FP) :
    m.compute d = if (0 : Rat) ∈ denoms m v then .error .zeroDivisionError else .ok (formula m v) := by
  obtain ⟨e1, e2, e3, e4⟩ := h
  have hall : ∀ k ∈ needs m, d.lookup k = some (v k) := by
    cases m <;> simp [needs, *] at *
  obtain ⟨a, b⟩ := C15_value m d v hall
  split
  · exact a.2 ‹_›
  · exact b ‹_›

/-- C14: Youden = Sensitivity + Specificity - 1 (and it is defined exactly when both are). -/
theorem C14_youden (d : Params) (tp fp TP FP : Rat) (h : Admissible d tp fp TP FP) (x : Rat) :
    Measure.youden.compute d = .ok x ↔
      ∃ a b, Measure.sensitivity.compute d = .ok a ∧ Measure.specificity.compute d = .ok b ∧ x = a + b - 1 := by
  let v : Str → Rat := fun k => if k = kTp then tp else if k = kFp then fp else if k = kTP then TP else FP
  rw [compute_eq h.1 .youden (by simp) v rfl rfl rfl rfl, compute_eq h.1 .sensitivity (by simp) v rfl rfl rfl rfl,
    compute_eq h.1 .specificity (by simp) v rfl rfl rfl rfl]
  simp only [denoms, formula, List.mem_cons, List.not_mem_nil, or_false, show v kTp = tp from rfl,
    show v kFp = fp from rfl, show v kTP = TP from rfl, show v kFP = FP from rfl, @eq_comm Rat 0]
  by_cases a1 : TP = 0 <;> by_cases a2 : FP = 0 <;> simp [a1, a2]
  rw [eq_comm, sub_div, div_self a2]
  constructor <;> intro h <;> linarith

/-- C14: IRR = PPV + Specificity - 1 (and it is defined exactly when both are). -/
theorem C14_irr (d : Params) (tp fp TP FP : Rat) (h : Admissible d tp fp TP FP) (x : Rat) :
    Measure.irr.compute d = .ok x ↔
      ∃ a b, Measure.ppv.compute d = .ok a ∧ Measure.specificity.compute d = .ok b ∧ x = a + b - 1 := by
  let v : Str → Rat := fun k => if k = kTp then tp else if k = kFp then fp else if k = kTP then TP else FP
  rw [compute_eq h.1 .irr (by simp) v rfl rfl rfl rfl, compute_eq h.1 .ppv (by simp) v rfl rfl rfl rfl,
    compute_eq h.1 .specificity (by simp) v rfl rfl rfl rfl]
  simp only [denoms, formula, List.mem_cons, List.not_mem_nil, or_false, show v kTp = tp from rfl,
    show v kFp = fp from rfl, show v kTP = TP from rfl, show v kFP = FP from rfl, @eq_comm Rat 0]
  by_cases a1 : tp + fp = 0 <;> by_cases a2 : FP = 0 <;> simp [a1, a2]
  rw [eq_comm, sub_div, div_self a2]
  constructor <;> intro h <;> linarith

/-- C14: F1 is the harmonic mean of PPV and Sensitivity (0 when both are 0). -/
theorem C14_f1 (d : Params) (tp fp TP FP : Rat) (h : Admissible d tp fp TP FP) (a b : Rat)
    (ha : Measure.ppv.compute d = .ok a) (hb : Measure.sensitivity.compute d = .ok b) :
    (a + b ≠ 0 → Measure.f1.compute d = .ok (2 * a * b / (a + b))) ∧ (a + b = 0 → Measure.f1.compute d = .ok 0) := by
  let v : Str → Rat := fun k => if k = kTp then tp else if k = kFp then fp else if k = kTP then TP else FP
  rw [compute_eq h.1 .ppv (by simp) v rfl rfl rfl rfl] at ha
  rw [compute_eq h.1 .sensitivity (by simp) v rfl rfl rfl rfl] at hb
  rw [compute_eq h.1 .f1 (by simp) v rfl rfl rfl rfl]
  obtain ⟨-, p1, p2, p3, p4⟩ := h
  simp only [denoms, formula, List.mem_cons, List.not_mem_nil, or_false, show v kTp = tp from rfl,
    show v kFp = fp from rfl, show v kTP = TP from rfl, show v kFP = FP from rfl, @eq_comm Rat 0] at ha hb ⊢
  split at ha
  · cases ha
  split at hb
  · cases hb
  cases ha
  cases hb
  rename_i k1 k2
  have hn : 0 < tp + fp := lt_of_le_of_ne (by linarith) (Ne.symm k1)
  have hT : 0 < TP := lt_of_le_of_ne (by linarith) (Ne.symm k2)
  have k3 : tp + fp + TP ≠ 0 := by linarith
  rw [if_neg k3]
  by_cases ht : tp = 0
  · subst ht; simp
  · have htp : 0 < tp := lt_of_le_of_ne p1 (Ne.symm ht)
    have : 0 < tp / (tp + fp) + tp / TP := by positivity
    refine ⟨fun _ => ?_, fun hh => absurd hh this.ne'⟩
    congr 1
    field_simp
    ring

/-- C14: Support = Coverage * PPV. -/
theorem C14_support (d : Params) (tp fp TP FP : Rat) (h : Admissible d tp fp TP FP) (a b : Rat)
    (ha : Measure.coverage.compute d = .ok a) (hb : Measure.ppv.compute d = .ok b) :
    Measure.support.compute d = .ok (a * b) := by
  let v : Str → Rat := fun k => if k = kTp then tp else if k = kFp then fp else if k = kTP then TP else FP
  rw [compute_eq h.1 .coverage (by simp) v rfl rfl rfl rfl] at ha
  rw [compute_eq h.1 .ppv (by simp) v rfl rfl rfl rfl] at hb
  rw [compute_eq h.1 .support (by simp) v rfl rfl rfl rfl]
  simp only [denoms, formula, List.mem_cons, List.not_mem_nil, or_false, show v kTp = tp from rfl,
    show v kFp = fp from rfl, show v kTP = TP from rfl, show v kFP = FP from rfl, @eq_comm Rat 0] at ha hb ⊢
  split at ha
  · cases ha
  split at hb
  · cases hb
  cases ha
  cases hb
  rw [if_neg ‹_›]
  congr 1
  field_simp

/-- C14: WRAcc = Coverage * (PPV - TP / (TP + FP)). -/
theorem C14_wracc (d : Params) (tp fp TP FP : Rat) (h : Admissible d tp fp TP FP) (x : Rat) :
    Measure.wracc.compute d = .ok x ↔
      ∃ a b, Measure.coverage.compute d = .ok a ∧ Measure.ppv.compute d = .ok b ∧ x = a * (b - TP / (TP + FP)) := by
  let v : Str → Rat := fun k => if k = kTp then tp else if k = kFp then fp else if k = kTP then TP else FP
  rw [compute_eq h.1 .wracc (by simp) v rfl rfl rfl rfl, compute_eq h.1 .ppv (by simp) v rfl rfl rfl rfl,
    compute_eq h.1 .coverage (by simp) v rfl rfl rfl rfl]
  simp only [denoms, formula, List.mem_cons, List.not_mem_nil, or_false, show v kTp = tp from rfl,
    show v kFp = fp from rfl, show v kTP = TP from rfl, show v kFP = FP from rfl, @eq_comm Rat 0]
  by_cases a1 : tp + fp = 0 <;> by_cases a2 : TP + FP = 0 <;> simp [a1, a2]
  have e : tp / (TP + FP) - (tp + fp) / (TP + FP) * (TP / (TP + FP)) =
      (tp + fp) / (TP + FP) * (tp / (tp + fp) - TP / (TP + FP)) := by field_simp
  rw [e, eq_comm]

/-- C14: WRAcc = PiatetskyShapiro / (TP + FP). -/
theorem C14_piatetskyShapiro (d : Params) (tp fp TP FP : Rat) (h : Admissible d tp fp TP FP) (x : Rat) :
    Measure.wracc.compute d = .ok x ↔ ∃ a, Measure.piatetskyShapiro.compute d = .ok a ∧ x = a / (TP + FP) := by
  let v : Str → Rat := fun k => if k = kTp then tp else if k = kFp then fp else if k = kTP then TP else FP
  rw [compute_eq h.1 .wracc (by simp) v rfl rfl rfl rfl, compute_eq h.1 .piatetskyShapiro (by simp) v rfl rfl rfl rfl]
  simp only [denoms, formula, List.mem_cons, List.not_mem_nil, or_false, show v kTp = tp from rfl,
    show v kFp = fp from rfl, show v kTP = TP from rfl, show v kFP = FP from rfl, @eq_comm Rat 0]
  by_cases a1 : tp + fp = 0 <;> by_cases a2 : TP + FP = 0 <;> simp [a1, a2]
  have e : tp / (TP + FP) - (tp + fp) / (TP + FP) * (TP / (TP + FP)) =
      (tp - (tp + fp) * (TP / (TP + FP))) / (TP + FP) := by field_simp
  rw [e, eq_comm]

/-- C14: AbsoluteWRAcc = |WRAcc|. -/
theorem C14_absolute (d : Params) (tp fp TP FP : Rat) (h : Admissible d tp fp TP FP) (x : Rat) :
    Measure.absoluteWracc.compute d = .ok x ↔ ∃ a, Measure.wracc.compute d = .ok a ∧ x = |a| := by
  let v : Str → Rat := fun k => if k = kTp then tp else if k = kFp then fp else if k = kTP then TP else FP
  rw [compute_eq h.1 .wracc (by simp) v rfl rfl rfl rfl, compute_eq h.1 .absoluteWracc (by simp) v rfl rfl rfl rfl]
  simp only [denoms, formula, List.mem_cons, List.not_mem_nil, or_false, show v kTp = tp from rfl,
    show v kFp = fp from rfl, show v kTP = TP from rfl, show v kFP = FP from rfl, @eq_comm Rat 0]
  by_cases a1 : tp + fp = 0 <;> by_cases a2 : TP + FP = 0 <;> simp [a1, a2]
  rw [eq_comm]

/-- the dictionary an algorithm builds for integer counts -/
def counts (tp fp TP FP : Nat) : Params := [(kTp, (tp : Rat)), (kFp, (fp : Rat)), (kTP, (TP : Rat)), (kFP, (FP : Rat))]

theorem counts_has (tp fp TP FP : Nat) : HasCounts (counts tp fp TP FP) tp fp TP FP :=
  ⟨rfl, rfl, rfl, rfl⟩

/-- C16: for any counts and any smaller counts (those of a refinement) with at least one covered row, both measures are
defined and the optimistic estimate of the larger counts is at least the quality of the smaller ones. -/
theorem C16_bound (tp fp TP FP tp' fp' : Nat) (h1 : tp ≤ TP) (h2 : fp ≤ FP) (h3 : tp' ≤ tp) (h4 : fp' ≤ fp)
    (h5 : 0 < tp' + fp') :
    (∃ q o1 o2, Measure.piatetskyShapiro.compute (counts tp' fp' TP FP) = .ok q ∧
      Measure.psOE1.compute (counts tp fp TP FP) = .ok o1 ∧ Measure.psOE2.compute (counts tp fp TP FP) = .ok o2 ∧
      q ≤ o2 ∧ o2 ≤ o1) ∧
    (∃ q o, Measure.wracc.compute (counts tp' fp' TP FP) = .ok q ∧ Measure.wraccOE1.compute (counts tp fp TP FP) = .ok o ∧
      q ≤ o) := by
  let v : Str → Rat := fun k => if k = kTp then (tp : Rat) else if k = kFp then (fp : Rat) else if k = kTP then (TP : Rat) else FP
  let w : Str → Rat := fun k => if k = kTp then (tp' : Rat) else if k = kFp then (fp' : Rat) else if k = kTP then (TP : Rat) else FP
  rw [compute_eq (counts_has tp' fp' TP FP) .piatetskyShapiro (by simp) w rfl rfl rfl rfl,
    compute_eq (counts_has tp' fp' TP FP) .wracc (by simp) w rfl rfl rfl rfl,
    compute_eq (counts_has tp fp TP FP) .psOE1 (by simp) v rfl rfl rfl rfl,
    compute_eq (counts_has tp fp TP FP) .psOE2 (by simp) v rfl rfl rfl rfl,
    compute_eq (counts_has tp fp TP FP) .wraccOE1 (by simp) v rfl rfl rfl rfl]
  simp only [denoms, formula, List.mem_cons, List.not_mem_nil, or_false, show v kTp = tp from rfl,
    show v kFp = fp from rfl, show v kTP = TP from rfl, show v kFP = FP from rfl, @eq_comm Rat 0, show w kTp = tp' from rfl,
    show w kFp = fp' from rfl, show w kTP = TP from rfl, show w kFP = FP from rfl]
  have n0 : (0 : Rat) < tp' + fp' := by exact_mod_cast h5
  have n1 : (0 : Rat) < tp + fp := by exact_mod_cast (show 0 < tp + fp by omega)
  have n2 : (0 : Rat) < TP + FP := by exact_mod_cast (show 0 < TP + FP by omega)
  have c1 : (tp : Rat) ≤ TP := by exact_mod_cast h1
  have c2 : (fp : Rat) ≤ FP := by exact_mod_cast h2
  have c3 : (tp' : Rat) ≤ tp := by exact_mod_cast h3
  have c4 : (fp' : Rat) ≤ fp := by exact_mod_cast h4
  have z1 : (0 : Rat) ≤ tp' := by positivity
  have z2 : (0 : Rat) ≤ fp' := by positivity
  have z3 : (0 : Rat) ≤ TP := by positivity
  have z4 : (0 : Rat) ≤ FP := by positivity
  rw [if_neg (by simp [n0.ne', n2.ne']), if_neg (by simp [n2.ne']), if_neg (by simp [n2.ne']),
    if_neg (by simp [n0.ne', n2.ne']), if_neg (by simp [n1.ne', n2.ne'])]
  refine ⟨⟨_, _, _, rfl, rfl, rfl, ?_, ?_⟩, ⟨_, _, rfl, rfl, ?_⟩⟩
  · have e : (tp' : Rat) - (tp' + fp') * (TP / (TP + FP)) = (tp' * FP - fp' * TP) / (TP + FP) := by
      field_simp
      ring
    rw [e, ← mul_div_assoc]
    apply div_le_div_of_nonneg_right _ n2.le
    nlinarith [mul_nonneg z2 z3, mul_le_mul_of_nonneg_right c3 z4]
  · exact mul_le_mul_of_nonneg_right (by linarith) (div_nonneg z4 n2.le)
  · have e : (tp' : Rat) / (TP + FP) - (tp' + fp') / (TP + FP) * (TP / (TP + FP)) =
        (tp' * FP - fp' * TP) / ((TP + FP) * (TP + FP)) := by
      field_simp
      ring
    have e2 : (tp : Rat) ^ 2 / (tp + fp) * (FP / (TP + FP)) = (tp ^ 2 * FP * ((TP + FP) / (tp + fp))) / ((TP + FP) * (TP + FP)) := by
      field_simp
    rw [e, e2]
    apply div_le_div_of_nonneg_right _ (by positivity)
    have g1 : (1 : Rat) ≤ (TP + FP) / (tp + fp) := by
      rw [one_le_div n1]; linarith
    have g2 : (tp' : Rat) ≤ tp ^ 2 := by
      have : tp' ≤ tp ^ 2 := by nlinarith [Nat.le_self_pow (n := 2) (by simp) tp]
      exact_mod_cast this
    have g3 : (tp : Rat) ^ 2 * FP ≤ tp ^ 2 * FP * ((TP + FP) / (tp + fp)) := by
      nlinarith [mul_nonneg (sq_nonneg (tp : Rat)) z4]
    nlinarith [mul_nonneg z2 z3, mul_le_mul_of_nonneg_right g2 z4]

example : ∃ tp fp TP FP tp' fp' : Nat, tp ≤ TP ∧ fp ≤ FP ∧ tp' ≤ tp ∧ fp' ≤ fp ∧ 0 < tp' + fp' ∧ tp' ≠ tp ∧ fp' ≠ fp ∧
    tp < TP ∧ fp < FP := ⟨3, 3, 4, 4, 2, 1, by decide⟩

/-- C16 on data: `p` and a refinement `q` of it, evaluated on any data frame with any 0/1 target column `t`. -/
theorem C16_data (p q : Pattern) (df : Frame) (hw : WF df) (b : Bool) (hr : p.isRefinement q b = true)
    (mp mq t : List Bool) (hp : p.isContained df = .ok mp) (hq : q.isContained df = .ok mq) (ht : t.length = df.nrows)
    (tp fp tp' fp' TP FP : Nat)
    (e1 : tp = (List.zipWith (· && ·) mp t).count true) (e2 : fp = (List.zipWith (· && ·) mp (t.map (!·))).count true)
    (e3 : tp' = (List.zipWith (· && ·) mq t).count true) (e4 : fp' = (List.zipWith (· && ·) mq (t.map (!·))).count true)
    (e5 : TP = t.count true) (e6 : FP = t.count false) (hne : true ∈ mq) :
    (∃ x o1 o2, Measure.piatetskyShapiro.compute (counts tp' fp' TP FP) = .ok x ∧
      Measure.psOE1.compute (counts tp fp TP FP) = .ok o1 ∧ Measure.psOE2.compute (counts tp fp TP FP) = .ok o2 ∧
      x ≤ o2 ∧ o2 ≤ o1) ∧
    (∃ x o, Measure.wracc.compute (counts tp' fp' TP FP) = .ok x ∧ Measure.wraccOE1.compute (counts tp fp TP FP) = .ok o ∧
      x ≤ o) := by
  obtain ⟨l1, l2, -, hc⟩ := C10_antitone p q df hw b hr mp mq hp hq
  have gen1 : ∀ (m u : List Bool), (List.zipWith (· && ·) m u).count true ≤ u.count true := by
    intro m u
    induction m generalizing u with
    | nil => simp
    | cons a m ih => cases u with
      | nil => simp
      | cons c u => have := ih u; cases a <;> cases c <;> simp <;> omega
  have gen2 : ∀ (m u : List Bool), m.length = u.length → (List.zipWith (· && ·) m u).count true +
      (List.zipWith (· && ·) m (u.map (!·))).count true = m.count true := by
    intro m u h
    induction m generalizing u with
    | nil => simp
    | cons a m ih => cases u with
      | nil => simp at h
      | cons c u => have := ih u (by simpa using h); cases a <;> cases c <;> simp <;> omega
  have hFP : (t.map (!·)).count true = t.count false := by
    clear ht hc e1 e2 e3 e4 e5 e6
    induction t with
    | nil => rfl
    | cons a t ih => cases a <;> simp [ih]
  apply C16_bound
  · rw [e1, e5]; exact gen1 _ _
  · rw [e2, e6, ← hFP]; exact gen1 _ _
  · rw [e1, e3]; exact (hc t).1
  · rw [e2, e4]; exact (hc t).2
  · have := gen2 mq t (by omega)
    have := List.count_pos_iff.2 hne
    omega

/-- Not part of the claim: `WRAccOptimisticEstimate1` can grow under refinement (dropping false positives), so although it
bounds the quality it is not monotone; the Piatetsky-Shapiro estimates are. -/
theorem C16_monotone (tp fp TP FP tp' fp' : Nat) (h3 : tp' ≤ tp) (h4 : fp' ≤ fp) (h5 : 0 < TP + FP) :
    (∃ a b, Measure.psOE1.compute (counts tp' fp' TP FP) = .ok a ∧ Measure.psOE1.compute (counts tp fp TP FP) = .ok b ∧ a ≤ b) ∧
    (∃ a b, Measure.psOE2.compute (counts tp' fp' TP FP) = .ok a ∧ Measure.psOE2.compute (counts tp fp TP FP) = .ok b ∧ a ≤ b) := by
  let v : Str → Rat := fun k => if k = kTp then (tp : Rat) else if k = kFp then (fp : Rat) else if k = kTP then (TP : Rat) else FP
  let w : Str → Rat := fun k => if k = kTp then (tp' : Rat) else if k = kFp then (fp' : Rat) else if k = kTP then (TP : Rat) else FP
  rw [compute_eq (counts_has tp' fp' TP FP) .psOE1 (by simp) w rfl rfl rfl rfl,
    compute_eq (counts_has tp' fp' TP FP) .psOE2 (by simp) w rfl rfl rfl rfl,
    compute_eq (counts_has tp fp TP FP) .psOE1 (by simp) v rfl rfl rfl rfl,
    compute_eq (counts_has tp fp TP FP) .psOE2 (by simp) v rfl rfl rfl rfl]
  simp only [denoms, formula, List.mem_cons, List.not_mem_nil, or_false, show v kTp = tp from rfl,
    show v kFp = fp from rfl, show v kTP = TP from rfl, show v kFP = FP from rfl, @eq_comm Rat 0, show w kTp = tp' from rfl,
    show w kFp = fp' from rfl, show w kTP = TP from rfl, show w kFP = FP from rfl]
  have n2 : (0 : Rat) < TP + FP := by exact_mod_cast h5
  have c3 : (tp' : Rat) ≤ tp := by exact_mod_cast h3
  have c4 : (fp' : Rat) ≤ fp := by exact_mod_cast h4
  have z4 : (0 : Rat) ≤ FP := by positivity
  rw [if_neg n2.ne', if_neg n2.ne', if_neg n2.ne', if_neg n2.ne']
  exact ⟨⟨_, _, rfl, rfl, mul_le_mul_of_nonneg_right (by linarith) (div_nonneg z4 n2.le)⟩,
    ⟨_, _, rfl, rfl, mul_le_mul_of_nonneg_right (by linarith) (div_nonneg z4 n2.le)⟩⟩

theorem C16_wraccOE1_not_monotone : ∃ tp fp tp' fp' TP FP a b, tp' ≤ tp ∧ fp' ≤ fp ∧ 0 < tp' + fp' ∧ tp ≤ TP ∧ fp ≤ FP ∧
    Measure.wraccOE1.compute (counts tp fp TP FP) = .ok a ∧ Measure.wraccOE1.compute (counts tp' fp' TP FP) = .ok b ∧ a < b :=
  ⟨1, 1, 1, 0, 2, 2, 1/4, 1/2, by decide, by decide, by decide, by decide, by decide, by decide +kernel, by decide +kernel,
    by decide +kernel⟩

end Verif
