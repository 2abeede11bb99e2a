import Verif.Lemmas.FloatBounds
import Verif.Props.Quality
/-! Properties of the quality measures as they are computed, in floating point: C74, C75, C76. `Measure.computeFl` is the program, with
the rounding of IEEE 754 after each operation; `Measure.compute` is the same program with exact arithmetic. -/
namespace Verif
open Spec Float64

/-! ## the rounding -/

/-- **C74.** The rounding used in the model is the one of IEEE 754, and the only one: the nearest number with 53 binary digits, the even one of
two that are equally near. -/
theorem C74_rounding (q f : Rat) : IsRounding q f ↔ f = fl q :=
  ⟨fun h => isRounding_unique h (fl_isRounding q), fun h => h ▸ fl_isRounding q⟩

/-- the constants 1/10 and 1/3 of Python, and a tie -/
example : fl (1 / 10) = 3602879701896397 / 36028797018963968 ∧ fl (1 / 3) = 6004799503160661 / 18014398509481984 ∧
    fl 9007199254740993 = 9007199254740992 ∧ fl 9007199254740995 = 9007199254740996 := by decide +kernel

/-! ## errors -/

theorem map_unit_bind {α β : Type} (x : Except PyErr α) (f g : α → Except PyErr β)
    (h : ∀ a, (f a).map (fun _ => ()) = (g a).map (fun _ => ())) : (x >>= f).map (fun _ => ()) = (x >>= g).map (fun _ => ()) := by
  cases x with
  | error e => rfl
  | ok a => exact h a

theorem div_unit (a b : Rat) : (Float64.div a b).map (fun _ => ()) = (pyDiv a b).map (fun _ => ()) := by
  unfold Float64.div pyDiv; split <;> rfl

theorem div_bind_unit {β : Type} (a b a' : Rat) (f g : Rat → Except PyErr β)
    (h : ∀ x y, (f x).map (fun _ => ()) = (g y).map (fun _ => ())) :
    (Float64.div a b >>= f).map (fun _ => ()) = (pyDiv a' b >>= g).map (fun _ => ()) := by
  unfold Float64.div pyDiv
  split
  · rfl
  · exact h _ _

/-- **C75.** A measure raises in floating point exactly what it raises in exact arithmetic, on the same dictionaries (so C15 describes its errors). -/
theorem C75_errors (m : Measure) (d : Params) : (m.computeFl d).map (fun _ => ()) = (m.compute d).map (fun _ => ()) := by
  have hw : ∀ (f g : Rat → Except PyErr Rat), (∀ x y, (f x).map (fun _ => ()) = (g y).map (fun _ => ())) →
      (Float64.wracc d >>= f).map (fun _ => ()) = (Quality.wracc d >>= g).map (fun _ => ()) := by
    intro f g h
    unfold Float64.wracc Quality.wracc
    simp only [bind_assoc]
    repeat' first
      | exact h _ _
      | (apply map_unit_bind; intro _)
      | (apply div_bind_unit; intro _ _)
  cases m <;>
    simp only [Measure.computeFl, Measure.compute] <;>
    first
    | (unfold Float64.absoluteWracc Quality.absoluteWracc; exact hw _ _ fun _ _ => rfl)
    | skip
  all_goals
    simp only [Float64.support, Quality.support, Float64.coverage, Quality.coverage, Float64.wracc, Quality.wracc, Float64.ppv, Quality.ppv,
      Float64.npv, Quality.npv, Float64.sensitivity, Quality.sensitivity, Float64.specificity, Quality.specificity, Float64.f1, Quality.f1,
      Float64.irr, Quality.irr, Float64.youden, Quality.youden, Float64.qg, Quality.qg, Float64.piatetskyShapiro, Quality.piatetskyShapiro,
      Float64.psOE1, Quality.psOE1, Float64.psOE2, Quality.psOE2, Float64.wraccOE1, Quality.wraccOE1]
    repeat' first
      | exact div_unit _ _
      | rfl
      | (apply map_unit_bind; intro _)
      | (apply div_bind_unit; intro _ _)

/-! ## values -/

theorem div_of {a b : Rat} (h : b ≠ 0) : Float64.div a b = .ok (fl (a / b)) := by unfold Float64.div; rw [if_neg h]

/-- the rounded expressions, for counts -/
theorem flValues (tp fp TP FP : Nat) (hN : 0 < TP + FP) :
    (0 < tp + fp → Measure.wracc.computeFl (counts tp fp TP FP) =
      .ok (fl (fl (((tp : Rat) + fp) / (TP + FP)) * fl (fl ((tp : Rat) / (tp + fp)) - fl ((TP : Rat) / (TP + FP)))))) ∧
    (0 < tp + fp → Measure.piatetskyShapiro.computeFl (counts tp fp TP FP) =
      .ok (fl (fl ((tp : Rat) + fp) * fl (fl ((tp : Rat) / (tp + fp)) - fl ((TP : Rat) / (TP + FP)))))) ∧
    Measure.psOE1.computeFl (counts tp fp TP FP) = .ok (fl (fl ((tp : Rat) + fp) * fl (1 - fl ((TP : Rat) / (TP + FP))))) ∧
    Measure.psOE2.computeFl (counts tp fp TP FP) = .ok (fl (fl (tp : Rat) * fl (1 - fl ((TP : Rat) / (TP + FP))))) ∧
    (0 < tp + fp → Measure.wraccOE1.computeFl (counts tp fp TP FP) =
      .ok (fl (fl ((tp : Rat) * tp / (tp + fp)) * fl (1 - fl ((TP : Rat) / (TP + FP)))))) := by
  have n2 : ((TP : Rat) + FP) ≠ 0 := by exact_mod_cast (by omega : TP + FP ≠ 0)
  have g1 : getParam (counts tp fp TP FP) kTp = .ok (tp : Rat) := rfl
  have g2 : getParam (counts tp fp TP FP) kFp = .ok (fp : Rat) := rfl
  have g3 : getParam (counts tp fp TP FP) kTP = .ok (TP : Rat) := rfl
  have g4 : getParam (counts tp fp TP FP) kFP = .ok (FP : Rat) := rfl
  refine ⟨fun h => ?_, fun h => ?_, ?_, ?_, fun h => ?_⟩
  all_goals
    simp only [Measure.computeFl, Float64.wracc, Float64.piatetskyShapiro, Float64.psOE1, Float64.psOE2, Float64.wraccOE1, g1, g2, g3, g4]
  all_goals
    try have n1 : ((tp : Rat) + fp) ≠ 0 := by exact_mod_cast (by omega : tp + fp ≠ 0)
    simp only [bind, Except.bind, div_of n2, pure, Except.pure, Float64.mul, Float64.sub]
  all_goals
    simp only [div_of n1]

/-! ## C74: the optimistic estimates -/

/-- **C74.** In floating point, for up to `2^48` rows: for a subgroup with counts (tp, fp) and any refinement (tp', fp') that covers some row,
both estimates of Piatetsky-Shapiro and that of WRAcc are at least the quality of the refinement, rounding errors included. -/
theorem C74_bound (tp fp TP FP tp' fp' : Nat) (h1 : tp ≤ TP) (h2 : fp ≤ FP) (h3 : tp' ≤ tp) (h4 : fp' ≤ fp)
    (h5 : 0 < tp' + fp') (hN : TP + FP ≤ 2 ^ 48) :
    (∃ q o1 o2, Measure.piatetskyShapiro.computeFl (counts tp' fp' TP FP) = .ok q ∧
      Measure.psOE1.computeFl (counts tp fp TP FP) = .ok o1 ∧ Measure.psOE2.computeFl (counts tp fp TP FP) = .ok o2 ∧
      q ≤ o2 ∧ o2 ≤ o1) ∧
    (∃ q o, Measure.wracc.computeFl (counts tp' fp' TP FP) = .ok q ∧ Measure.wraccOE1.computeFl (counts tp fp TP FP) = .ok o ∧
      q ≤ o) := by
  have hN0 : 0 < TP + FP := by omega
  obtain ⟨-, -, v1, v2, v3⟩ := flValues tp fp TP FP hN0
  obtain ⟨w1, w2, -, -, -⟩ := flValues tp' fp' TP FP hN0
  obtain ⟨-, c1, -⟩ := share_bounds TP FP hN0
  have hE0 : 0 ≤ fl (1 - fl ((TP : Rat) / (TP + FP))) := fl_nonneg (by linarith)
  refine ⟨⟨_, _, _, w2 h5, v1, v2, ?_, ?_⟩, _, _, w1 h5, v3 (by omega), ?_⟩
  · apply fl_mono
    rw [fl_add_nat (n := tp' + fp') (by omega) rfl, fl_nat (by omega : tp ≤ 2 ^ 53)]
    refine (core tp' fp' TP FP (by omega) h5 hN hN0).trans ?_
    exact mul_le_mul_of_nonneg_right (by exact_mod_cast h3) hE0
  · apply fl_mono
    apply mul_le_mul_of_nonneg_right _ hE0
    apply fl_mono
    simp
  · exact fl_mono (core_wracc tp fp TP FP tp' fp' h1 h2 h3 h4 h5 hN)

/-- **C74.** In floating point the estimates of Piatetsky-Shapiro do not increase under refinement (any number of rows). -/
theorem C74_monotone (tp fp TP FP tp' fp' : Nat) (h3 : tp' ≤ tp) (h4 : fp' ≤ fp) (h5 : 0 < TP + FP) :
    (∃ a b, Measure.psOE1.computeFl (counts tp' fp' TP FP) = .ok a ∧ Measure.psOE1.computeFl (counts tp fp TP FP) = .ok b ∧ a ≤ b) ∧
    (∃ a b, Measure.psOE2.computeFl (counts tp' fp' TP FP) = .ok a ∧ Measure.psOE2.computeFl (counts tp fp TP FP) = .ok b ∧ a ≤ b) := by
  obtain ⟨-, -, v1, v2, -⟩ := flValues tp fp TP FP h5
  obtain ⟨-, -, w1, w2, -⟩ := flValues tp' fp' TP FP h5
  obtain ⟨-, c1, -⟩ := share_bounds TP FP h5
  have hE0 : 0 ≤ fl (1 - fl ((TP : Rat) / (TP + FP))) := fl_nonneg (by linarith)
  have h3 : (tp' : Rat) ≤ tp := by exact_mod_cast h3
  have h4 : (fp' : Rat) ≤ fp := by exact_mod_cast h4
  refine ⟨⟨_, _, w1, v1, ?_⟩, _, _, w2, v2, ?_⟩
  · exact fl_mono (mul_le_mul_of_nonneg_right (fl_mono (by linarith)) hE0)
  · exact fl_mono (mul_le_mul_of_nonneg_right (fl_mono h3) hE0)

/-- two of 7 positives and one of 4 negatives: the value is not the exact one (1/121) -/
example : Measure.wracc.computeFl (counts 2 1 7 4) = .ok (4764138448788619 / 576460752303423488) ∧ Measure.wracc.compute (counts 2 1 7 4) = .ok (1 / 121) := by
  decide +kernel

/-! ## C75: what the measures depend on, ranges and identities -/

theorem computeFl_only_needed (m : Measure) (d e : Params) (h : ∀ k ∈ needs m, d.lookup k = e.lookup k) :
    m.computeFl d = m.computeFl e := by
  have g : ∀ k ∈ needs m, getParam d k = getParam e k := by
    intro k hk; unfold getParam; rw [h k hk]
  cases m <;> simp only [needs, List.mem_cons, List.not_mem_nil, or_false, forall_eq_or_imp, forall_eq] at g <;>
    simp only [Measure.computeFl, Float64.support, Float64.coverage, Float64.absoluteWracc, Float64.wracc, Float64.ppv, Float64.npv,
      Float64.sensitivity, Float64.specificity, Float64.f1, Float64.irr, Float64.youden, Float64.qg, Float64.piatetskyShapiro,
      Float64.psOE1, Float64.psOE2, Float64.wraccOE1, g]

/-- **C75.** In floating point too the outcome depends only on the parameters needed. -/
theorem C75_only_needed (m : Measure) (d e : Params) (h : ∀ k ∈ needs m, d.lookup k = e.lookup k) :
    m.computeFl d = m.computeFl e := computeFl_only_needed m d e h

/-- the measures that are one quotient -/
def quotients : List Measure := [.support, .coverage, .ppv, .npv, .sensitivity, .specificity, .f1, .qg]

theorem div_pyDiv (a b : Rat) : Float64.div a b = (pyDiv a b).map fl := by
  unfold Float64.div pyDiv; split <;> rfl

/-- **C75.** Support, Coverage, PPV, NPV, Sensitivity, Specificity, F1 and Qg are correctly rounded: on every dictionary the value in floating
point is the float nearest to the exact value. -/
theorem C75_correctly_rounded (m : Measure) (hm : m ∈ quotients) (d : Params) (x : Rat) (hx : m.compute d = .ok x) :
    ∃ y, m.computeFl d = .ok y ∧ IsRounding x y := by
  refine ⟨fl x, ?_, fl_isRounding x⟩
  have key : m.computeFl d = (m.compute d).map fl := by
    simp only [quotients, List.mem_cons, List.not_mem_nil, or_false] at hm
    have hb : ∀ {α : Type} (y : Except PyErr α) (f : α → Except PyErr Rat), (y >>= f).map fl = y >>= fun a => (f a).map fl := by
      intro α y f; cases y <;> rfl
    rcases hm with rfl | rfl | rfl | rfl | rfl | rfl | rfl | rfl <;>
      simp only [Measure.computeFl, Measure.compute, Float64.support, Quality.support, Float64.coverage, Quality.coverage, Float64.ppv, Quality.ppv,
        Float64.npv, Quality.npv, Float64.sensitivity, Quality.sensitivity, Float64.specificity, Quality.specificity, Float64.f1, Quality.f1,
        Float64.qg, Quality.qg, div_pyDiv, hb]
  rw [key, hx]; rfl

/-- **C75.** Identities that hold exactly between the floats: AbsoluteWRAcc is the absolute value of WRAcc; Youden is Sensitivity plus
Specificity, minus 1, each operation rounded; IRR is PPV minus 1, plus Specificity. -/
theorem C75_identities (d : Params) :
    (Measure.absoluteWracc.computeFl d = (Measure.wracc.computeFl d).map (fun w => |w|)) ∧
    (∀ y, Measure.youden.computeFl d = .ok y → ∃ s t, Measure.sensitivity.computeFl d = .ok s ∧ Measure.specificity.computeFl d = .ok t ∧
      y = fl (fl (s + t) - 1)) ∧
    (∀ y, Measure.irr.computeFl d = .ok y → ∃ s t, Measure.ppv.computeFl d = .ok s ∧ Measure.specificity.computeFl d = .ok t ∧
      y = fl (fl (s - 1) + t)) := by
  refine ⟨?_, ?_, ?_⟩
  · simp only [Measure.computeFl, Float64.absoluteWracc]
    cases Float64.wracc d <;> rfl
  · intro y
    simp only [Measure.computeFl, Float64.youden, Float64.sensitivity, Float64.specificity]
    cases h1 : getParam d kTp <;> cases h2 : getParam d kFp <;> cases h3 : getParam d kTP <;> cases h4 : getParam d kFP <;>
      simp only [bind, Except.bind, pure, Except.pure, reduceCtorEq, false_imp_iff, add, sub]
    rename_i tp fp TP FP
    cases h5 : Float64.div tp TP <;> cases h6 : Float64.div (FP - fp) FP <;> simp
    intro h; exact h.symm
  · intro y
    simp only [Measure.computeFl, Float64.irr, Float64.ppv, Float64.specificity]
    cases h1 : getParam d kTp <;> cases h2 : getParam d kFp <;> cases h4 : getParam d kFP <;>
      simp only [bind, Except.bind, pure, Except.pure, reduceCtorEq, false_imp_iff, add, sub]
    rename_i tp fp FP
    cases h5 : Float64.div tp (tp + fp) <;> cases h6 : Float64.div (FP - fp) FP <;> simp
    intro h; exact h.symm

/-! ## rounding errors -/

theorem fl_unit {q : Rat} (h : |q| ≤ 1) : |fl q| ≤ 1 := by
  obtain ⟨h1, h2⟩ := abs_le.1 h
  rw [abs_le]
  constructor
  · have := fl_mono h1
    rwa [fl_neg, fl_one] at this
  · exact fl_le_one h2

theorem fl_unit_error {q : Rat} (h : |q| ≤ 1) : |fl q - q| ≤ u :=
  (fl_abs q).trans (by nlinarith [u_pos])

theorem fl01 {q : Rat} (h0 : 0 ≤ q) (h1 : q ≤ 1) : 0 ≤ fl q ∧ fl q ≤ 1 := ⟨fl_nonneg h0, fl_le_one h1⟩

/-- the difference of two rounded shares -/
theorem err_diff {b c : Rat} (b0 : 0 ≤ b) (b1 : b ≤ 1) (c0 : 0 ≤ c) (c1 : c ≤ 1) :
    |fl (fl b - fl c) - (b - c)| ≤ 3 * u ∧ |fl (fl b - fl c)| ≤ 1 := by
  have hb := fl_unit_error (q := b) (by rw [abs_of_nonneg b0]; exact b1)
  have hc := fl_unit_error (q := c) (by rw [abs_of_nonneg c0]; exact c1)
  have fb := fl01 b0 b1
  have fc := fl01 c0 c1
  have hd : |fl b - fl c| ≤ 1 := by rw [abs_le]; constructor <;> linarith
  have he := fl_unit_error hd
  refine ⟨?_, fl_unit hd⟩
  rw [abs_le] at *
  constructor <;> linarith

/-- rounded WRAcc against exact WRAcc -/
theorem err_wracc {a b c : Rat} (a0 : 0 ≤ a) (a1 : a ≤ 1) (b0 : 0 ≤ b) (b1 : b ≤ 1) (c0 : 0 ≤ c) (c1 : c ≤ 1) :
    |fl (fl a * fl (fl b - fl c)) - a * (b - c)| ≤ 5 * u := by
  obtain ⟨h1, h2⟩ := err_diff b0 b1 c0 c1
  set D := fl (fl b - fl c) with hD
  have ha := fl_unit_error (q := a) (by rw [abs_of_nonneg a0]; exact a1)
  have fa := fl01 a0 a1
  have hp : |fl a * D| ≤ 1 := by
    rw [abs_mul, abs_of_nonneg fa.1]
    exact mul_le_one₀ fa.2 (abs_nonneg _) h2
  have he := fl_unit_error hp
  have hd : |b - c| ≤ 1 := by rw [abs_le]; constructor <;> linarith
  have e : fl a * D - a * (b - c) = fl a * (D - (b - c)) + (fl a - a) * (b - c) := by ring
  have k1 : |fl a * (D - (b - c))| ≤ 3 * u := by
    rw [abs_mul, abs_of_nonneg fa.1]
    calc fl a * |D - (b - c)| ≤ 1 * |D - (b - c)| := mul_le_mul_of_nonneg_right fa.2 (abs_nonneg _)
      _ ≤ _ := by rw [one_mul]; exact h1
  have k2 : |(fl a - a) * (b - c)| ≤ u := by
    rw [abs_mul]
    calc |fl a - a| * |b - c| ≤ |fl a - a| * 1 := mul_le_mul_of_nonneg_left hd (abs_nonneg _)
      _ ≤ _ := by rw [mul_one]; exact ha
  have k3 : |fl a * D - a * (b - c)| ≤ 4 * u := by
    rw [e]; exact (abs_add_le _ _).trans (by linarith)
  rw [abs_le] at he k3 ⊢
  constructor <;> linarith

end Verif
