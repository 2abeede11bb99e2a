import Verif.Spec.Quality
import Verif.Props.Pattern
import Mathlib.Tactic.FieldSimp
import Mathlib.Tactic.Linarith
import Mathlib.Tactic.Ring
/-! C15: what the quality measures compute, and when they fail. -/
namespace Verif
open Spec

theorem pyDiv_zero (a : Rat) {b : Rat} (h : b = 0) : pyDiv a b = .error .zeroDivisionError := by simp [pyDiv, h]
theorem pyDiv_ne (a : Rat) {b : Rat} (h : b ≠ 0) : pyDiv a b = .ok (a / b) := by simp [pyDiv, h]
theorem getParam_some {d : Params} {k : Str} {v : Rat} (h : d.lookup k = some v) : getParam d k = .ok v := by
  simp [getParam, h]
theorem getParam_none {d : Params} {k : Str} (h : d.lookup k = none) : getParam d k = .error .parameterNotFound := by
  simp [getParam, h]

/-- C15: when the needed parameters are present, the result is the textbook formula if no denominator vanishes, and
`ZeroDivisionError` if one does. -/
theorem C15_value (m : Measure) (d : Params) (v : Str → Rat) (hv : ∀ k ∈ needs m, d.lookup k = some (v k)) :
    (m.compute d = .error .zeroDivisionError ↔ (0 : Rat) ∈ denoms m v) ∧
    ((0 : Rat) ∉ denoms m v → m.compute d = .ok (formula m v)) := by
  cases m <;> simp only [needs, List.mem_cons, List.not_mem_nil, or_false, forall_eq_or_imp, forall_eq] at hv
  case support =>
    obtain ⟨h1, h3, h4⟩ := hv
    simp only [Measure.compute, Quality.support, getParam_some h1, getParam_some h3, getParam_some h4, bind, Except.bind,
      denoms, formula]
    by_cases h : v kTP + v kFP = 0 <;> simp [pyDiv, h, @eq_comm Rat 0]
  case coverage =>
    obtain ⟨h1, h2, h3, h4⟩ := hv
    simp only [Measure.compute, Quality.coverage, getParam_some h1, getParam_some h2, getParam_some h3, getParam_some h4,
      bind, Except.bind, denoms, formula]
    by_cases h : v kTP + v kFP = 0 <;> simp [pyDiv, h, @eq_comm Rat 0]
  case wracc =>
    obtain ⟨h1, h2, h3, h4⟩ := hv
    simp only [Measure.compute, Quality.wracc, getParam_some h1, getParam_some h2, getParam_some h3, getParam_some h4,
      bind, Except.bind, denoms, formula]
    by_cases h : v kTP + v kFP = 0 <;> by_cases h' : v kTp + v kFp = 0 <;> simp [pyDiv, h, h', pure, Except.pure, @eq_comm Rat 0]
    field_simp
  case absoluteWracc =>
    obtain ⟨h1, h2, h3, h4⟩ := hv
    simp only [Measure.compute, Quality.absoluteWracc, Quality.wracc, getParam_some h1, getParam_some h2,
      getParam_some h3, getParam_some h4, bind, Except.bind, denoms, formula]
    by_cases h : v kTP + v kFP = 0 <;> by_cases h' : v kTp + v kFp = 0 <;> simp [pyDiv, h, h', pure, Except.pure, @eq_comm Rat 0]
    rw [← abs_mul]
    congr 1
    field_simp
  case ppv =>
    obtain ⟨h1, h2⟩ := hv
    simp only [Measure.compute, Quality.ppv, getParam_some h1, getParam_some h2, bind, Except.bind, denoms, formula]
    by_cases h : v kTp + v kFp = 0 <;> simp [pyDiv, h, @eq_comm Rat 0]
  case npv =>
    obtain ⟨h1, h2, h3, h4⟩ := hv
    have e : v kFP - v kFp + v kTP - v kTp = (v kTP - v kTp) + (v kFP - v kFp) := by ring
    simp only [Measure.compute, Quality.npv, getParam_some h1, getParam_some h2, getParam_some h3, getParam_some h4,
      bind, Except.bind, denoms, formula, e]
    by_cases h : (v kTP - v kTp) + (v kFP - v kFp) = 0 <;> simp [pyDiv, h, @eq_comm Rat 0, add_comm]
  case sensitivity =>
    obtain ⟨h1, h3⟩ := hv
    simp only [Measure.compute, Quality.sensitivity, getParam_some h1, getParam_some h3, bind, Except.bind, denoms, formula]
    by_cases h : v kTP = 0 <;> simp [pyDiv, h, @eq_comm Rat 0]
  case specificity =>
    obtain ⟨h2, h4⟩ := hv
    simp only [Measure.compute, Quality.specificity, getParam_some h2, getParam_some h4, bind, Except.bind, denoms, formula]
    by_cases h : v kFP = 0 <;> simp [pyDiv, h, @eq_comm Rat 0]
  case f1 =>
    obtain ⟨h1, h2, h3⟩ := hv
    simp only [Measure.compute, Quality.f1, getParam_some h1, getParam_some h2, getParam_some h3, bind, Except.bind,
      denoms, formula]
    by_cases h : v kTp + v kFp + v kTP = 0 <;> simp [pyDiv, h, @eq_comm Rat 0]
    field_simp
  case irr =>
    obtain ⟨h1, h2, h4⟩ := hv
    simp only [Measure.compute, Quality.irr, getParam_some h1, getParam_some h2, getParam_some h4, bind, Except.bind,
      denoms, formula]
    by_cases h : v kFP = 0 <;> by_cases h' : v kTp + v kFp = 0 <;> simp [pyDiv, h, h', pure, Except.pure, @eq_comm Rat 0]
    field_simp
    ring
  case youden =>
    obtain ⟨h1, h2, h3, h4⟩ := hv
    simp only [Measure.compute, Quality.youden, getParam_some h1, getParam_some h2, getParam_some h3, getParam_some h4,
      bind, Except.bind, denoms, formula]
    by_cases h : v kTP = 0 <;> by_cases h' : v kFP = 0 <;> simp [pyDiv, h, h', pure, Except.pure, @eq_comm Rat 0]
    field_simp
    ring
  case qg =>
    obtain ⟨h1, h2, h3⟩ := hv
    simp only [Measure.compute, Quality.qg, getParam_some h1, getParam_some h2, getParam_some h3, bind, Except.bind,
      denoms, formula]
    by_cases h : v kFp + v kG = 0 <;> simp [pyDiv, h, @eq_comm Rat 0]
  case piatetskyShapiro =>
    obtain ⟨h1, h2, h3, h4⟩ := hv
    simp only [Measure.compute, Quality.piatetskyShapiro, getParam_some h1, getParam_some h2, getParam_some h3,
      getParam_some h4, bind, Except.bind, denoms, formula]
    by_cases h : v kTP + v kFP = 0 <;> by_cases h' : v kTp + v kFp = 0 <;> simp [pyDiv, h, h', pure, Except.pure, @eq_comm Rat 0]
    field_simp
  case psOE1 =>
    obtain ⟨h1, h2, h3, h4⟩ := hv
    simp only [Measure.compute, Quality.psOE1, getParam_some h1, getParam_some h2, getParam_some h3,
      getParam_some h4, bind, Except.bind, denoms, formula]
    by_cases h : v kTP + v kFP = 0 <;> simp [pyDiv, h, pure, Except.pure, @eq_comm Rat 0]
    field_simp
    ring_nf
    simp
  case psOE2 =>
    obtain ⟨h1, h3, h4⟩ := hv
    simp only [Measure.compute, Quality.psOE2, getParam_some h1, getParam_some h3,
      getParam_some h4, bind, Except.bind, denoms, formula]
    by_cases h : v kTP + v kFP = 0 <;> simp [pyDiv, h, pure, Except.pure, @eq_comm Rat 0]
    field_simp
    ring_nf
    simp
  case wraccOE1 =>
    obtain ⟨h1, h2, h3, h4⟩ := hv
    simp only [Measure.compute, Quality.wraccOE1, getParam_some h1, getParam_some h2, getParam_some h3,
      getParam_some h4, bind, Except.bind, denoms, formula]
    by_cases h : v kTP + v kFP = 0 <;> by_cases h' : v kTp + v kFp = 0 <;> simp [pyDiv, h, h', pure, Except.pure, @eq_comm Rat 0]
    field_simp
    ring

/-- C15: the missing-parameter error is raised exactly when a needed parameter is absent. -/
theorem C15_missing (m : Measure) (d : Params) :
    m.compute d = .error .parameterNotFound ↔ ∃ k ∈ needs m, d.lookup k = none := by
  by_cases hall : ∀ k ∈ needs m, d.lookup k = some ((d.lookup k).getD 0)
  · have hno : ¬ ∃ k ∈ needs m, d.lookup k = none := by
      rintro ⟨k, hk, h⟩
      have := hall k hk
      rw [h] at this
      cases this
    obtain ⟨h1, h2⟩ := C15_value m d _ hall
    refine ⟨fun h => ?_, fun h => absurd h hno⟩
    by_cases h0 : (0 : Rat) ∈ denoms m (fun k => (d.lookup k).getD 0)
    · rw [h1.2 h0] at h; cases h
    · rw [h2 h0] at h; cases h
  · have hex : ∃ k ∈ needs m, d.lookup k = none := by
      by_contra hc
      apply hall
      intro k hk
      cases h : d.lookup k with
      | none => exact absurd ⟨k, hk, h⟩ hc
      | some x => rfl
    refine ⟨fun _ => hex, fun _ => ?_⟩
    have key : ∀ (k : Str), getParam d k = .error .parameterNotFound ∨ ∃ v, getParam d k = .ok v := by
      intro k
      cases h : d.lookup k with
      | none => exact .inl (getParam_none h)
      | some x => exact .inr ⟨x, getParam_some h⟩
    obtain ⟨k, hk, hn⟩ := hex
    have hk' := getParam_none hn
    cases m <;> simp only [needs, List.mem_cons, List.not_mem_nil, or_false] at hk <;>
      simp only [Measure.compute, Quality.support, Quality.coverage, Quality.wracc, Quality.absoluteWracc, Quality.ppv,
        Quality.npv, Quality.sensitivity, Quality.specificity, Quality.f1, Quality.irr, Quality.youden, Quality.qg,
        Quality.piatetskyShapiro, Quality.psOE1, Quality.psOE2, Quality.wraccOE1, bind, Except.bind] <;>
      rcases key kTp with h1 | ⟨v1, h1⟩ <;> rcases key kFp with h2 | ⟨v2, h2⟩ <;>
      rcases key kTP with h3 | ⟨v3, h3⟩ <;> rcases key kFP with h4 | ⟨v4, h4⟩ <;>
      rcases key kG with h5 | ⟨v5, h5⟩ <;> simp only [h1, h2, h3, h4, h5] <;>
      (exfalso; (casesm* _ ∨ _) <;> subst_vars <;> simp_all)


/-- C15: the result depends only on the needed parameters (the outcome, errors included). -/
theorem C15_only_needed (m : Measure) (d e : Params) (h : ∀ k ∈ needs m, d.lookup k = e.lookup k) :
    m.compute d = m.compute e := by
  by_cases hall : ∀ k ∈ needs m, d.lookup k ≠ none
  · have hd : ∀ k ∈ needs m, d.lookup k = some ((d.lookup k).getD 0) := by
      intro k hk
      cases hh : d.lookup k with
      | none => exact absurd hh (hall k hk)
      | some x => rfl
    have he : ∀ k ∈ needs m, e.lookup k = some ((d.lookup k).getD 0) := fun k hk => by rw [← h k hk, ← hd k hk]
    obtain ⟨d1, d2⟩ := C15_value m d _ hd
    obtain ⟨e1, e2⟩ := C15_value m e _ he
    by_cases h0 : (0 : Rat) ∈ denoms m (fun k => (d.lookup k).getD 0)
    · rw [d1.2 h0, e1.2 h0]
    · rw [d2 h0, e2 h0]
  · have hx : ∃ k ∈ needs m, d.lookup k = none := by
      by_contra hc
      exact hall fun k hk hn => hc ⟨k, hk, hn⟩
    have hy : ∃ k ∈ needs m, e.lookup k = none := by
      obtain ⟨k, hk, hn⟩ := hx
      exact ⟨k, hk, by rw [← h k hk, hn]⟩
    rw [(C15_missing m d).2 hx, (C15_missing m e).2 hy]

example : (∃ d, Measure.wracc.compute d = .error .parameterNotFound) ∧
    (∃ d, Measure.wracc.compute d = .error .zeroDivisionError) ∧ (∃ d x, Measure.wracc.compute d = .ok x ∧ x ≠ 0) :=
  ⟨⟨[], by decide +kernel⟩, ⟨[(kTp, 0), (kFp, 0), (kTP, 2), (kFP, 2)], by decide +kernel⟩,
    ⟨[(kTp, 2), (kFp, 0), (kTP, 2), (kFP, 2)], 1/4, by decide +kernel, by decide +kernel⟩⟩

end Verif
