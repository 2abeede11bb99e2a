import Verif.Spec.Credibility
import Verif.Lemmas.Pattern
import Mathlib.Tactic
/-! Facts about the extended numbers and the credibility measures. -/
namespace Verif
open Spec

namespace XF

theorem le_iff (a b : XF) : a.le b = true ↔ Le a b := by
  constructor
  · intro h
    cases a <;> cases b <;> simp [le] at h <;> first | exact .fin h | exact .inf (by simp) | exact .ninf (by simp)
  · intro h
    cases h with
    | fin h => simpa [le]
    | ninf h => revert h; cases b <;> simp [le]
    | inf h => revert h; cases a <;> simp [le]

theorem lt_iff {a b : XF} (ha : a ≠ nan) (hb : b ≠ nan) : a.lt b = true ↔ ¬ (b.le a = true) := by
  cases a <;> cases b <;> simp_all [lt, le]

theorem le_refl {a : XF} (h : a ≠ nan) : a.le a = true := by cases a <;> simp_all [le]
theorem le_trans {a b c : XF} (h1 : a.le b = true) (h2 : b.le c = true) : a.le c = true := by
  cases a <;> cases b <;> cases c <;> simp_all [le]
  exact _root_.le_trans h1 h2
theorem le_total {a b : XF} (ha : a ≠ nan) (hb : b ≠ nan) : a.le b = true ∨ b.le a = true := by
  cases a <;> cases b <;> simp_all [le]
  exact _root_.le_total _ _
theorem le_antisymm {a b : XF} (h1 : a.le b = true) (h2 : b.le a = true) : a = b := by
  cases a <;> cases b <;> simp_all [le]
  exact _root_.le_antisymm h1 h2
theorem ne_nan_of_le {a b : XF} (h : a.le b = true) : a ≠ nan ∧ b ≠ nan := by
  cases a <;> cases b <;> simp_all [le]
theorem lt_irrefl (a : XF) : a.lt a = false := by cases a <;> simp [lt]
theorem lt_le {a b : XF} (h : a.lt b = true) : a.le b = true := by
  cases a <;> cases b <;> simp_all [lt, le]
  exact h.le
theorem lt_nan (a : XF) : a.lt nan = false := by cases a <;> rfl
theorem nan_lt (a : XF) : nan.lt a = false := by cases a <;> rfl
theorem le_inf {a : XF} (h : a ≠ nan) : a.le inf = true := by cases a <;> simp_all [le]
theorem ninf_le {a : XF} (h : a ≠ nan) : ninf.le a = true := by cases a <;> simp_all [le]
theorem lt_of_lt_of_le {a b c : XF} (h1 : a.lt b = true) (h2 : b.le c = true) : a.lt c = true := by
  cases a <;> cases b <;> cases c <;> simp_all [lt, le]
  exact _root_.lt_of_lt_of_le h1 h2
theorem lt_of_le_of_lt {a b c : XF} (h1 : a.le b = true) (h2 : b.lt c = true) : a.lt c = true := by
  cases a <;> cases b <;> cases c <;> simp_all [lt, le]
  exact _root_.lt_of_le_of_lt h1 h2
theorem not_lt_of_le {a b : XF} (h1 : a.le b = true) : b.lt a = false := by
  cases a <;> cases b <;> simp_all [lt, le]

end XF

namespace Bits

theorem getD_eq_false_of_le {a : Bits} {i : Nat} (h : a.length ≤ i) : a.getD i false = false := by
  simp [List.getD, List.getElem?_eq_none h]

/-- bit `i` of the aligned conjunction -/
theorem alignAnd_getD (a b : Bits) (i : Nat) : (a.alignAnd b).getD i false = (a.getD i false && b.getD i false) := by
  by_cases h : i < max a.length b.length
  · simp [alignAnd, List.getD, h]
  · have h1 : a.length ≤ i := by omega
    rw [getD_eq_false_of_le h1]
    simp only [alignAnd, Bool.false_and]
    apply getD_eq_false_of_le
    simpa [alignAnd] using h

theorem alignAnd_length (a b : Bits) : (a.alignAnd b).length = max a.length b.length := by simp [alignAnd]

theorem ones_eq (a : Bits) : a.ones = ((List.range a.length).filter (fun i => a.getD i false)).length := by
  induction a using List.reverseRecOn with
  | nil => rfl
  | append_singleton l x ih =>
    have h1 : Bits.ones (l ++ [x]) = Bits.ones l + (if x then 1 else 0) := by
      cases x <;> simp [ones, List.count_append]
    rw [h1, ih, List.length_append, List.length_singleton, List.range_succ, List.filter_append, List.length_append]
    congr 1
    · congr 1
      apply List.filter_congr
      intro i hi
      have := List.mem_range.1 hi
      simp [List.getD, List.getElem?_append_left this]
    · cases x <;> simp

end Bits

end Verif
