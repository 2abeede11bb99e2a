import Verif.Model.Selector
import Verif.Lemmas.Str
import Mathlib.Data.Prod.Lex
import Mathlib.Data.Sum.Order
import Mathlib.Data.List.Lex
import Mathlib.Data.Char
import Mathlib.Algebra.Order.Ring.Rat
/-! A linear order that the comparison methods of `Selector` follow on homogeneous selectors. -/
namespace Verif

theorem strLt_iff (a b : Str) : strLt a b = true ↔ a < b := by
  induction a generalizing b with
  | nil => cases b <;> simp [strLt]
  | cons x xs ih =>
    cases b with
    | nil => simp [strLt]
    | cons y ys =>
      simp only [strLt]
      split
      · rename_i h; subst h; simp [ih]
      · rename_i h
        simp [List.cons_lt_cons_iff, h]

/-- the order key of a value: texts by code points, numbers by value -/
def Val.key : Val → Str ⊕ₗ Rat
  | .str s => Sum.inlₗ s
  | .int z => Sum.inrₗ (z : Rat)
  | .flt f => Sum.inrₗ f.toRat

abbrev SelKey := Str ×ₗ Nat ×ₗ (Str ⊕ₗ Rat)

/-- the order key of a selector -/
def Selector.key (s : Selector) : SelKey := toLex (s.attr, toLex (s.op.value, s.val.key))

theorem Op.value_inj {a b : Op} (h : a.value = b.value) : a = b := by
  cases a <;> cases b <;> simp_all [Op.value]

theorem Val.eq_iff_key (a b : Val) : a.eq b = true ↔ a.key = b.key := by
  cases a <;> cases b <;> simp [Val.eq, Val.key, Val.num, Sum.inlₗ, Sum.inrₗ]

theorem Selector.eq_iff_key (a b : Selector) : a.eq b = true ↔ a.key = b.key := by
  simp [Selector.eq, Selector.key, Op.eq, Val.eq_iff_key, and_assoc]

theorem Val.lt_iff_key {a b : Val} (h : a.isStr = b.isStr) :
    (match a.lt? b with | .ok r => r | .error _ => strLt a.pyStr b.pyStr) = true ↔ a.key < b.key := by
  cases a <;> cases b <;> simp_all [Val.isStr, Val.lt?, Val.key, Val.num, strLt_iff] <;>
    exact decide_eq_true_iff

theorem Selector.lt_iff_key {a b : Selector} (h : a.attr = b.attr → a.op = b.op → a.val.isStr = b.val.isStr) :
    a.lt b = true ↔ a.key < b.key := by
  unfold Selector.lt Selector.key
  rw [Prod.Lex.toLex_lt_toLex]
  simp only
  by_cases h1 : a.attr = b.attr
  · simp only [h1, lt_irrefl, true_and, false_or, ne_eq, not_true, if_false]
    rw [Prod.Lex.toLex_lt_toLex]
    simp only
    by_cases h2 : a.op = b.op
    · simp only [h2, lt_irrefl, true_and, false_or, Op.ne, bne_self_eq_false, Bool.false_eq_true, if_false]
      by_cases h3 : a.val.eq b.val = true
      · simp only [h3]
        have := (Val.eq_iff_key _ _).1 h3
        simp [this]
      · simp only [Bool.not_eq_true] at h3
        simp only [h3, Bool.not_false, if_true]
        exact Val.lt_iff_key (h h1 h2)
    · have : a.op.value ≠ b.op.value := fun h => h2 (Op.value_inj h)
      simp [Op.ne, this, Op.lt]
  · simp [h1, strLt_iff]

theorem Val.strLe_iff (a b : Str) : Selector.strLe a b = !(strLt b a) := by
  unfold Selector.strLe
  by_cases h : a = b
  · subst h; simp [strLt_irrefl]
  · rcases strLt_total h with h1 | h1
    · simp [h1, strLt_asymm h1]
    · simp [h1, strLt_asymm h1, h]

theorem Val.eq_comm (a b : Val) : a.eq b = b.eq a := by
  rw [Bool.eq_iff_iff, Val.eq_iff_key, Val.eq_iff_key, _root_.eq_comm]

theorem Selector.gt_eq (a b : Selector) : a.gt b = b.lt a := by
  unfold Selector.gt Selector.lt
  simp only [ne_comm (a := b.attr), Op.ne, bne_comm (a := b.op.value), Val.eq_comm b.val, Op.gt, Op.lt, gt_iff_lt]

theorem decLe_eq (x y : Rat) : decide (x ≤ y) = !decide (y < x) := by
  rw [Bool.eq_iff_iff, Bool.not_eq_true', decide_eq_true_iff, decide_eq_false_iff_not, not_lt]

theorem decLt_asymm {x y : Rat} (h : decide (x < y) = true) : decide (y < x) = false := by
  rw [decide_eq_false_iff_not, not_lt]
  exact le_of_lt (of_decide_eq_true h)

theorem Selector.le_eq (a b : Selector) : a.le b = !(b.lt a) := by
  unfold Selector.le Selector.lt
  simp only [ne_comm (a := b.attr), Op.ne, bne_comm (a := b.op.value), Val.eq_comm b.val, Op.le, Op.lt]
  by_cases h1 : a.attr = b.attr
  · by_cases h2 : a.op.value = b.op.value
    · by_cases h3 : a.val.eq b.val = true
      · simp [h1, h2, h3]
      · simp only [h1, h2, h3]
        revert h3
        cases ha : a.val <;> cases hb : b.val <;>
          simp [Val.eq, Val.le?, Val.lt?, Val.strLe_iff, ← Selector.strLe.eq_1]
        all_goals exact fun _ => decLe_eq _ _
    · by_cases h4 : b.op.value < a.op.value
      · simp [h1, h2, h4]
      · simp [h1, h2, h4]; omega
  · simp [h1, Val.strLe_iff]

theorem Selector.ge_eq (a b : Selector) : a.ge b = !(a.lt b) := by
  have : a.ge b = b.le a := by
    unfold Selector.ge Selector.le
    simp only [ne_comm (a := b.attr), Op.ne, bne_comm (a := b.op.value), Val.eq_comm b.val, Op.le, Op.ge, ge_iff_le]
  rw [this, Selector.le_eq]

theorem Selector.ne_eq (a b : Selector) : a.ne b = !(a.eq b) := by
  unfold Selector.ne Selector.eq
  simp [Op.eq, Op.ne, bne]

theorem Selector.lt_irrefl (a : Selector) : a.lt a = false := by
  have h : a.val.eq a.val = true := by rw [Val.eq_iff_key]
  unfold Selector.lt
  simp [Op.ne, h]

theorem Selector.lt_asymm {a b : Selector} (h : a.lt b = true) : b.lt a = false := by
  revert h
  unfold Selector.lt
  simp only [ne_comm (a := b.attr), Op.ne, bne_comm (a := b.op.value), Val.eq_comm b.val, Op.lt]
  by_cases h1 : a.attr = b.attr
  · by_cases h2 : a.op.value = b.op.value
    · by_cases h3 : a.val.eq b.val = true
      · simp [h1, h2, h3]
      · simp only [h1, h2, h3]
        cases ha : a.val <;> cases hb : b.val <;> simp [Val.lt?, Val.num] <;>
          first | exact strLt_asymm | exact decLt_asymm | exact Int.le_of_lt
    · simp [h1, h2]; omega
  · simp [h1]; exact strLt_asymm

end Verif
