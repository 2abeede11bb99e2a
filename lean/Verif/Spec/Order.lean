/-! Specification vocabulary for comparison methods. -/
namespace Verif.Spec

/-- The six comparison methods, restricted to the objects of `S`, are those of one total order whose equality is `eq`. -/
structure TotalOrder {α : Type} (S : α → Prop) (eq ne lt gt le ge : α → α → Bool) : Prop where
  eq_refl : ∀ a, S a → eq a a = true
  eq_symm : ∀ a b, S a → S b → eq a b = true → eq b a = true
  eq_trans : ∀ a b c, S a → S b → S c → eq a b = true → eq b c = true → eq a c = true
  ne_iff : ∀ a b, S a → S b → ne a b = !eq a b
  lt_irrefl : ∀ a, S a → lt a a = false
  lt_trans : ∀ a b c, S a → S b → S c → lt a b = true → lt b c = true → lt a c = true
  /-- equal objects compare the same way with everything -/
  lt_congr : ∀ a a' b b', S a → S a' → S b → S b' → eq a a' = true → eq b b' = true → lt a b = lt a' b'
  /-- exactly one of `<`, `==`, `>` -/
  trichotomy : ∀ a b, S a → S b →
    (lt a b = true ∧ eq a b = false ∧ gt a b = false) ∨
    (lt a b = false ∧ eq a b = true ∧ gt a b = false) ∨
    (lt a b = false ∧ eq a b = false ∧ gt a b = true)
  gt_iff : ∀ a b, S a → S b → gt a b = lt b a
  le_iff : ∀ a b, S a → S b → le a b = !gt a b
  ge_iff : ∀ a b, S a → S b → ge a b = !lt a b

end Verif.Spec
