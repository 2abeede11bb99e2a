import Verif.Lemmas.MDLKraft
/-! C46: the code with a maximum is a proper code. -/
namespace Verif.MDL
open Verif.Spec Finset

/-- **C46.** The code with a maximum is a proper code for every maximum up to `2^(2^65536)`: the lengths for `1..max` are defined, not longer than the universal ones,
and Kraft's inequality is an equality. -/
theorem C46_kraft (max : Nat) (h1 : 1 ≤ max) (h2 : max ≤ 2 ^ (2 ^ 65536)) :
    ∃ M : Nat → ℝ, (∀ n, 1 ≤ n → n ≤ max → codeWithMaximum n max = .ok (some (M n)) ∧ M n ≤ universalCode n) ∧
      ∑ i ∈ range max, (2 : ℝ) ^ (-M (i + 1)) = 1 := by
  obtain ⟨M, a, b⟩ := C46_code_with_maximum.2 code max h1 returns_code (left_nonneg max h2)
  exact ⟨M, fun n p q => ⟨(a n p q).1, by rw [← code_eq]; exact (a n p q).2⟩, b⟩

/-- a concrete maximum -/
example : ∃ M : Nat → ℝ, (∀ n, 1 ≤ n → n ≤ 1000 → codeWithMaximum n 1000 = .ok (some (M n)) ∧ M n ≤ universalCode n) ∧
    ∑ i ∈ range 1000, (2 : ℝ) ^ (-M (i + 1)) = 1 :=
  C46_kraft 1000 (by norm_num) ((by norm_num : 1000 ≤ 2 ^ 10).trans
    (Nat.pow_le_pow_right (by norm_num) ((by norm_num : 10 ≤ 2 ^ 4).trans (Nat.pow_le_pow_right (by norm_num) (by norm_num)))))

end Verif.MDL
