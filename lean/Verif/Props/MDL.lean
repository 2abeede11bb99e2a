import Verif.Lemmas.MDLCode
import Verif.Lemmas.Multinomial
/-! C46: the code lengths of `utils/mdl.py`. -/
namespace Verif.MDL
open Verif.Spec Finset

/-- `universal_code_for_integer(n)` returns `r`: with enough iterations of its loop the call ends with `r`, and then the
number of iterations granted does not matter -/
def Returns (n : Int) (r : ℝ) : Prop := ∃ F, ∀ fuel, F ≤ fuel → universalCodeFuel fuel n = .ok (some r)

theorem returns_code (n : Nat) : Returns n (code n) := ⟨2 * n + 1, fun g hg => universal_code n g hg⟩

theorem returns_unique {n : Int} {r s : ℝ} (h : Returns n r) (h' : Returns n s) : r = s := by
  obtain ⟨F, hF⟩ := h
  obtain ⟨G, hG⟩ := h'
  have := (hF (max F G) (le_max_left _ _)).symm.trans (hG (max F G) (le_max_right _ _))
  injection this with this
  injection this

/-- **C46.** The universal code is defined for every non-negative integer (the loop ends), refused for the others, is 0
for 0 and otherwise the constant plus the iterated logarithms above the threshold. -/
theorem C46_universal_code :
    (∀ (n : Int), n < 0 → ∀ fuel, universalCodeFuel fuel n = .error .valueError) ∧
    (∀ (n : Int), 0 ≤ n → ∃ r, Returns n r ∧ 0 ≤ r ∧ (n = 0 → r = 0) ∧ (0 < n → IsUniversalCode n r)) := by
  constructor
  · intro n hn fuel
    unfold universalCodeFuel
    rw [if_pos hn]
  · intro n hn
    obtain ⟨m, rfl⟩ := Int.eq_ofNat_of_zero_le hn
    refine ⟨code m, returns_code m, code_nonneg m, fun h => ?_, fun h => code_spec m (by omega)⟩
    have : m = 0 := by omega
    subst this
    exact code_zero

/-- **C46.** Larger integers have strictly longer codes. -/
theorem C46_universal_code_strictMono {m n : Int} {r s : ℝ} (hm : 0 ≤ m) (hmn : m < n) (hr : Returns m r)
    (hs : Returns n s) : r < s := by
  obtain ⟨a, rfl⟩ := Int.eq_ofNat_of_zero_le hm
  obtain ⟨b, rfl⟩ := Int.eq_ofNat_of_zero_le (by omega : 0 ≤ n)
  rw [returns_unique hr (returns_code a), returns_unique hs (returns_code b)]
  exact code_lt_succ_of a b (by omega)

/-- the probability not used by the first `max` integers, from the code lengths the calls return -/
noncomputable def Spec.left (L : Nat → ℝ) (max : Nat) : ℝ := 1 - ∑ i ∈ range max, (2 : ℝ) ^ (-L (i + 1))

theorem list_sum_range (f : Nat → ℝ) (m : Nat) : ((List.range m).map f).sum = ∑ i ∈ range m, f i := by
  induction m with
  | zero => rfl
  | succ m ih => rw [List.range_succ, List.map_append, List.sum_append, ih, sum_range_succ]; simp

/-- **C46.** The code with a maximum is a proper code: if the universal codes of `1..max` do not use more than the whole
probability, the lengths for `1..max` are defined, Kraft's inequality is an equality, and no length exceeds the universal
one. A zero maximum is refused. -/
theorem C46_code_with_maximum :
    (∀ (n : Nat), codeWithMaximum n 0 = .error .zeroDivisionError) ∧
    (∀ (L : Nat → ℝ) (max : Nat), 1 ≤ max → (∀ (n : Nat), Returns n (L n)) → 0 ≤ Spec.left L max →
      ∃ M : Nat → ℝ, (∀ n, 1 ≤ n → n ≤ max → codeWithMaximum n max = .ok (some (M n)) ∧ M n ≤ L n) ∧
        ∑ i ∈ range max, (2 : ℝ) ^ (-M (i + 1)) = 1) := by
  constructor
  · intro n; unfold codeWithMaximum; rw [if_pos rfl]
  · intro L max hmax hL hleft
    have e : L = code := funext fun n => returns_unique (hL n) (returns_code n)
    subst e
    have hpl : probabilityLeft max = Spec.left code max := by
      unfold probabilityLeft Spec.left
      rw [list_sum_range]
    have hpos : ∀ n, 0 < probability n max := by
      intro n
      unfold probability
      rw [hpl]
      have h1 : (0 : ℝ) < 2 ^ (-code n) := Real.rpow_pos_of_pos (by norm_num) _
      have h2 : 0 ≤ Spec.left code max / (max : ℝ) := div_nonneg hleft (by positivity)
      linarith
    refine ⟨fun n => -Real.logb 2 (probability n max), fun n _ _ => ⟨?_, ?_⟩, ?_⟩
    · unfold codeWithMaximum
      rw [if_neg (by omega), if_pos (hpos n)]
    · have h2 : 0 ≤ Spec.left code max / (max : ℝ) := div_nonneg hleft (by positivity)
      have h3 : (2 : ℝ) ^ (-code n) ≤ probability n max := by unfold probability; rw [hpl]; linarith
      have h4 := Real.logb_le_logb_of_le (b := 2) (by norm_num) (Real.rpow_pos_of_pos (by norm_num) _) h3
      rw [Real.logb_rpow (by norm_num) (by norm_num)] at h4
      simp only
      linarith
    · have h1 : ∀ i ∈ range max, (2 : ℝ) ^ (-(-Real.logb 2 (probability (i + 1) max))) =
          (2 : ℝ) ^ (-code (i + 1)) + Spec.left code max / max := by
        intro i _
        rw [neg_neg, Real.rpow_logb (by norm_num) (by norm_num) (hpos _)]
        unfold probability
        rw [hpl]
      rw [sum_congr rfl h1, sum_add_distrib, sum_const, card_range, nsmul_eq_mul]
      have hm : (max : ℝ) ≠ 0 := by positivity
      rw [mul_div_cancel₀ _ hm]
      unfold Spec.left
      ring

/-- **C46.** `multinomial_with_recurrence` is, up to a relative error of `10⁻¹⁰`, the stochastic complexity of the
multinomial (defined in `Spec/MDL.lean` as a sum over all distributions of the samples), for any number of categories. -/
theorem C46_multinomial (L n : Nat) (hL : 1 ≤ L) (hn : 1 ≤ n) :
    ∃ c, multinomial L n = .ok c ∧ 1 ≤ c ∧ c ≤ nmlComplexity L n ∧
      (1 - (10 : ℝ)⁻¹ ^ 10) * nmlComplexity L n ≤ c :=
  ⟨_, multinomial_eq L n hL hn, (one_le_mval n L hn hL).1, (mval_precision n L hn hL).1⟩

/-- **C46.** `log2_multinomial_with_recurrence(2, n)` is the base-2 logarithm of the sum `complexityTwo n`, which falls short of the
normalised-maximum-likelihood complexity for two categories by less than one part in `10^10`. -/
theorem C46_complexityTwo (n : Nat) (hn : 1 ≤ n) :
    log2Multinomial 2 n = .ok (Real.logb 2 (complexityTwo n)) ∧ 1 ≤ complexityTwo n ∧
    complexityTwo n ≤ nmlComplexity 2 n ∧ (1 - (10 : ℝ)⁻¹ ^ 10) * nmlComplexity 2 n ≤ complexityTwo n := by
  refine ⟨log2Multinomial_two n hn, ?_⟩
  rw [← mval_two]
  exact ⟨(one_le_mval n 2 hn (by norm_num)).1, (mval_precision n 2 hn (by norm_num)).1⟩

/-- **C46.** The code length used by the subgroup-list rules is the one the calls return. -/
theorem C46_universalCode (n : Nat) : Returns n (Spec.universalCode n) := by
  rw [← code_eq]; exact returns_code n

/-- **C46.** The computed values satisfy the recurrence of the paper exactly. -/
theorem C46_multinomial_recurrence (L n : Nat) (hL : 1 ≤ L) (hn : 1 ≤ n) {a b c : ℝ}
    (ha : multinomial L n = .ok a) (hb : multinomial (L + 1 : Nat) n = .ok b) (hc : multinomial (L + 2 : Nat) n = .ok c) :
    c = b + n / L * a := by
  rw [multinomial_eq _ _ (by omega) hn] at ha hb hc
  cases ha; cases hb; cases hc
  obtain ⟨m, rfl⟩ : ∃ m, L = m + 1 := ⟨L - 1, by omega⟩
  show mval n (m + 2) + n * mval n (m + 1) / ((m + 1 : ℕ) : ℝ) = _
  show _ = mval n (m + 2) + _
  ring

/-- **C46.** The conventions: with one category 1, without samples 0, illegal arguments are refused; the logarithm is
that of the value, 0 without samples, and never negative. -/
theorem C46_multinomial_conventions :
    (∀ (L n : Int), L ≤ 0 ∨ n < 0 → multinomial L n = .error .valueError ∧ log2Multinomial L n = .error .valueError) ∧
    (∀ (n : Int), 0 ≤ n → multinomial 1 n = .ok 1 ∧ log2Multinomial 1 n = .ok 0) ∧
    (∀ (L : Int), 1 < L → multinomial L 0 = .ok 0 ∧ log2Multinomial L 0 = .ok 0) ∧
    (∀ (L n : Int), 1 ≤ L → 1 ≤ n → ∃ c, multinomial L n = .ok c ∧ log2Multinomial L n = .ok (Real.logb 2 c) ∧
      0 ≤ Real.logb 2 c) := by
  refine ⟨fun L n h => ?_, fun n hn => ?_, fun L hL => ?_, fun L n hL hn => ?_⟩
  · have : multinomial L n = .error .valueError := by
      unfold multinomial
      by_cases h1 : L ≤ 0
      · rw [if_pos h1]
      · rw [if_neg h1, if_pos (h.resolve_left h1)]
    exact ⟨this, by unfold log2Multinomial; rw [this]⟩
  · have : multinomial 1 n = .ok 1 := by
      unfold multinomial
      rw [if_neg (by omega), if_neg (by omega), if_pos rfl]
    exact ⟨this, by unfold log2Multinomial; rw [this]; simp⟩
  · have : multinomial L 0 = .ok 0 := by
      unfold multinomial
      rw [if_neg (by omega), if_neg (by omega), if_neg (by omega), if_pos rfl]
    exact ⟨this, by unfold log2Multinomial; rw [this]; simp⟩
  · obtain ⟨a, rfl⟩ := Int.eq_ofNat_of_zero_le (by omega : 0 ≤ L)
    obtain ⟨b, rfl⟩ := Int.eq_ofNat_of_zero_le (by omega : 0 ≤ n)
    have h1 := (one_le_mval b a (by omega) (by omega)).1
    have := multinomial_eq a b (by omega) (by omega)
    refine ⟨_, this, ?_, Real.logb_nonneg (by norm_num) h1⟩
    unfold log2Multinomial
    rw [this]
    simp only
    rw [if_pos (by linarith)]

/-- two categories: the complexity is the well-known sum over the number of positives -/
theorem nml_two_eq (n : Nat) (hn : 1 ≤ n) :
    nmlComplexity 2 n = ∑ k ∈ range (n + 1), (n.choose k : ℝ) * ((k : ℝ) / n) ^ k * (((n : ℝ) - k) / n) ^ (n - k) := by
  have h3 : (n : ℝ) ≠ 0 := by positivity
  have hF := Abel.F_eq n 0 n
  rw [NML.nml_two n hn]
  have e : ∑ k ∈ range (n + 1), (n.descFactorial k : ℝ) / (n : ℝ) ^ k = Abel.F n 0 n / (n : ℝ) ^ n := by
    rw [hF, sum_div]
    refine sum_congr rfl fun k hk => ?_
    have hk' : k ≤ n := by have := mem_range.1 hk; omega
    have : (n : ℝ) ^ n = (n : ℝ) ^ (n - k) * (n : ℝ) ^ k := by rw [← pow_add]; congr 1; omega
    rw [this]; field_simp
  rw [e]
  unfold Abel.F
  rw [sum_div]
  refine sum_congr rfl fun k hk => ?_
  have hk' : k ≤ n := by have := mem_range.1 hk; omega
  have : (n : ℝ) ^ n = (n : ℝ) ^ k * (n : ℝ) ^ (n - k) := by rw [← pow_add]; congr 1; omega
  rw [this, div_pow, div_pow, zero_add]
  field_simp

/-- one sample: both outcomes have maximum likelihood 1, so the complexity is 2 -/
example : nmlComplexity 2 1 = 2 := by rw [nml_two_eq 1 (le_refl _)]; norm_num [sum_range_succ]

/-- the hypothesis of `C46_code_with_maximum` holds for `max = 3` -/
example : 0 ≤ Spec.left code 3 := by
  have key : ∀ n : Nat, 1 ≤ n → (2 : ℝ) ^ (-code n) ≤ (1 / 2.865064) * (1 / n) := by
    intro n hn
    have hn' : (0 : ℝ) < n := by positivity
    have h := code_lower n hn
    have h1 : (2 : ℝ) ^ (-code n) ≤ 2 ^ (-(logK0 + Real.logb 2 (n : ℝ))) :=
      Real.rpow_le_rpow_of_exponent_le (by norm_num) (by linarith)
    refine le_trans h1 (le_of_eq ?_)
    unfold logK0
    rw [neg_add, Real.rpow_add (by norm_num), Real.rpow_neg (by norm_num), Real.rpow_neg (by norm_num),
      Real.rpow_logb (by norm_num) (by norm_num) (by norm_num), Real.rpow_logb (by norm_num) (by norm_num) hn']
    rw [one_div, one_div]
  have h1 := key 1 (by omega)
  have h2 := key 2 (by omega)
  have h3 := key 3 (by omega)
  unfold Spec.left
  simp only [sum_range_succ, range_zero, sum_empty, Nat.zero_add, Nat.reduceAdd]
  norm_num at h1 h2 h3 ⊢
  linarith

end Verif.MDL
