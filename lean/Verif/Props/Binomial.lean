import Verif.Props.QualityReal
/-! Property C78: BinomialTest, when it is defined, what it is, its sign and its range. -/
namespace Verif
open Spec

/-- **C78.** All outcomes of BinomialTest on a dictionary with four numbers, whatever they are: division by zero if no row is covered or there are no rows; else
an error of the square root for a negative number of covered rows or a share of positives outside [0,1]; else division by zero if that share is 0 or 1
or all rows are covered; else an error of the square root if more rows are covered than there are; else the normalised difference of the shares. -/
theorem C78_outcome (d : Params) (tp fp TP FP : Rat) (h : HasCounts d tp fp TP FP) :
    let n := tp + fp
    let N := TP + FP
    let p0 := TP / N
    (n = 0 ∨ N = 0 → Quality.binomialTest d = .error .zeroDivisionError) ∧
    (n ≠ 0 → N ≠ 0 → n < 0 ∨ p0 < 0 ∨ 1 < p0 → Quality.binomialTest d = .error .valueError) ∧
    (0 < n → N ≠ 0 → p0 = 0 ∨ p0 = 1 ∨ (0 < p0 ∧ p0 < 1 ∧ n = N) → Quality.binomialTest d = .error .zeroDivisionError) ∧
    (0 < n → 0 < p0 → p0 < 1 → N / (N - n) < 0 → Quality.binomialTest d = .error .valueError) ∧
    (0 < n → 0 < p0 → p0 < 1 → 0 < N / (N - n) → Quality.binomialTest d = .ok
      (((tp / n - p0 : Rat) : ℝ) * Real.sqrt (n : ℝ) / Real.sqrt ((p0 * (1 - p0) : Rat) : ℝ) * Real.sqrt ((N / (N - n) : Rat) : ℝ))) := by
  obtain ⟨c1, c2, c3, c4⟩ := h
  intro n N p0
  have var_neg : p0 < 0 ∨ 1 < p0 → p0 * (1 - p0) < 0 := by
    rintro (h | h)
    · exact mul_neg_of_neg_of_pos h (by linarith)
    · exact mul_neg_of_pos_of_neg (by linarith) (by linarith)
  have key : Quality.binomialTest d = (do
      let p ← pyDiv tp n
      let q0 ← pyDiv TP N
      let rn ← Quality.pySqrt (n : ℝ)
      let rv ← Quality.pySqrt ((q0 * (1 - q0) : Rat) : ℝ)
      let a ← Quality.realDiv (((p - q0 : Rat) : ℝ) * rn) rv
      let q ← pyDiv N (N - n)
      let b ← Quality.pySqrt (q : ℝ)
      return a * b) := by
    simp only [Quality.binomialTest, getParam_some c1, getParam_some c2, getParam_some c3, getParam_some c4, bind, Except.bind]
    rfl
  rw [key]
  clear key
  have sneg : ∀ r : Rat, r < 0 → Quality.pySqrt (r : ℝ) = .error .valueError := by
    intro r hr; unfold Quality.pySqrt; rw [if_pos (by exact_mod_cast hr)]
  have snn : ∀ r : Rat, 0 ≤ r → Quality.pySqrt (r : ℝ) = .ok (Real.sqrt r) := by
    intro r hr; unfold Quality.pySqrt; rw [if_neg (by push Not; exact_mod_cast hr)]
  refine ⟨?_, ?_, ?_, ?_, ?_⟩
  · intro h0
    by_cases hn : n = 0
    · rw [pyDiv_zero _ hn]; rfl
    · rw [pyDiv_ne _ hn, pyDiv_zero _ (h0.resolve_left hn)]; rfl
  · intro hn hN hbad
    rw [pyDiv_ne _ hn, pyDiv_ne _ hN]
    by_cases hn0 : n < 0
    · simp only [bind, Except.bind, sneg n hn0]
    · simp only [bind, Except.bind, snn n (not_lt.1 hn0), show TP / N = p0 from rfl, sneg _ (var_neg (hbad.resolve_left hn0))]
  · intro hn hN hbad
    rw [pyDiv_ne _ hn.ne', pyDiv_ne _ hN]
    simp only [bind, Except.bind, snn n hn.le, show TP / N = p0 from rfl]
    rcases hbad with h | h | ⟨h1, h2, h3⟩
    · rw [h]; simp [Quality.pySqrt, Quality.realDiv]
    · rw [h]; simp [Quality.pySqrt, Quality.realDiv]
    · have hv : 0 < p0 * (1 - p0) := mul_pos h1 (by linarith)
      rw [snn _ hv.le]
      have : Real.sqrt ((p0 * (1 - p0) : Rat) : ℝ) ≠ 0 := (Real.sqrt_pos.2 (by exact_mod_cast hv)).ne'
      simp only [Quality.realDiv, if_neg this, pyDiv_zero N (show N - n = 0 by linarith)]
  · intro hn h1 h2 hq
    have hN : N ≠ 0 := by rintro e; simp [p0, e] at h1
    have hv : 0 < p0 * (1 - p0) := mul_pos h1 (by linarith)
    have hd : N - n ≠ 0 := by intro e; rw [e] at hq; simp at hq
    have : Real.sqrt ((p0 * (1 - p0) : Rat) : ℝ) ≠ 0 := (Real.sqrt_pos.2 (by exact_mod_cast hv)).ne'
    rw [pyDiv_ne _ hn.ne', pyDiv_ne _ hN]
    simp only [bind, Except.bind, snn n hn.le, show TP / N = p0 from rfl, snn _ hv.le, Quality.realDiv, if_neg this, pyDiv_ne _ hd, sneg _ hq]
  · intro hn h1 h2 hq
    have hN : N ≠ 0 := by rintro e; simp [p0, e] at h1
    have hv : 0 < p0 * (1 - p0) := mul_pos h1 (by linarith)
    have hd : N - n ≠ 0 := by intro e; rw [e] at hq; simp at hq
    have : Real.sqrt ((p0 * (1 - p0) : Rat) : ℝ) ≠ 0 := (Real.sqrt_pos.2 (by exact_mod_cast hv)).ne'
    rw [pyDiv_ne _ hn.ne', pyDiv_ne _ hN]
    simp only [bind, Except.bind, snn n hn.le, show TP / N = p0 from rfl, snn _ hv.le, Quality.realDiv, if_neg this, pyDiv_ne _ hd, snn _ hq.le, pure,
      Except.pure]

/-- **C78.** BinomialTest and its estimate raise the missing-parameter error exactly when one of the parameters they need is absent. -/
theorem C78_missing (d : Params) :
    (Quality.binomialTest d = .error .parameterNotFound ↔ ∃ k ∈ [kTp, kFp, kTP, kFP], d.lookup k = none) ∧
    (Quality.binomialTestOE1 d = .error .parameterNotFound ↔ ∃ k ∈ [kTp, kTP, kFP], d.lookup k = none) := by
  have ps : ∀ (x : ℝ), Quality.pySqrt x ≠ .error .parameterNotFound := by
    intro x; unfold Quality.pySqrt; split <;> simp
  have pd : ∀ (a b : Rat), pyDiv a b ≠ .error .parameterNotFound := by
    intro a b; unfold pyDiv; split <;> simp
  have rd : ∀ (a b : ℝ), Quality.realDiv a b ≠ .error .parameterNotFound := by
    intro a b; unfold Quality.realDiv; split <;> simp
  have bnd : ∀ {α β : Type} (y : Except PyErr α) (f : α → Except PyErr β), y ≠ .error .parameterNotFound → (∀ a, f a ≠ .error .parameterNotFound) →
      (y >>= f) ≠ .error .parameterNotFound := by
    intro α β y f h1 h2
    cases y with
    | error e => simpa [bind, Except.bind] using h1
    | ok a => exact h2 a
  have gp : ∀ {k : Str} {β : Type} (f : Rat → Except PyErr β), (getParam d k >>= f = .error .parameterNotFound ↔
      d.lookup k = none ∨ ∃ v, d.lookup k = some v ∧ f v = .error .parameterNotFound) := by
    intro k β f
    cases hk : d.lookup k with
    | none => simp [getParam_none hk, bind, Except.bind]
    | some v => simp [getParam_some hk, bind, Except.bind]
  constructor
  · unfold Quality.binomialTest
    simp only [gp]
    constructor
    · rintro (h | ⟨_, _, h | ⟨_, _, h | ⟨_, _, h | ⟨_, _, h⟩⟩⟩⟩)
      · exact ⟨_, by simp, h⟩
      · exact ⟨_, by simp, h⟩
      · exact ⟨_, by simp, h⟩
      · exact ⟨_, by simp, h⟩
      · exfalso; revert h
        repeat' first
          | exact fun h => by cases h
          | (refine bnd _ _ (pd _ _) fun _ => ?_)
          | (refine bnd _ _ (ps _) fun _ => ?_)
          | (refine bnd _ _ (rd _ _) fun _ => ?_)
    · rintro ⟨k, hk, h⟩
      cases e1 : d.lookup kTp <;> cases e2 : d.lookup kFp <;> cases e3 : d.lookup kTP <;> cases e4 : d.lookup kFP <;> simp
      simp only [List.mem_cons, List.not_mem_nil, or_false] at hk
      rcases hk with rfl | rfl | rfl | rfl <;> simp_all
  · unfold Quality.binomialTestOE1
    simp only [gp]
    constructor
    · rintro (h | ⟨_, _, h | ⟨_, _, h | ⟨_, _, h⟩⟩⟩)
      · exact ⟨_, by simp, h⟩
      · exact ⟨_, by simp, h⟩
      · exact ⟨_, by simp, h⟩
      · exfalso; revert h
        repeat' first
          | exact fun h => by cases h
          | (refine bnd _ _ (pd _ _) fun _ => ?_)
          | (refine bnd _ _ (ps _) fun _ => ?_)
    · rintro ⟨k, hk, h⟩
      cases e1 : d.lookup kTp <;> cases e3 : d.lookup kTP <;> cases e4 : d.lookup kFP <;> simp
      simp only [List.mem_cons, List.not_mem_nil, or_false] at hk
      rcases hk with rfl | rfl | rfl <;> simp_all

/-- **C78.** On the counts of a subgroup: BinomialTest is defined exactly when the data have positives and negatives and the subgroup covers some rows but
not all of them; otherwise it raises ZeroDivisionError (so a selector true of every row stops a search with this measure). -/
theorem C78_defined (tp fp TP FP : Nat) (h1 : tp ≤ TP) (h2 : fp ≤ FP) :
    ((∃ q, Quality.binomialTest (counts tp fp TP FP) = .ok q) ↔ 0 < TP ∧ 0 < FP ∧ 0 < tp + fp ∧ tp + fp < TP + FP) ∧
    (¬ (0 < TP ∧ 0 < FP ∧ 0 < tp + fp ∧ tp + fp < TP + FP) → Quality.binomialTest (counts tp fp TP FP) = .error .zeroDivisionError) := by
  have herr : ¬ (0 < TP ∧ 0 < FP ∧ 0 < tp + fp ∧ tp + fp < TP + FP) → Quality.binomialTest (counts tp fp TP FP) = .error .zeroDivisionError := by
    intro hn
    obtain ⟨o1, -, o3, -, -⟩ := C78_outcome _ _ _ _ _ (counts_has tp fp TP FP)
    by_cases a : tp + fp = 0
    · exact o1 (Or.inl (by exact_mod_cast a))
    have ha : (0 : Rat) < tp + fp := by exact_mod_cast Nat.pos_of_ne_zero a
    have hN : (0 : Rat) < TP + FP := by exact_mod_cast (by omega : 0 < TP + FP)
    apply o3 ha hN.ne'
    by_cases b : TP = 0
    · left; simp [b]
    by_cases c : FP = 0
    · right; left
      have : (TP : Rat) ≠ 0 := by exact_mod_cast b
      simp [c, this]
    right; right
    have b' : (0 : Rat) < TP := by exact_mod_cast Nat.pos_of_ne_zero b
    have c' : (0 : Rat) < FP := by exact_mod_cast Nat.pos_of_ne_zero c
    refine ⟨by positivity, ?_, ?_⟩
    · rw [div_lt_one hN]; linarith
    · exact_mod_cast (by omega : tp + fp = TP + FP)
  refine ⟨⟨?_, ?_⟩, herr⟩
  · rintro ⟨q, hq⟩
    by_contra hn
    rw [herr hn] at hq
    cases hq
  · rintro ⟨a, b, c, e⟩
    exact ⟨_, binomialTest_counts tp fp TP FP c a b e⟩

/-- the square of BinomialTest is `N` times the square of the correlation between the description and the target -/
theorem binomial_sq (tp fp TP FP : Nat) (a : 0 < TP) (b : 0 < FP) (c : 0 < tp + fp) (e : tp + fp < TP + FP) (q : ℝ)
    (hq : Quality.binomialTest (counts tp fp TP FP) = .ok q) :
    q ^ 2 = (TP + FP) * ((tp : ℝ) * FP - fp * TP) ^ 2 / ((tp + fp) * (TP + FP - (tp + fp)) * TP * FP) ∧
    (0 < q ↔ fp * TP < tp * FP) ∧ (q < 0 ↔ tp * FP < fp * TP) := by
  rw [binomialTest_counts tp fp TP FP c a b e] at hq
  cases hq
  push_cast
  have n1 : (0 : ℝ) < tp + fp := by exact_mod_cast c
  have n3 : (0 : ℝ) < TP := by exact_mod_cast a
  have n4 : (0 : ℝ) < FP := by exact_mod_cast b
  have n5 : (0 : ℝ) < TP + FP - (tp + fp) := by
    have : ((tp + fp : Nat) : ℝ) < ((TP + FP : Nat) : ℝ) := by exact_mod_cast e
    push_cast at this
    linarith
  have n2 : (0 : ℝ) < TP + FP := by linarith
  have e1 : (1 : ℝ) - TP / (TP + FP) = FP / (TP + FP) := by field_simp; ring
  have n6 : (0 : ℝ) < TP / (TP + FP) * (1 - TP / (TP + FP)) := by rw [e1]; positivity
  have n7 : (0 : ℝ) < (TP + FP) / (TP + FP - (tp + fp)) := by positivity
  have e2 : (tp : ℝ) / (tp + fp) - TP / (TP + FP) = (tp * FP - fp * TP) / ((tp + fp) * (TP + FP)) := by field_simp; ring
  have s1 := Real.sqrt_pos.2 n1
  have s2 := Real.sqrt_pos.2 n6
  have s3 := Real.sqrt_pos.2 n7
  refine ⟨?_, ?_, ?_⟩
  · rw [mul_pow, div_pow, mul_pow, Real.sq_sqrt n1.le, Real.sq_sqrt n6.le, Real.sq_sqrt n7.le, e1, e2]
    field_simp
  · rw [mul_pos_iff_of_pos_right s3, div_pos_iff_of_pos_right s2, mul_pos_iff_of_pos_right s1, e2, div_pos_iff_of_pos_right (by positivity), sub_pos]
    exact_mod_cast Iff.rfl
  · have iffneg : ∀ x k : ℝ, 0 < k → (x * k < 0 ↔ x < 0) := fun x k hk =>
      ⟨fun h => by by_contra hc; exact absurd (mul_nonneg (not_lt.1 hc) hk.le) (not_le.2 h), fun h => mul_neg_of_neg_of_pos h hk⟩
    rw [iffneg _ _ s3, div_eq_mul_inv _ (Real.sqrt _), iffneg _ _ (inv_pos.2 s2), iffneg _ _ s1, e2, div_eq_mul_inv, iffneg _ _ (inv_pos.2 (by positivity)), sub_neg]
    exact_mod_cast Iff.rfl

theorem div_neg_iff_of_pos_right' {x k : Rat} (hk : 0 < k) : x / k < 0 ↔ x < 0 :=
  ⟨fun h => by by_contra hc; exact absurd (div_nonneg (not_lt.1 hc) hk.le) (not_le.2 h), fun h => div_neg_of_neg_of_pos h hk⟩

theorem phi_bound {A B C E : ℝ} (hA : 0 ≤ A) (hB : 0 ≤ B) (hC : 0 ≤ C) (hE : 0 ≤ E) :
    (A - B) ^ 2 ≤ (A + B + C) * (A + B + E) ∧ ((A - B) ^ 2 = (A + B + C) * (A + B + E) → A * B = 0 ∧ (A + B) * C = 0) := by
  have e : (A + B + C) * (A + B + E) = (A - B) ^ 2 + 4 * (A * B) + (A + B) * C + (A + B) * E + C * E := by ring
  have k1 := mul_nonneg hA hB
  have k2 := mul_nonneg (add_nonneg hA hB) hC
  have k3 := mul_nonneg (add_nonneg hA hB) hE
  have k4 := mul_nonneg hC hE
  refine ⟨by linarith, fun h => ⟨by linarith, by linarith⟩⟩

/-- **C78.** Range and sign: where it is defined, BinomialTest lies between `-sqrt N` and `sqrt N` (`N` rows), reaches these values exactly when the description
separates the positives from the negatives, and is positive, negative or zero exactly when WRAcc is. -/
theorem C78_range (tp fp TP FP : Nat) (h1 : tp ≤ TP) (h2 : fp ≤ FP) (q : ℝ) (hq : Quality.binomialTest (counts tp fp TP FP) = .ok q) :
    |q| ≤ Real.sqrt (TP + FP) ∧ (|q| = Real.sqrt (TP + FP) ↔ (tp = TP ∧ fp = 0) ∨ (tp = 0 ∧ fp = FP)) ∧
    ∃ w, Measure.wracc.compute (counts tp fp TP FP) = .ok w ∧ (0 < q ↔ 0 < w) ∧ (q < 0 ↔ w < 0) := by
  obtain ⟨a, b, c, e⟩ := (C78_defined tp fp TP FP h1 h2).1.1 ⟨q, hq⟩
  obtain ⟨k1, k2, k3⟩ := binomial_sq tp fp TP FP a b c e q hq
  have n1 : (0 : ℝ) < tp + fp := by exact_mod_cast c
  have n3 : (0 : ℝ) < TP := by exact_mod_cast a
  have n4 : (0 : ℝ) < FP := by exact_mod_cast b
  have n5 : (0 : ℝ) < TP + FP - (tp + fp) := by
    have : ((tp + fp : Nat) : ℝ) < ((TP + FP : Nat) : ℝ) := by exact_mod_cast e
    push_cast at this
    linarith
  have n2 : (0 : ℝ) < TP + FP := by linarith
  have D : (0 : ℝ) < (tp + fp) * (TP + FP - (tp + fp)) * TP * FP := by positivity
  have t1 : (tp : ℝ) ≤ TP := by exact_mod_cast h1
  have t2 : (fp : ℝ) ≤ FP := by exact_mod_cast h2
  have t3 : (0 : ℝ) ≤ tp := by positivity
  have t4 : (0 : ℝ) ≤ fp := by positivity
  -- `a d + b c` with `a = tp`, `b = fp`, `c = TP - tp`, `d = FP - fp`
  have u1 : (0 : ℝ) ≤ tp * (FP - fp) := mul_nonneg t3 (by linarith)
  have u2 : (0 : ℝ) ≤ fp * (TP - tp) := mul_nonneg t4 (by linarith)
  have u3 : (0 : ℝ) ≤ tp * (TP - tp) := mul_nonneg t3 (by linarith)
  have u4 : (0 : ℝ) ≤ fp * (FP - fp) := mul_nonneg t4 (by linarith)
  have u5 : (0 : ℝ) ≤ tp * fp := mul_nonneg t3 t4
  have u6 : (0 : ℝ) ≤ (TP - tp) * (FP - fp) := mul_nonneg (by linarith) (by linarith)
  have f1 : ((tp : ℝ) + fp) * (TP + FP - (tp + fp)) = tp * (FP - fp) + fp * (TP - tp) + (tp * (TP - tp) + fp * (FP - fp)) := by ring
  have f2 : (TP : ℝ) * FP = tp * (FP - fp) + fp * (TP - tp) + (tp * fp + (TP - tp) * (FP - fp)) := by ring
  have f3 : ((tp : ℝ) * FP - fp * TP) = tp * (FP - fp) - fp * (TP - tp) := by ring
  have hle : ((tp : ℝ) * FP - fp * TP) ^ 2 ≤ (tp + fp) * (TP + FP - (tp + fp)) * TP * FP := by
    rw [mul_assoc _ (TP : ℝ) (FP : ℝ), f1, f2, f3]
    exact (phi_bound u1 u2 (add_nonneg u3 u4) (add_nonneg u5 u6)).1
  have hsq : q ^ 2 ≤ TP + FP := by
    rw [k1, div_le_iff₀ D]
    exact mul_le_mul_of_nonneg_left hle n2.le
  refine ⟨Real.abs_le_sqrt hsq, ?_, ?_⟩
  · constructor
    · intro hEq
      have h3 : q ^ 2 = TP + FP := by
        rw [← sq_abs, hEq, Real.sq_sqrt n2.le]
      rw [k1, div_eq_iff D.ne'] at h3
      have h4 : ((tp : ℝ) * FP - fp * TP) ^ 2 = (tp + fp) * (TP + FP - (tp + fp)) * TP * FP := mul_left_cancel₀ n2.ne' h3
      rw [mul_assoc _ (TP : ℝ) (FP : ℝ), f1, f2, f3] at h4
      obtain ⟨-, z2⟩ := (phi_bound u1 u2 (add_nonneg u3 u4) (add_nonneg u5 u6)).2 h4
      have z3 : (tp * ((FP : ℝ) - fp) + fp * (TP - tp)) ≠ 0 := by
        intro hz
        have q0 : (tp : ℝ) * (FP - fp) = 0 := by linarith
        have q1 : (fp : ℝ) * (TP - tp) = 0 := by linarith
        have : (tp + fp : ℝ) * (TP + FP - (tp + fp)) * (TP * FP) = 0 := by
          rw [f1, f2, ← h4, q0, q1]; ring
        have : (0 : ℝ) < (tp + fp) * (TP + FP - (tp + fp)) * (TP * FP) := by positivity
        linarith
      have z4 : tp * ((TP : ℝ) - tp) + fp * (FP - fp) = 0 := (mul_eq_zero.1 z2).resolve_left z3
      have y1 : (tp : ℝ) * (TP - tp) = 0 := by linarith
      have y2 : (fp : ℝ) * (FP - fp) = 0 := by linarith
      rcases mul_eq_zero.1 y1 with p | p <;> rcases mul_eq_zero.1 y2 with r | r
      · exfalso; linarith
      · right; exact ⟨by exact_mod_cast p, by have : (fp : ℝ) = FP := by linarith
                                              exact_mod_cast this⟩
      · left; exact ⟨by have : (tp : ℝ) = TP := by linarith
                        exact_mod_cast this, by exact_mod_cast r⟩
      · exfalso; linarith
    · intro hcase
      have h3 : q ^ 2 = TP + FP := by
        rw [k1]
        rw [div_eq_iff D.ne']
        rcases hcase with ⟨rfl, rfl⟩ | ⟨rfl, rfl⟩ <;> push_cast <;> ring
      rw [← Real.sqrt_sq_eq_abs, h3]
  · have hadm := counts_has tp fp TP FP
    let w : Str → Rat := fun k => if k = kTp then (tp : Rat) else if k = kFp then (fp : Rat) else if k = kTP then (TP : Rat) else FP
    have r1 : (0 : Rat) < tp + fp := by exact_mod_cast c
    have r2 : (0 : Rat) < TP + FP := by exact_mod_cast (by omega : 0 < TP + FP)
    have hw := compute_eq hadm .wracc (by simp) w rfl rfl rfl rfl
    simp only [denoms, formula, List.mem_cons, List.not_mem_nil, or_false, show w kTp = tp from rfl,
      show w kFp = fp from rfl, show w kTP = TP from rfl, show w kFP = FP from rfl, @eq_comm Rat 0] at hw
    rw [if_neg (by push Not; exact ⟨r1.ne', r2.ne'⟩)] at hw
    have ew : (tp : Rat) / (TP + FP) - ((tp : Rat) + fp) / (TP + FP) * (TP / (TP + FP)) = ((tp : Rat) * FP - fp * TP) / (TP + FP) ^ 2 := by
      field_simp; ring
    rw [ew] at hw
    have pp : (0 : Rat) < (TP + FP) ^ 2 := by positivity
    refine ⟨_, hw, ?_, ?_⟩
    · rw [k2, div_pos_iff_of_pos_right pp, sub_pos]; exact_mod_cast Iff.rfl
    · rw [k3, div_neg_iff_of_pos_right' pp, sub_neg]; exact_mod_cast Iff.rfl

/-- a subgroup that separates 3 positives from 4 negatives reaches the square root of 7; one that covers all rows raises the error -/
example : (∃ q, Quality.binomialTest (counts 3 0 3 4) = .ok q ∧ |q| = Real.sqrt ((3 : Nat) + (4 : Nat))) ∧
    Quality.binomialTest (counts 3 4 3 4) = .error .zeroDivisionError := by
  obtain ⟨q, hq⟩ := (C78_defined 3 0 3 4 (by decide) (by decide)).1.2 (by decide)
  exact ⟨⟨q, hq, (C78_range 3 0 3 4 (by decide) (by decide) q hq).2.1.2 (Or.inl ⟨rfl, rfl⟩)⟩,
    (C78_defined 3 4 3 4 (by decide) (by decide)).2 (by decide)⟩

end Verif
