import Verif.Lemmas.Binary64
import Verif.Props.Float64
/-! Property C103: the measures in binary64 with its range of exponents. `Measure.compute64` is the program with infinite and subnormal numbers and `OverflowError`;
`Measure.computeFl` is the program of C74-C77, without limits of the exponent. -/
namespace Verif
open Spec Binary64

theorem int_param {d : Params} (hd : Integers256 d) (k : Str) : getParam d k = .error .parameterNotFound ∨ ∃ n : Int, getParam d k = .ok (n : Rat) ∧ |n| ≤ 2 ^ 256 := by
  unfold getParam
  cases h : d.lookup k with
  | none => exact .inl rfl
  | some v =>
    obtain ⟨n, rfl, hn⟩ := hd k v h
    exact .inr ⟨n, rfl, hn⟩

theorem two_pows {k j n : Nat} (hk : k < n) (hj : j < n) : (2 : Int) ^ k + 2 ^ j ≤ 2 ^ n := by
  obtain ⟨i, rfl⟩ : ∃ i, n = i + 1 := ⟨n - 1, by omega⟩
  have h1 : (2 : Int) ^ k ≤ 2 ^ i := pow_le_pow_right₀ (by norm_num) (by omega)
  have h2 : (2 : Int) ^ j ≤ 2 ^ i := pow_le_pow_right₀ (by norm_num) (by omega)
  rw [pow_succ]
  omega

theorem abs_add_int {a b : Int} {k j : Nat} (ha : |a| ≤ 2 ^ k) (hb : |b| ≤ 2 ^ j) (hk : k < n) (hj : j < n) : |a + b| ≤ 2 ^ n := by
  have := abs_add_le a b
  have := two_pows hk hj
  linarith

theorem abs_sub_int {a b : Int} {k j : Nat} (ha : |a| ≤ 2 ^ k) (hb : |b| ≤ 2 ^ j) (hk : k < n) (hj : j < n) : |a - b| ≤ 2 ^ n := by
  have := abs_sub a b
  have := two_pows hk hj
  linarith

/-- C103: on dictionaries of integers of absolute value up to `2^256` every measure gives, in binary64, the finite number that it gives without limits of the exponent, or the same exception. -/
theorem C103_same (m : Measure) (d : Params) (hd : Integers256 d) : m.compute64 d = (m.computeFl d).map XF.fin := by
  have quot : ∀ {a b : Int} {k j : Nat}, |a| ≤ 2 ^ k → |b| ≤ 2 ^ j → k ≤ 1022 → j ≤ 1022 → Binary64.div a b = (Float64.div a b).map XF.fin := by
    intro a b k j ha hb hk hj
    rcases div_agrees ha hb hk hj with ⟨_, h1, h2⟩ | ⟨_, x, q, h1, h2, h3⟩
    · rw [h1, h2]; rfl
    · rw [h1, h2, h3.eq]; rfl
  have hw : Binary64.wracc d = (Float64.wracc d).map XF.fin := by
    unfold Binary64.wracc Float64.wracc
    rcases int_param hd kTp with e1 | ⟨tp, e1, h1⟩ <;> rcases int_param hd kFp with e2 | ⟨fp, e2, h2⟩ <;> rcases int_param hd kTP with e3 | ⟨TP, e3, h3⟩ <;>
      rcases int_param hd kFP with e4 | ⟨FP, e4, h4⟩ <;> simp only [e1, e2, e3, e4, bind, Except.bind] <;> try rfl
    have b1 : |tp + fp| ≤ 2 ^ 257 := abs_add_int h1 h2 (by omega) (by omega)
    have b2 : |TP + FP| ≤ 2 ^ 257 := abs_add_int h3 h4 (by omega) (by omega)
    rw [← Int.cast_add, ← Int.cast_add]
    rcases div_agrees b1 b2 (by norm_num) (by norm_num) with ⟨_, a1, a2⟩ | ⟨_, x, q, a1, a2, a3⟩ <;> simp only [a1, a2]
    · rfl
    rcases div_agrees h1 b1 (by norm_num) (by norm_num) with ⟨_, c1, c2⟩ | ⟨_, y, r, c1, c2, c3⟩ <;> simp only [c1, c2]
    · rfl
    rcases div_agrees h3 b2 (by norm_num) (by norm_num) with ⟨_, g1, g2⟩ | ⟨_, z, s, g1, g2, g3⟩ <;> simp only [g1, g2]
    · rfl
    have := a3.mul (c3.sub g3 (by norm_num) (by norm_num)) (by norm_num) (by norm_num)
    simp only [pure, Except.pure, this.eq, Except.map]
  cases m
  case wracc => exact hw
  case absoluteWracc =>
    show Binary64.absoluteWracc d = (Float64.absoluteWracc d).map XF.fin
    unfold Binary64.absoluteWracc Float64.absoluteWracc
    rw [hw]
    cases Float64.wracc d <;> rfl
  case support =>
    show Binary64.support d = (Float64.support d).map XF.fin
    unfold Binary64.support Float64.support
    rcases int_param hd kTp with e1 | ⟨tp, e1, h1⟩ <;> rcases int_param hd kTP with e3 | ⟨TP, e3, h3⟩ <;>
      rcases int_param hd kFP with e4 | ⟨FP, e4, h4⟩ <;> simp only [e1, e3, e4, bind, Except.bind] <;> try rfl
    have b2 : |TP + FP| ≤ 2 ^ 257 := abs_add_int h3 h4 (by omega) (by omega)
    rw [← Int.cast_add]
    exact quot h1 b2 (by norm_num) (by norm_num)
  case coverage =>
    show Binary64.coverage d = (Float64.coverage d).map XF.fin
    unfold Binary64.coverage Float64.coverage
    rcases int_param hd kTp with e1 | ⟨tp, e1, h1⟩ <;> rcases int_param hd kFp with e2 | ⟨fp, e2, h2⟩ <;> rcases int_param hd kTP with e3 | ⟨TP, e3, h3⟩ <;>
      rcases int_param hd kFP with e4 | ⟨FP, e4, h4⟩ <;> simp only [e1, e2, e3, e4, bind, Except.bind] <;> try rfl
    have b1 : |tp + fp| ≤ 2 ^ 257 := abs_add_int h1 h2 (by omega) (by omega)
    have b2 : |TP + FP| ≤ 2 ^ 257 := abs_add_int h3 h4 (by omega) (by omega)
    rw [← Int.cast_add, ← Int.cast_add]
    exact quot b1 b2 (by norm_num) (by norm_num)
  case ppv =>
    show Binary64.ppv d = (Float64.ppv d).map XF.fin
    unfold Binary64.ppv Float64.ppv
    rcases int_param hd kTp with e1 | ⟨tp, e1, h1⟩ <;> rcases int_param hd kFp with e2 | ⟨fp, e2, h2⟩ <;> simp only [e1, e2, bind, Except.bind] <;> try rfl
    have b1 : |tp + fp| ≤ 2 ^ 257 := abs_add_int h1 h2 (by omega) (by omega)
    rw [← Int.cast_add]
    exact quot h1 b1 (by norm_num) (by norm_num)
  case npv =>
    show Binary64.npv d = (Float64.npv d).map XF.fin
    unfold Binary64.npv Float64.npv
    rcases int_param hd kTp with e1 | ⟨tp, e1, h1⟩ <;> rcases int_param hd kFp with e2 | ⟨fp, e2, h2⟩ <;> rcases int_param hd kTP with e3 | ⟨TP, e3, h3⟩ <;>
      rcases int_param hd kFP with e4 | ⟨FP, e4, h4⟩ <;> simp only [e1, e2, e3, e4, bind, Except.bind] <;> try rfl
    have b1 : |FP - fp| ≤ 2 ^ 257 := abs_sub_int h4 h2 (by omega) (by omega)
    have b2 : |FP - fp + TP| ≤ 2 ^ 258 := abs_add_int b1 h3 (by omega) (by omega)
    have b3 : |FP - fp + TP - tp| ≤ 2 ^ 259 := abs_sub_int b2 h1 (by omega) (by omega)
    rw [← Int.cast_sub, ← Int.cast_add, ← Int.cast_sub]
    exact quot b1 b3 (by norm_num) (by norm_num)
  case sensitivity =>
    show Binary64.sensitivity d = (Float64.sensitivity d).map XF.fin
    unfold Binary64.sensitivity Float64.sensitivity
    rcases int_param hd kTp with e1 | ⟨tp, e1, h1⟩ <;> rcases int_param hd kTP with e3 | ⟨TP, e3, h3⟩ <;> simp only [e1, e3, bind, Except.bind] <;> try rfl
    exact quot h1 h3 (by norm_num) (by norm_num)
  case specificity =>
    show Binary64.specificity d = (Float64.specificity d).map XF.fin
    unfold Binary64.specificity Float64.specificity
    rcases int_param hd kFp with e2 | ⟨fp, e2, h2⟩ <;> rcases int_param hd kFP with e4 | ⟨FP, e4, h4⟩ <;> simp only [e2, e4, bind, Except.bind] <;> try rfl
    rw [← Int.cast_sub]
    exact quot (abs_sub_int h4 h2 (n := 257) (by omega) (by omega)) h4 (by norm_num) (by norm_num)
  case f1 =>
    show Binary64.f1 d = (Float64.f1 d).map XF.fin
    unfold Binary64.f1 Float64.f1
    rcases int_param hd kTp with e1 | ⟨tp, e1, h1⟩ <;> rcases int_param hd kFp with e2 | ⟨fp, e2, h2⟩ <;> rcases int_param hd kTP with e3 | ⟨TP, e3, h3⟩ <;>
      simp only [e1, e2, e3, bind, Except.bind] <;> try rfl
    have b1 : |tp + fp| ≤ 2 ^ 257 := abs_add_int h1 h2 (by omega) (by omega)
    have b2 : |tp + fp + TP| ≤ 2 ^ 258 := abs_add_int b1 h3 (by omega) (by omega)
    have b3 : |tp + tp| ≤ 2 ^ 257 := abs_add_int h1 h1 (by omega) (by omega)
    rw [← Int.cast_add, ← Int.cast_add, two_mul, ← Int.cast_add]
    exact quot b3 b2 (by norm_num) (by norm_num)
  case irr =>
    show Binary64.irr d = (Float64.irr d).map XF.fin
    unfold Binary64.irr Float64.irr
    rcases int_param hd kTp with e1 | ⟨tp, e1, h1⟩ <;> rcases int_param hd kFp with e2 | ⟨fp, e2, h2⟩ <;>
      rcases int_param hd kFP with e4 | ⟨FP, e4, h4⟩ <;> simp only [e1, e2, e4, bind, Except.bind] <;> try rfl
    have b1 : |tp + fp| ≤ 2 ^ 257 := abs_add_int h1 h2 (by omega) (by omega)
    have b2 : |FP - fp| ≤ 2 ^ 257 := abs_sub_int h4 h2 (by omega) (by omega)
    rw [← Int.cast_add, ← Int.cast_sub]
    rcases div_agrees h1 b1 (by norm_num) (by norm_num) with ⟨_, a1, a2⟩ | ⟨_, x, q, a1, a2, a3⟩ <;> simp only [a1, a2]
    · rfl
    rcases div_agrees b2 h4 (by norm_num) (by norm_num) with ⟨_, c1, c2⟩ | ⟨_, y, r, c1, c2, c3⟩ <;> simp only [c1, c2]
    · rfl
    have := (a3.sub (agrees_one (by norm_num) (by norm_num)) (by norm_num) (by norm_num)).add (c3.mono (by norm_num) (by norm_num)) (by norm_num) (by norm_num)
    simp only [pure, Except.pure, this.eq, Except.map]
  case youden =>
    show Binary64.youden d = (Float64.youden d).map XF.fin
    unfold Binary64.youden Float64.youden
    rcases int_param hd kTp with e1 | ⟨tp, e1, h1⟩ <;> rcases int_param hd kFp with e2 | ⟨fp, e2, h2⟩ <;> rcases int_param hd kTP with e3 | ⟨TP, e3, h3⟩ <;>
      rcases int_param hd kFP with e4 | ⟨FP, e4, h4⟩ <;> simp only [e1, e2, e3, e4, bind, Except.bind] <;> try rfl
    have b2 : |FP - fp| ≤ 2 ^ 257 := abs_sub_int h4 h2 (by omega) (by omega)
    rw [← Int.cast_sub]
    rcases div_agrees h1 h3 (by norm_num) (by norm_num) with ⟨_, a1, a2⟩ | ⟨_, x, q, a1, a2, a3⟩ <;> simp only [a1, a2]
    · rfl
    rcases div_agrees b2 h4 (by norm_num) (by norm_num) with ⟨_, c1, c2⟩ | ⟨_, y, r, c1, c2, c3⟩ <;> simp only [c1, c2]
    · rfl
    have := ((a3.mono (l' := -256) (h' := 257) (by norm_num) (by norm_num)).add (c3.mono (by norm_num) (by norm_num)) (by norm_num) (by norm_num)).sub
      (agrees_one (by norm_num) (by norm_num)) (by norm_num) (by norm_num)
    simp only [pure, Except.pure, this.eq, Except.map]
  case qg =>
    show Binary64.qg d = (Float64.qg d).map XF.fin
    unfold Binary64.qg Float64.qg
    rcases int_param hd kTp with e1 | ⟨tp, e1, h1⟩ <;> rcases int_param hd kFp with e2 | ⟨fp, e2, h2⟩ <;>
      rcases int_param hd kG with e4 | ⟨g, e4, h4⟩ <;> simp only [e1, e2, e4, bind, Except.bind] <;> try rfl
    rw [← Int.cast_add]
    exact quot h1 (abs_add_int h2 h4 (n := 257) (by omega) (by omega)) (by norm_num) (by norm_num)
  case piatetskyShapiro =>
    show Binary64.piatetskyShapiro d = (Float64.piatetskyShapiro d).map XF.fin
    unfold Binary64.piatetskyShapiro Float64.piatetskyShapiro
    rcases int_param hd kTp with e1 | ⟨tp, e1, h1⟩ <;> rcases int_param hd kFp with e2 | ⟨fp, e2, h2⟩ <;> rcases int_param hd kTP with e3 | ⟨TP, e3, h3⟩ <;>
      rcases int_param hd kFP with e4 | ⟨FP, e4, h4⟩ <;> simp only [e1, e2, e3, e4, bind, Except.bind] <;> try rfl
    have b1 : |tp + fp| ≤ 2 ^ 257 := abs_add_int h1 h2 (by omega) (by omega)
    have b2 : |TP + FP| ≤ 2 ^ 257 := abs_add_int h3 h4 (by omega) (by omega)
    rw [← Int.cast_add, ← Int.cast_add]
    rcases div_agrees h1 b1 (by norm_num) (by norm_num) with ⟨_, c1, c2⟩ | ⟨_, y, r, c1, c2, c3⟩ <;> simp only [c1, c2]
    · rfl
    rcases div_agrees h3 b2 (by norm_num) (by norm_num) with ⟨_, g1, g2⟩ | ⟨_, z, s, g1, g2, g3⟩ <;> simp only [g1, g2]
    · rfl
    obtain ⟨x, a1, a2⟩ := exact_agrees (Bnd.int b1) (by norm_num) (by norm_num)
    have := a2.mul (c3.sub g3 (by norm_num) (by norm_num)) (by norm_num) (by norm_num)
    simp only [a1, pure, Except.pure, this.eq, Except.map]
  case psOE1 =>
    show Binary64.psOE1 d = (Float64.psOE1 d).map XF.fin
    unfold Binary64.psOE1 Float64.psOE1
    rcases int_param hd kTp with e1 | ⟨tp, e1, h1⟩ <;> rcases int_param hd kFp with e2 | ⟨fp, e2, h2⟩ <;> rcases int_param hd kTP with e3 | ⟨TP, e3, h3⟩ <;>
      rcases int_param hd kFP with e4 | ⟨FP, e4, h4⟩ <;> simp only [e1, e2, e3, e4, bind, Except.bind] <;> try rfl
    have b1 : |tp + fp| ≤ 2 ^ 257 := abs_add_int h1 h2 (by omega) (by omega)
    have b2 : |TP + FP| ≤ 2 ^ 257 := abs_add_int h3 h4 (by omega) (by omega)
    rw [← Int.cast_add, ← Int.cast_add]
    rcases div_agrees h3 b2 (by norm_num) (by norm_num) with ⟨_, g1, g2⟩ | ⟨_, z, s, g1, g2, g3⟩ <;> simp only [g1, g2]
    · rfl
    obtain ⟨x, a1, a2⟩ := exact_agrees (Bnd.int b1) (by norm_num) (by norm_num)
    have := a2.mul ((agrees_one (by norm_num) (by norm_num)).sub g3 (by norm_num) (by norm_num)) (by norm_num) (by norm_num)
    simp only [a1, pure, Except.pure, this.eq, Except.map]
  case psOE2 =>
    show Binary64.psOE2 d = (Float64.psOE2 d).map XF.fin
    unfold Binary64.psOE2 Float64.psOE2
    rcases int_param hd kTp with e1 | ⟨tp, e1, h1⟩ <;> rcases int_param hd kTP with e3 | ⟨TP, e3, h3⟩ <;>
      rcases int_param hd kFP with e4 | ⟨FP, e4, h4⟩ <;> simp only [e1, e3, e4, bind, Except.bind] <;> try rfl
    have b2 : |TP + FP| ≤ 2 ^ 257 := abs_add_int h3 h4 (by omega) (by omega)
    rw [← Int.cast_add]
    rcases div_agrees h3 b2 (by norm_num) (by norm_num) with ⟨_, g1, g2⟩ | ⟨_, z, s, g1, g2, g3⟩ <;> simp only [g1, g2]
    · rfl
    obtain ⟨x, a1, a2⟩ := exact_agrees (Bnd.int h1) (by norm_num) (by norm_num)
    have := a2.mul ((agrees_one (by norm_num) (by norm_num)).sub g3 (by norm_num) (by norm_num)) (by norm_num) (by norm_num)
    simp only [a1, pure, Except.pure, this.eq, Except.map]
  case wraccOE1 =>
    show Binary64.wraccOE1 d = (Float64.wraccOE1 d).map XF.fin
    unfold Binary64.wraccOE1 Float64.wraccOE1
    rcases int_param hd kTp with e1 | ⟨tp, e1, h1⟩ <;> rcases int_param hd kFp with e2 | ⟨fp, e2, h2⟩ <;> rcases int_param hd kTP with e3 | ⟨TP, e3, h3⟩ <;>
      rcases int_param hd kFP with e4 | ⟨FP, e4, h4⟩ <;> simp only [e1, e2, e3, e4, bind, Except.bind] <;> try rfl
    have b1 : |tp + fp| ≤ 2 ^ 257 := abs_add_int h1 h2 (by omega) (by omega)
    have b2 : |TP + FP| ≤ 2 ^ 257 := abs_add_int h3 h4 (by omega) (by omega)
    have b3 : |tp * tp| ≤ 2 ^ 512 := by
      rw [abs_mul]
      calc |tp| * |tp| ≤ 2 ^ 256 * 2 ^ 256 := mul_le_mul h1 h1 (abs_nonneg _) (by positivity)
        _ = 2 ^ 512 := by rw [← pow_add]
    rw [← Int.cast_add, ← Int.cast_add, ← Int.cast_mul]
    rcases div_agrees b3 b1 (by norm_num) (by norm_num) with ⟨_, c1, c2⟩ | ⟨_, y, r, c1, c2, c3⟩ <;> simp only [c1, c2]
    · rfl
    rcases div_agrees h3 b2 (by norm_num) (by norm_num) with ⟨_, g1, g2⟩ | ⟨_, z, s, g1, g2, g3⟩ <;> simp only [g1, g2]
    · rfl
    have := c3.mul ((agrees_one (by norm_num) (by norm_num)).sub g3 (by norm_num) (by norm_num)) (by norm_num) (by norm_num)
    simp only [pure, Except.pure, this.eq, Except.map]

/-- C103: the rounding is the one of IEEE 754: the nearest number of the format, the even one of two that are equally near; infinite from half a last digit below `2^1024` on. -/
theorem C103_rounding (q : Rat) :
    (∀ f, Binary64.round q = .fin f → IsRounding64 q f) ∧ (Binary64.round q = .inf ↔ (2 : Rat) ^ (1024 : Int) - 2 ^ (970 : Int) ≤ q) ∧
    (Binary64.round q = .ninf ↔ q ≤ -((2 : Rat) ^ (1024 : Int) - 2 ^ (970 : Int))) ∧ Binary64.round q ≠ .nan := by
  have h1 := overflow_iff q
  have h2 : roundAny q ≤ -(2 : Rat) ^ (1024 : Int) ↔ q ≤ -((2 : Rat) ^ (1024 : Int) - 2 ^ (970 : Int)) := by
    have := overflow_iff (-q)
    rw [roundAny_neg] at this
    exact le_neg.trans (this.trans le_neg)
  have h3 : ¬ ((2 : Rat) ^ (1024 : Int) ≤ roundAny q ∧ roundAny q ≤ -(2 : Rat) ^ (1024 : Int)) := by
    rintro ⟨a, b⟩
    have c := Float64.two_pos 1024
    have d := a.trans b
    exact absurd (lt_of_lt_of_le c d) (not_lt.2 (neg_nonpos.2 c.le))
  unfold Binary64.round
  rw [Float64.pow2_eq]
  by_cases a : (2 : Rat) ^ (1024 : Int) ≤ roundAny q
  · have b : ¬ roundAny q ≤ -(2 : Rat) ^ (1024 : Int) := fun b => h3 ⟨a, b⟩
    rw [if_pos a]
    refine ⟨fun f h => by simp at h, ?_, ?_, by simp⟩
    · exact ⟨fun _ => h1.1 a, fun _ => rfl⟩
    · exact ⟨(fun h => by cases h), fun h => absurd (h2.2 h) b⟩
  · rw [if_neg a]
    by_cases b : roundAny q ≤ -(2 : Rat) ^ (1024 : Int)
    · rw [if_pos b]
      refine ⟨fun f h => by simp at h, ?_, ?_, by simp⟩
      · exact ⟨(fun h => by cases h), fun h => absurd (h1.2 h) a⟩
      · exact ⟨fun _ => h2.1 b, fun _ => rfl⟩
    · rw [if_neg b]
      refine ⟨fun f h => ?_, ?_, ?_, by simp⟩
      · simp only [XF.fin.injEq] at h
        rw [← h]
        exact roundAny_rounding (not_le.1 a) (not_le.1 b)
      · exact ⟨(fun h => by cases h), fun h => absurd (h1.2 h) a⟩
      · exact ⟨(fun h => by cases h), fun h => absurd (h2.2 h) b⟩

/-- C103, the limit: with larger numbers `Qg` raises `OverflowError`, `Support` is 0 although the exact value is positive, and `PiatetskyShapiro` cannot convert the number of covered rows. -/
theorem C103_limits :
    Measure.qg.compute64 [(kTp, 2 ^ 1024), (kFp, 0), (kG, 1)] = .error .overflowError ∧
    Measure.support.compute64 [(kTp, 1), (kTP, 2 ^ 1080), (kFP, 0)] = .ok (.fin 0) ∧
    Measure.piatetskyShapiro.compute64 [(kTp, 2 ^ 1024), (kFp, 0), (kTP, 2 ^ 1024), (kFP, 2 ^ 1024)] = .error .overflowError := by decide +kernel

/-- a subnormal number: 1 row of `2^1074` -/
example : Measure.support.compute64 [(kTp, 3), (kTP, 2 ^ 1075), (kFP, 0)] = .ok (.fin (2 / 2 ^ 1074)) := by decide +kernel

/-- the hypotheses: ordinary counts, and the value computed -/
example : Integers256 (counts 3 1 4 6) ∧ Measure.wracc.compute64 (counts 3 1 4 6) = .ok (.fin (5044031582654955 / 36028797018963968)) := by
  refine ⟨?_, by decide +kernel⟩
  intro k v h
  have : (k, v) ∈ counts 3 1 4 6 := by
    revert h
    unfold counts
    simp only [List.lookup_cons, List.lookup_nil]
    repeat' split
    all_goals simp_all
  simp only [counts, List.mem_cons, Prod.mk.injEq, List.not_mem_nil, or_false] at this
  rcases this with ⟨_, rfl⟩ | ⟨_, rfl⟩ | ⟨_, rfl⟩ | ⟨_, rfl⟩
  · exact ⟨3, by norm_num, by norm_num⟩
  · exact ⟨1, by norm_num, by norm_num⟩
  · exact ⟨4, by norm_num, by norm_num⟩
  · exact ⟨6, by norm_num, by norm_num⟩

/-- natural counts up to `2^256` -/
theorem integers_counts {tp fp TP FP : Nat} (h1 : tp ≤ 2 ^ 256) (h2 : fp ≤ 2 ^ 256) (h3 : TP ≤ 2 ^ 256) (h4 : FP ≤ 2 ^ 256) : Integers256 (counts tp fp TP FP) := by
  intro k v h
  have key : ∀ n : Nat, n ≤ 2 ^ 256 → ∃ m : Int, (n : Rat) = m ∧ |m| ≤ 2 ^ 256 := fun n hn => ⟨n, by simp, by rw [abs_of_nonneg (by omega)]; exact_mod_cast hn⟩
  unfold counts at h
  simp only [List.lookup_cons, List.lookup_nil] at h
  split at h
  · cases h; exact key _ h1
  · split at h
    · cases h; exact key _ h2
    · split at h
      · cases h; exact key _ h3
      · split at h
        · cases h; exact key _ h4
        · cases h

/-- C103: so, on natural counts of up to `2^256` rows, the theorems C74-C76 are about binary64 as it is. -/
theorem C103_counts (m : Measure) (tp fp TP FP : Nat) (h1 : tp ≤ TP) (h2 : fp ≤ FP) (hN : TP + FP ≤ 2 ^ 256) :
    m.compute64 (counts tp fp TP FP) = (m.computeFl (counts tp fp TP FP)).map XF.fin :=
  C103_same m _ (integers_counts (by omega) (by omega) (by omega) (by omega))

end Verif
