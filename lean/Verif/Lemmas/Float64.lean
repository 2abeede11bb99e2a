import Verif.Model.Float64
import Verif.Spec.Float64
import Mathlib.Tactic.Linarith
import Mathlib.Tactic.Ring
import Mathlib.Tactic.FieldSimp
import Mathlib.Tactic.NormNum
import Mathlib.Tactic.Positivity
/-! Facts about rounding: it is the IEEE one; monotone; exact on floats; relative error at most `2^-53`. -/
namespace Verif.Float64
open Verif.Spec

theorem pow2_eq (e : Int) : pow2 e = (2 : Rat) ^ e := by
  cases e with
  | ofNat n => simp [pow2]
  | negSucc n => simp [pow2, zpow_negSucc]

theorem two_pos (e : Int) : (0 : Rat) < 2 ^ e := by positivity

theorem expOf_spec {q : Rat} (h : 0 < q) : (2 : Rat) ^ expOf q ≤ q ∧ q < (2 : Rat) ^ (expOf q + 1) := by
  have hn : q.num.natAbs ≠ 0 := by
    have := Rat.num_pos.2 h
    omega
  have hd : q.den ≠ 0 := q.den_nz
  have hq : q = (q.num.natAbs : Rat) / (q.den : Rat) := by
    have hnum : ((q.num.natAbs : Nat) : Rat) = (q.num : Rat) := by
      have := Rat.num_pos.2 h
      have e : ((q.num.natAbs : Nat) : Int) = q.num := by omega
      calc ((q.num.natAbs : Nat) : Rat) = (((q.num.natAbs : Nat) : Int) : Rat) := by rw [Int.cast_natCast]
        _ = _ := by rw [e]
    rw [hnum]; exact (Rat.num_div_den q).symm
  set a := Nat.log2 q.num.natAbs with ha
  set b := Nat.log2 q.den with hb
  have a1 : ((2 ^ a : Nat) : Rat) ≤ (q.num.natAbs : Rat) := by exact_mod_cast Nat.log2_self_le hn
  have a2 : (q.num.natAbs : Rat) < ((2 ^ (a + 1) : Nat) : Rat) := by exact_mod_cast Nat.lt_log2_self
  have b1 : ((2 ^ b : Nat) : Rat) ≤ (q.den : Rat) := by exact_mod_cast Nat.log2_self_le hd
  have b2 : (q.den : Rat) < ((2 ^ (b + 1) : Nat) : Rat) := by exact_mod_cast Nat.lt_log2_self
  have dpos : (0 : Rat) < q.den := by exact_mod_cast Nat.pos_of_ne_zero hd
  have hmul : q * q.den = (q.num.natAbs : Rat) := (eq_div_iff dpos.ne').1 hq
  push_cast at a1 a2 b1 b2
  have upper : q < (2 : Rat) ^ ((a : Int) - b + 1) := by
    rw [zpow_add₀ (by norm_num), zpow_sub₀ (by norm_num), zpow_natCast, zpow_natCast, zpow_one]
    have : q * 2 ^ b ≤ q.num.natAbs := by
      calc q * 2 ^ b ≤ q * q.den := by apply mul_le_mul_of_nonneg_left b1 h.le
        _ = q.num.natAbs := hmul
    rw [div_mul_eq_mul_div, lt_div_iff₀ (by positivity)]
    calc q * 2 ^ b ≤ _ := this
      _ < _ := by rw [pow_succ] at a2; exact a2
  have lower : (2 : Rat) ^ ((a : Int) - b - 1) < q := by
    rw [zpow_sub₀ (by norm_num), zpow_sub₀ (by norm_num), zpow_natCast, zpow_natCast, zpow_one]
    have : (q.num.natAbs : Rat) < q * 2 ^ (b + 1) := by
      calc (q.num.natAbs : Rat) = q * q.den := hmul.symm
        _ < q * 2 ^ (b + 1) := by apply mul_lt_mul_of_pos_left b2 h
    rw [div_div, div_lt_iff₀ (by positivity)]
    calc (2 : Rat) ^ a ≤ _ := a1
      _ < _ := by rw [pow_succ] at this; exact this
  unfold expOf
  simp only [← ha, ← hb, pow2_eq]
  split
  · rename_i h1; exact ⟨h1, upper⟩
  · rename_i h1
    refine ⟨lower.le, ?_⟩
    rw [sub_add_cancel]
    exact not_le.1 h1

theorem nearestInt_near (x : Rat) : |(nearestInt x : Rat) - x| ≤ 1 / 2 := by
  have h1 : (x.floor : Rat) ≤ x := Rat.floor_le x
  have h2 : x < x.floor + 1 := by exact_mod_cast Rat.lt_floor_add_one x
  unfold nearestInt
  simp only
  split
  · rw [abs_le]; constructor <;> linarith
  · split
    · push_cast; rw [abs_le]; constructor <;> linarith
    · split
      · rw [abs_le]; constructor <;> linarith
      · push_cast; rw [abs_le]; constructor <;> linarith

theorem nearestInt_mono {x y : Rat} (h : x ≤ y) : nearestInt x ≤ nearestInt y := by
  by_contra hc
  have hc : nearestInt y + 1 ≤ nearestInt x := by omega
  have hc' : (nearestInt y : Rat) + 1 ≤ nearestInt x := by exact_mod_cast hc
  have h1 := abs_le.1 (nearestInt_near x)
  have h2 := abs_le.1 (nearestInt_near y)
  have : x = y := by linarith [h1.1, h1.2, h2.1, h2.2]
  subst this
  omega

theorem nearestInt_int (n : Int) : nearestInt (n : Rat) = n := by
  have h := abs_le.1 (nearestInt_near (n : Rat))
  have h1 : ((nearestInt n - n : Int) : Rat) ≤ 1 / 2 := by push_cast; exact h.2
  have h2 : (-(1 / 2) : Rat) ≤ ((nearestInt n - n : Int) : Rat) := by push_cast; exact h.1
  have h3 : nearestInt (n : Rat) - n < 1 := by
    have : ((nearestInt n - n : Int) : Rat) < ((1 : Int) : Rat) := by push_cast at *; linarith
    exact_mod_cast this
  have h4 : -1 < nearestInt (n : Rat) - n := by
    have : ((-1 : Int) : Rat) < ((nearestInt n - n : Int) : Rat) := by push_cast at *; linarith
    exact_mod_cast this
  omega

/-- the scaled number: between `2^52` and `2^53` -/
theorem scaled {q : Rat} (h : 0 < q) : ((2 ^ 52 : Int) : Rat) ≤ q * 2 ^ (-(expOf q - 52)) ∧ q * 2 ^ (-(expOf q - 52)) < ((2 ^ 53 : Int) : Rat) := by
  obtain ⟨h1, h2⟩ := expOf_spec h
  have hp := two_pos (-(expOf q - 52))
  constructor
  · calc ((2 ^ 52 : Int) : Rat) = 2 ^ expOf q * 2 ^ (-(expOf q - 52)) := by
          rw [← zpow_add₀ (by norm_num), show expOf q + -(expOf q - 52) = ((52 : Nat) : Int) by push_cast; ring, zpow_natCast]; push_cast; rfl
      _ ≤ _ := by apply mul_le_mul_of_nonneg_right h1 hp.le
  · calc q * 2 ^ (-(expOf q - 52)) < 2 ^ (expOf q + 1) * 2 ^ (-(expOf q - 52)) := by apply mul_lt_mul_of_pos_right h2 hp
      _ = _ := by
        rw [← zpow_add₀ (by norm_num), show expOf q + 1 + -(expOf q - 52) = ((53 : Nat) : Int) by push_cast; ring, zpow_natCast]; push_cast; rfl

theorem unscale (q : Rat) (e : Int) : q * 2 ^ (-e) * 2 ^ e = q := by
  rw [mul_assoc, ← zpow_add₀ (by norm_num)]; simp

theorem roundPos_eq (q : Rat) : roundPos q = (nearestInt (q * 2 ^ (-(expOf q - 52))) : Rat) * 2 ^ (expOf q - 52) := by
  unfold roundPos
  simp only [pow2_eq]

/-- the mantissa found -/
theorem mantissa {q : Rat} (h : 0 < q) : 2 ^ 52 ≤ nearestInt (q * 2 ^ (-(expOf q - 52))) ∧ nearestInt (q * 2 ^ (-(expOf q - 52))) ≤ 2 ^ 53 := by
  obtain ⟨h1, h2⟩ := scaled h
  constructor
  · rw [← nearestInt_int (2 ^ 52)]; exact nearestInt_mono h1
  · rw [← nearestInt_int (2 ^ 53)]; exact nearestInt_mono h2.le

theorem roundPos_bounds {q : Rat} (h : 0 < q) : (2 : Rat) ^ expOf q ≤ roundPos q ∧ roundPos q ≤ 2 ^ (expOf q + 1) := by
  obtain ⟨h1, h2⟩ := mantissa h
  have h1' : ((2 ^ 52 : Int) : Rat) ≤ (nearestInt (q * 2 ^ (-(expOf q - 52))) : Rat) := by exact_mod_cast h1
  have h2' : (nearestInt (q * 2 ^ (-(expOf q - 52))) : Rat) ≤ ((2 ^ 53 : Int) : Rat) := by exact_mod_cast h2
  have hp := two_pos (expOf q - 52)
  rw [roundPos_eq]
  constructor
  · calc (2 : Rat) ^ expOf q = ((2 ^ 52 : Int) : Rat) * 2 ^ (expOf q - 52) := by
          rw [Int.cast_pow, ← zpow_natCast, Int.cast_ofNat, ← zpow_add₀ (by norm_num)]; congr 1; push_cast; ring
      _ ≤ _ := mul_le_mul_of_nonneg_right h1' hp.le
  · calc _ ≤ ((2 ^ 53 : Int) : Rat) * 2 ^ (expOf q - 52) := mul_le_mul_of_nonneg_right h2' hp.le
      _ = _ := by rw [Int.cast_pow, ← zpow_natCast, Int.cast_ofNat, ← zpow_add₀ (by norm_num)]; congr 1; push_cast; ring

theorem roundPos_pos {q : Rat} (h : 0 < q) : 0 < roundPos q := lt_of_lt_of_le (two_pos _) (roundPos_bounds h).1

theorem expOf_mono {x y : Rat} (hx : 0 < x) (h : x ≤ y) : expOf x ≤ expOf y := by
  obtain ⟨h1, -⟩ := expOf_spec hx
  obtain ⟨-, h2⟩ := expOf_spec (lt_of_lt_of_le hx h)
  have : (2 : Rat) ^ expOf x < 2 ^ (expOf y + 1) := lt_of_le_of_lt (h1.trans h) h2
  rw [zpow_lt_zpow_iff_right₀ (by norm_num)] at this
  omega

theorem roundPos_mono {x y : Rat} (hx : 0 < x) (h : x ≤ y) : roundPos x ≤ roundPos y := by
  have hy := lt_of_lt_of_le hx h
  rcases (expOf_mono hx h).lt_or_eq with hlt | heq
  · calc roundPos x ≤ 2 ^ (expOf x + 1) := (roundPos_bounds hx).2
      _ ≤ 2 ^ expOf y := zpow_le_zpow_right₀ (by norm_num) (by omega)
      _ ≤ _ := (roundPos_bounds hy).1
  · rw [roundPos_eq, roundPos_eq, heq]
    apply mul_le_mul_of_nonneg_right _ (two_pos _).le
    exact_mod_cast nearestInt_mono (mul_le_mul_of_nonneg_right h (two_pos _).le)

theorem roundPos_error {q : Rat} (h : 0 < q) : |roundPos q - q| ≤ 2 ^ (-53 : Int) * q := by
  have h1 := nearestInt_near (q * 2 ^ (-(expOf q - 52)))
  have hp := two_pos (expOf q - 52)
  have e : roundPos q - q = ((nearestInt (q * 2 ^ (-(expOf q - 52))) : Rat) - q * 2 ^ (-(expOf q - 52))) * 2 ^ (expOf q - 52) := by
    rw [roundPos_eq, sub_mul, unscale]
  rw [e, abs_mul, abs_of_pos hp]
  calc _ ≤ 1 / 2 * 2 ^ (expOf q - 52) := mul_le_mul_of_nonneg_right h1 hp.le
    _ = 2 ^ (-53 : Int) * 2 ^ expOf q := by
      rw [show (1 / 2 : Rat) = 2 ^ (-1 : Int) by norm_num, ← zpow_add₀ (by norm_num), ← zpow_add₀ (by norm_num)]; congr 1; ring
    _ ≤ _ := mul_le_mul_of_nonneg_left (expOf_spec h).1 (two_pos _).le

theorem fl_of_pos {q : Rat} (h : 0 < q) : fl q = roundPos q := by unfold fl; rw [if_pos h]
theorem fl_zero : fl 0 = 0 := by unfold fl; simp
theorem fl_neg (q : Rat) : fl (-q) = -fl q := by
  unfold fl
  rcases lt_trichotomy q 0 with h | h | h
  · rw [if_pos (by linarith), if_neg (by linarith), if_pos h, neg_neg]
  · subst h; simp
  · rw [if_neg (by linarith), if_pos (by linarith), if_pos h, neg_neg]

theorem fl_pos {q : Rat} (h : 0 < q) : 0 < fl q := by rw [fl_of_pos h]; exact roundPos_pos h
theorem fl_nonneg {q : Rat} (h : 0 ≤ q) : 0 ≤ fl q := by
  rcases h.lt_or_eq with h | h
  · exact (fl_pos h).le
  · rw [← h, fl_zero]
theorem fl_nonpos {q : Rat} (h : q ≤ 0) : fl q ≤ 0 := by
  have := fl_nonneg (q := -q) (by linarith)
  rw [fl_neg] at this
  linarith

/-- rounding is monotone -/
theorem fl_mono {x y : Rat} (h : x ≤ y) : fl x ≤ fl y := by
  rcases lt_or_ge 0 x with hx | hx
  · rw [fl_of_pos hx, fl_of_pos (by linarith)]; exact roundPos_mono hx h
  · rcases lt_or_ge y 0 with hy | hy
    · have := roundPos_mono (x := -y) (y := -x) (by linarith) (by linarith)
      rw [← fl_of_pos (by linarith), ← fl_of_pos (by linarith), fl_neg, fl_neg] at this
      linarith
    · exact (fl_nonpos hx).trans (fl_nonneg hy)

/-- the relative error of rounding -/
theorem fl_error (q : Rat) : |fl q - q| ≤ 2 ^ (-53 : Int) * |q| := by
  rcases lt_trichotomy q 0 with h | h | h
  · have := roundPos_error (q := -q) (by linarith)
    rw [← fl_of_pos (by linarith), fl_neg] at this
    rw [abs_of_neg h, ← abs_neg]
    rw [show -(fl q - q) = -fl q - -q by ring]
    exact this
  · subst h; simp [fl_zero]
  · rw [fl_of_pos h, abs_of_pos h]; exact roundPos_error h

/-- floats at or above `2^k` are multiples of `2^(k-52)` -/
theorem grid {g : Rat} (hg : IsFloat g) {k : Int} (h : (2 : Rat) ^ k ≤ g) : ∃ n : Int, g * 2 ^ (-(k - 52)) = n := by
  obtain ⟨m, e, hm, rfl⟩ := hg
  have hm0 : 0 < (m : Rat) := by
    have := lt_of_lt_of_le (two_pos k) h
    exact pos_of_mul_pos_left this (two_pos e).le
  have hk : k < 53 + e := by
    have : (2 : Rat) ^ k < 2 ^ (53 + e) := by
      refine lt_of_le_of_lt h ?_
      rw [zpow_add₀ (by norm_num)]
      apply mul_lt_mul_of_pos_right _ (two_pos e)
      have : m < 2 ^ 53 := (abs_lt.1 hm).2
      exact_mod_cast this
    rwa [zpow_lt_zpow_iff_right₀ (by norm_num)] at this
  obtain ⟨j, hj⟩ := Int.eq_ofNat_of_zero_le (show 0 ≤ e - (k - 52) by omega)
  refine ⟨m * 2 ^ j, ?_⟩
  rw [mul_assoc, ← zpow_add₀ (by norm_num), show e + -(k - 52) = (j : Int) by rw [← hj]; ring, zpow_natCast]
  push_cast; rfl

/-- rounding is exact on floats -/
theorem fl_float {f : Rat} (hf : IsFloat f) : fl f = f := by
  have pos : ∀ f, IsFloat f → 0 < f → fl f = f := by
    intro f hf h
    obtain ⟨n, hn⟩ := grid hf (expOf_spec h).1
    rw [fl_of_pos h, roundPos_eq, hn, nearestInt_int, ← hn, unscale]
  rcases lt_trichotomy f 0 with h | h | h
  · have hf' : IsFloat (-f) := by
      obtain ⟨m, e, hm, rfl⟩ := hf
      exact ⟨-m, e, by rwa [abs_neg], by push_cast; ring⟩
    have := pos (-f) hf' (by linarith)
    rw [fl_neg] at this
    linarith
  · rw [h, fl_zero]
  · exact pos f hf h

theorem isFloat_int {n : Int} (h : |n| ≤ 2 ^ 53) : IsFloat n := by
  rcases h.lt_or_eq with h | h
  · exact ⟨n, 0, h, by simp⟩
  · rcases abs_eq (by positivity) |>.1 h with h | h
    · exact ⟨2 ^ 52, 1, by rw [abs_of_pos (by positivity)]; norm_num, by rw [h]; norm_num⟩
    · exact ⟨-2 ^ 52, 1, by rw [abs_neg, abs_of_pos (by positivity)]; norm_num, by rw [h]; norm_num⟩

theorem fl_int {n : Int} (h : |n| ≤ 2 ^ 53) : fl n = n := fl_float (isFloat_int h)
theorem fl_nat {n : Nat} (h : n ≤ 2 ^ 53) : fl n = n := by
  have := fl_int (n := n) (by rw [abs_of_nonneg (by omega)]; exact_mod_cast h)
  exact_mod_cast this
theorem fl_one : fl 1 = 1 := by
  have := fl_nat (n := 1) (by norm_num)
  exact_mod_cast this

/-- results of rounding are floats -/
theorem isFloat_fl (q : Rat) : IsFloat (fl q) := by
  have pos : ∀ q, 0 < q → IsFloat (fl q) := by
    intro q h
    rw [fl_of_pos h, roundPos_eq]
    obtain ⟨h1, h2⟩ := mantissa h
    rcases h2.lt_or_eq with h2 | h2
    · exact ⟨_, _, by rw [abs_of_pos (lt_of_lt_of_le (by norm_num) h1)]; exact h2, rfl⟩
    · refine ⟨2 ^ 52, expOf q - 52 + 1, by rw [abs_of_pos (by positivity)]; norm_num, ?_⟩
      rw [h2, zpow_add₀ (by norm_num)]; push_cast; ring
  rcases lt_trichotomy q 0 with h | h | h
  · have := pos (-q) (by linarith)
    rw [fl_neg] at this
    obtain ⟨m, e, hm, he⟩ := this
    exact ⟨-m, e, by rwa [abs_neg], by push_cast; linarith⟩
  · rw [h, fl_zero]; exact ⟨0, 0, by norm_num, by simp⟩
  · exact pos q h

theorem fl_fl (q : Rat) : fl (fl q) = fl q := fl_float (isFloat_fl q)

theorem floor_spec (x : Rat) (n : Int) : ((n : Rat) ≤ x → n ≤ x.floor) := Rat.le_floor_iff.2

/-- no float is nearer than the one found (`q > 0`) -/
theorem nearest_pos {q : Rat} (h : 0 < q) {g : Rat} (hg : IsFloat g) :
    |fl q - q| ≤ |g - q| ∧ (g ≠ fl q → |fl q - q| = |g - q| → EvenMantissa (fl q)) := by
  rw [fl_of_pos h]
  set e := expOf q - 52 with he
  set x := q * 2 ^ (-e) with hx
  set y := g * 2 ^ (-e) with hy
  set N := nearestInt x with hN
  have hp := two_pos e
  have e1 : roundPos q = N * 2 ^ e := roundPos_eq q
  have e2 : |roundPos q - q| = |(N : Rat) - x| * 2 ^ e := by
    have : roundPos q - q = ((N : Rat) - x) * 2 ^ e := by rw [e1, sub_mul, hx, unscale]
    rw [this, abs_mul, abs_of_pos hp]
  have e3 : |g - q| = |y - x| * 2 ^ e := by
    have : g - q = (y - x) * 2 ^ e := by rw [sub_mul, hx, hy, unscale, unscale]
    rw [this, abs_mul, abs_of_pos hp]
  have f1 : (x.floor : Rat) ≤ x := Rat.floor_le x
  have f2 : x < x.floor + 1 := by exact_mod_cast Rat.lt_floor_add_one x
  obtain ⟨s1, s2⟩ := scaled h
  rw [← he, ← hx] at s1 s2
  have fl52 : ((2 ^ 52 : Int) : Rat) ≤ (x.floor : Rat) := by exact_mod_cast floor_spec x _ s1
  have fl53 : (x.floor : Rat) + 1 ≤ ((2 ^ 53 : Int) : Rat) := by
    have : x.floor < 2 ^ 53 := by
      have : (x.floor : Rat) < ((2 ^ 53 : Int) : Rat) := lt_of_le_of_lt f1 s2
      exact_mod_cast this
    exact_mod_cast (by omega : x.floor + 1 ≤ 2 ^ 53)
  -- the float is at most the floor or at least the next integer
  have key : y ≤ x.floor ∨ (x.floor : Rat) + 1 ≤ y := by
    rcases lt_or_ge g ((2 : Rat) ^ expOf q) with h1 | h1
    · left
      have : y < ((2 ^ 52 : Int) : Rat) := by
        calc y < 2 ^ expOf q * 2 ^ (-e) := mul_lt_mul_of_pos_right h1 (two_pos _)
          _ = _ := by
            rw [← zpow_add₀ (by norm_num), show expOf q + -e = ((52 : Nat) : Int) by rw [he]; push_cast; ring, zpow_natCast]; push_cast; rfl
      linarith
    · obtain ⟨n, hn⟩ := grid hg h1
      rw [← he, ← hy] at hn
      rw [hn]
      rcases le_or_gt n x.floor with h2 | h2
      · left; exact_mod_cast h2
      · right; exact_mod_cast h2
  have near : |(N : Rat) - x| ≤ |y - x| := by
    have hNf : N = nearestInt x := hN
    unfold nearestInt at hNf
    simp only at hNf
    split at hNf
    · rename_i c
      rw [hNf, abs_of_nonpos (by linarith)]
      rcases key with k | k
      · rw [abs_of_nonpos (by linarith)]; linarith
      · rw [abs_of_nonneg (by linarith)]; linarith
    · split at hNf
      · rename_i c1 c
        rw [hNf]; push_cast
        rw [abs_of_nonneg (by linarith)]
        rcases key with k | k
        · rw [abs_of_nonpos (by linarith)]; linarith
        · rw [abs_of_nonneg (by linarith)]; linarith
      · rename_i c1 c2
        split at hNf
        · rw [hNf, abs_of_nonpos (by linarith)]
          rcases key with k | k
          · rw [abs_of_nonpos (by linarith)]; linarith
          · rw [abs_of_nonneg (by linarith)]; linarith
        · rw [hNf]; push_cast
          rw [abs_of_nonneg (by linarith)]
          rcases key with k | k
          · rw [abs_of_nonpos (by linarith)]; linarith
          · rw [abs_of_nonneg (by linarith)]; linarith
  refine ⟨by rw [e2, e3]; exact mul_le_mul_of_nonneg_right near hp.le, fun hne heq => ?_⟩
  have heq' : |(N : Rat) - x| = |y - x| := by
    rw [e2, e3] at heq
    exact mul_right_cancel₀ hp.ne' heq
  have hyN : y ≠ N := by
    intro hc
    apply hne
    rw [e1, ← hc, hy, unscale]
  -- a tie: the mantissa is even
  have hev : N % 2 = 0 := by
    have hNf : N = nearestInt x := hN
    unfold nearestInt at hNf
    simp only at hNf
    split at hNf
    · rename_i c
      exfalso
      rw [hNf] at heq' hyN
      rw [abs_of_nonpos (by linarith : (x.floor : Rat) - x ≤ 0)] at heq'
      rcases key with k | k
      · rw [abs_of_nonpos (by linarith)] at heq'
        exact hyN (by linarith)
      · rw [abs_of_nonneg (by linarith)] at heq'
        linarith
    · split at hNf
      · rename_i c1 c
        exfalso
        rw [hNf] at heq' hyN
        push_cast at heq' hyN
        rw [abs_of_nonneg (by linarith : (0 : Rat) ≤ (x.floor : Rat) + 1 - x)] at heq'
        rcases key with k | k
        · rw [abs_of_nonpos (by linarith)] at heq'
          linarith
        · rw [abs_of_nonneg (by linarith)] at heq'
          exact hyN (by linarith)
      · split at hNf
        · omega
        · omega
  obtain ⟨m1, m2⟩ := mantissa h
  rw [← he, ← hx, ← hN] at m1 m2
  rw [e1]
  rcases m2.lt_or_eq with m2 | m2
  · exact ⟨N, e, by rw [abs_of_pos (by omega)]; exact m1, by rw [abs_of_pos (by omega)]; exact m2, hev, rfl⟩
  · refine ⟨2 ^ 52, e + 1, by rw [abs_of_pos (by positivity)], by rw [abs_of_pos (by positivity)]; norm_num, by norm_num, ?_⟩
    rw [m2, zpow_add₀ (by norm_num)]; push_cast; ring

theorem isFloat_neg {f : Rat} (h : IsFloat f) : IsFloat (-f) := by
  obtain ⟨m, e, hm, rfl⟩ := h
  exact ⟨-m, e, by rwa [abs_neg], by push_cast; ring⟩

/-- the rounding of the model is the one of IEEE 754 -/
theorem fl_isRounding (q : Rat) : IsRounding q (fl q) := by
  rcases lt_trichotomy q 0 with h | h | h
  · have key := fun g (hg : IsFloat g) => nearest_pos (q := -q) (by linarith) (isFloat_neg hg)
    have flip : ∀ a b : Rat, |-a - -b| = |a - b| := fun a b => by rw [← abs_neg]; congr 1; ring
    refine ⟨isFloat_fl q, fun g hg => ?_, fun g hg hne heq => ?_⟩
    · have := (key g hg).1
      rwa [fl_neg, flip, flip] at this
    · have := (key g hg).2 (by rw [fl_neg]; intro hc; exact hne (by linarith)) (by rw [fl_neg, flip, flip]; exact heq)
      rw [fl_neg] at this
      obtain ⟨m, e, h1, h2, h3, h4⟩ := this
      exact ⟨-m, e, by rwa [abs_neg], by rwa [abs_neg], by omega, by push_cast; linarith⟩
  · subst h
    rw [fl_zero]
    refine ⟨⟨0, 0, by norm_num, by simp⟩, fun g _ => by simp, fun g _ hne heq => ?_⟩
    exfalso
    simp at heq
    exact hne (abs_eq_zero.1 heq.symm)
  · exact ⟨isFloat_fl q, fun g hg => (nearest_pos h hg).1, fun g hg => (nearest_pos h hg).2⟩

theorem canonical_exp {m e m' e' : Int} (h1 : 2 ^ 52 ≤ m) (h2 : m < 2 ^ 53) (h1' : 2 ^ 52 ≤ m') (h2' : m' < 2 ^ 53)
    (h : (m : Rat) * 2 ^ e = m' * 2 ^ e') : e ≤ e' := by
  have a : ((2 ^ 52 : Int) : Rat) ≤ m := by exact_mod_cast h1
  have b : (m' : Rat) < ((2 ^ 53 : Int) : Rat) := by exact_mod_cast h2'
  have : (2 : Rat) ^ (52 + e) < 2 ^ (53 + e') := by
    calc (2 : Rat) ^ (52 + e) = ((2 ^ 52 : Int) : Rat) * 2 ^ e := by rw [zpow_add₀ (by norm_num)]; norm_num
      _ ≤ m * 2 ^ e := mul_le_mul_of_nonneg_right a (two_pos e).le
      _ = m' * 2 ^ e' := h
      _ < ((2 ^ 53 : Int) : Rat) * 2 ^ e' := mul_lt_mul_of_pos_right b (two_pos e')
      _ = _ := by rw [zpow_add₀ (by norm_num)]; norm_num
  rw [zpow_lt_zpow_iff_right₀ (by norm_num)] at this
  omega

/-- two different positive floats with even mantissas are not neighbours -/
theorem between_pos {f g : Rat} (h0 : 0 < f) (hfg : f < g) (hf : EvenMantissa f) (hg : EvenMantissa g) :
    ∃ z, IsFloat z ∧ f < z ∧ z < g := by
  obtain ⟨m, e, a1, a2, a3, rfl⟩ := hf
  obtain ⟨m', e', b1, b2, b3, rfl⟩ := hg
  have hm : 0 < m := by
    have : (0 : Rat) < m := pos_of_mul_pos_left h0 (two_pos e).le
    exact_mod_cast this
  have hm' : 0 < m' := by
    have : (0 : Rat) < m' := pos_of_mul_pos_left (h0.trans hfg) (two_pos e').le
    exact_mod_cast this
  rw [abs_of_pos hm] at a1 a2
  rw [abs_of_pos hm'] at b1 b2
  have a4 : m + 1 < 2 ^ 53 := by omega
  refine ⟨((m + 1 : Int) : Rat) * 2 ^ e, ⟨m + 1, e, by rw [abs_of_pos (by omega)]; exact a4, rfl⟩, ?_, ?_⟩
  · apply mul_lt_mul_of_pos_right _ (two_pos e)
    exact_mod_cast (by omega : m < m + 1)
  · by_contra hc
    have hc := not_lt.1 hc
    have hgf : IsFloat ((m' : Rat) * 2 ^ e') := ⟨m', e', by rw [abs_of_pos hm']; exact b2, rfl⟩
    have hge : (2 : Rat) ^ (e + 52) ≤ (m' : Rat) * 2 ^ e' := by
      calc (2 : Rat) ^ (e + 52) = ((2 ^ 52 : Int) : Rat) * 2 ^ e := by rw [zpow_add₀ (by norm_num), mul_comm]; norm_num
        _ ≤ m * 2 ^ e := mul_le_mul_of_nonneg_right (by exact_mod_cast a1) (two_pos e).le
        _ ≤ _ := hfg.le
    obtain ⟨n, hn⟩ := grid hgf hge
    rw [show e + 52 - 52 = e by ring] at hn
    have hgn : (m' : Rat) * 2 ^ e' = n * 2 ^ e := by rw [← hn, unscale]
    rw [hgn] at hfg hc
    have c1 : (m : Rat) < n := lt_of_mul_lt_mul_right hfg (two_pos e).le
    have c2 : (n : Rat) ≤ ((m + 1 : Int) : Rat) := le_of_mul_le_mul_right hc (two_pos e)
    have c1 : m < n := by exact_mod_cast c1
    have c2 : n ≤ m + 1 := by exact_mod_cast c2
    have hnm : n = m + 1 := by omega
    rw [hnm] at hgn
    have x1 := canonical_exp b1 b2 (by omega : 2 ^ 52 ≤ m + 1) a4 hgn
    have x2 := canonical_exp (by omega : 2 ^ 52 ≤ m + 1) a4 b1 b2 hgn.symm
    have : e' = e := by omega
    rw [this] at hgn
    have := mul_right_cancel₀ (two_pos e).ne' hgn
    have : m' = m + 1 := by exact_mod_cast this
    omega

/-- the specification of rounding determines the result -/
theorem isRounding_unique {q f g : Rat} (hf : IsRounding q f) (hg : IsRounding q g) : f = g := by
  have key : ∀ f g, IsRounding q f → IsRounding q g → f < g → False := by
    intro f g hf hg hlt
    have e : |f - q| = |g - q| := le_antisymm (hf.nearest g hg.float) (hg.nearest f hf.float)
    have ef := hf.tie g hg.float hlt.ne' e
    have eg := hg.tie f hf.float hlt.ne e.symm
    have hq : g - q = q - f := by
      rcases abs_eq_abs.1 e with h | h
      · linarith
      · linarith
    have nob : ∀ z, IsFloat z → f < z → z < g → False := by
      intro z hz h1 h2
      have := hf.nearest z hz
      rw [abs_of_nonpos (by linarith)] at this
      rcases le_total z q with h | h
      · rw [abs_of_nonpos (by linarith)] at this; linarith
      · rw [abs_of_nonneg (by linarith)] at this; linarith
    have nz : ∀ f, EvenMantissa f → f ≠ 0 := by
      rintro f ⟨m, e, h1, -, -, rfl⟩ h
      rcases mul_eq_zero.1 h with h | h
      · have : m = 0 := by exact_mod_cast h
        rw [this] at h1; norm_num at h1
      · exact (two_pos e).ne' h
    rcases lt_trichotomy f 0 with h | h | h
    · rcases lt_trichotomy g 0 with h' | h' | h'
      · have neg : ∀ f, EvenMantissa f → EvenMantissa (-f) := by
          rintro f ⟨m, e, h1, h2, h3, rfl⟩
          exact ⟨-m, e, by rwa [abs_neg], by rwa [abs_neg], by omega, by push_cast; ring⟩
        obtain ⟨z, hz, z1, z2⟩ := between_pos (f := -g) (g := -f) (by linarith) (by linarith) (neg g eg) (neg f ef)
        exact nob (-z) (isFloat_neg hz) (by linarith) (by linarith)
      · exact nz g eg h'
      · exact nob 0 ⟨0, 0, by norm_num, by simp⟩ h h'
    · exact nz f ef h
    · obtain ⟨z, hz, z1, z2⟩ := between_pos h hlt ef eg
      exact nob z hz z1 z2
  rcases lt_trichotomy f g with h | h | h
  · exact (key f g hf hg h).elim
  · exact h
  · exact (key g f hg hf h).elim

end Verif.Float64
