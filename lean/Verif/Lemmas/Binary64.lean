import Verif.Lemmas.Float64
import Verif.Model.Binary64
import Verif.Spec.Binary64
/-! Lemmas for C103: binary64 with its range of exponents. -/
namespace Verif.Binary64
open Spec Float64

/-- 0, or between `2^l` and `2^h` in absolute value -/
def Bnd (l h : Int) (q : Rat) : Prop := q = 0 ∨ ((2 : Rat) ^ l ≤ |q| ∧ |q| ≤ 2 ^ h)

theorem zpow_le {a b : Int} (h : a ≤ b) : (2 : Rat) ^ a ≤ 2 ^ b := zpow_le_zpow_right₀ (by norm_num) h

theorem Bnd.mono {l h l' h' : Int} {q : Rat} (hl : l' ≤ l) (hh : h ≤ h') (hq : Bnd l h q) : Bnd l' h' q := by
  rcases hq with h | ⟨a, b⟩
  · exact .inl h
  · exact .inr ⟨(zpow_le hl).trans a, b.trans (zpow_le hh)⟩

theorem fl_abs_eq (q : Rat) : |fl q| = fl |q| := by
  rcases le_or_gt 0 q with h | h
  · rw [abs_of_nonneg h, abs_of_nonneg (fl_nonneg h)]
  · rw [abs_of_neg h, abs_of_nonpos (fl_nonpos h.le), fl_neg]

theorem isFloat_pow (e : Int) : IsFloat ((2 : Rat) ^ e) := ⟨1, e, by norm_num, by simp⟩

theorem Bnd.fl {l h : Int} {q : Rat} (hq : Bnd l h q) : Bnd l h (fl q) := by
  rcases hq with h | ⟨a, b⟩
  · exact .inl (by rw [h, fl_zero])
  · right
    rw [fl_abs_eq]
    have h1 := fl_mono a
    have h2 := fl_mono b
    rw [fl_float (isFloat_pow _)] at h1 h2
    exact ⟨h1, h2⟩

theorem Bnd.neg {l h : Int} {q : Rat} (hq : Bnd l h q) : Bnd l h (-q) := by
  rcases hq with h | h
  · exact .inl (by rw [h, neg_zero])
  · exact .inr (by rwa [abs_neg])

theorem Bnd.mul {l h l' h' : Int} {x y : Rat} (hx : Bnd l h x) (hy : Bnd l' h' y) : Bnd (l + l') (h + h') (x * y) := by
  rcases hx with hx | ⟨a, b⟩
  · exact .inl (by rw [hx, zero_mul])
  · rcases hy with hy | ⟨c, d⟩
    · exact .inl (by rw [hy, mul_zero])
    · right
      rw [abs_mul, zpow_add₀ (by norm_num), zpow_add₀ (by norm_num)]
      exact ⟨mul_le_mul a c (two_pos _).le (abs_nonneg _), mul_le_mul b d (abs_nonneg _) (two_pos _).le⟩

/-- floats of absolute value at least `2^l` are multiples of `2^(l-52)` -/
theorem Bnd.grid {l h : Int} {x : Rat} (hx : Bnd l h x) (hf : IsFloat x) : ∃ n : Int, x = n * (2 : Rat) ^ (l - 52) := by
  rcases hx with hx | ⟨a, _⟩
  · exact ⟨0, by rw [hx]; simp⟩
  · rcases le_or_gt 0 x with h0 | h0
    · rw [abs_of_nonneg h0] at a
      obtain ⟨n, hn⟩ := Float64.grid hf a
      exact ⟨n, by rw [← hn, unscale]⟩
    · rw [abs_of_neg h0] at a
      obtain ⟨n, hn⟩ := Float64.grid (isFloat_neg hf) a
      exact ⟨-n, by rw [Int.cast_neg, neg_mul, ← hn, unscale, neg_neg]⟩

theorem Bnd.add {l h : Int} {x y : Rat} (hx : Bnd l h x) (hy : Bnd l h y) (fx : IsFloat x) (fy : IsFloat y) : Bnd (l - 52) (h + 1) (x + y) := by
  by_cases h0 : x + y = 0
  · exact .inl h0
  · right
    obtain ⟨n, hn⟩ := hx.grid fx
    obtain ⟨m, hm⟩ := hy.grid fy
    constructor
    · rw [hn, hm, ← add_mul, abs_mul, abs_of_pos (two_pos (l - 52))]
      have : (1 : Rat) ≤ |(n : Rat) + m| := by
        have hne : n + m ≠ 0 := fun e => h0 (by rw [hn, hm, ← add_mul, ← Int.cast_add, e]; simp)
        have := Int.one_le_abs hne
        exact_mod_cast this
      calc (2 : Rat) ^ (l - 52) = 1 * 2 ^ (l - 52) := (one_mul _).symm
        _ ≤ _ := mul_le_mul_of_nonneg_right this (two_pos _).le
    · have up : ∀ z, Bnd l h z → |z| ≤ 2 ^ h := fun z hz => by
        rcases hz with e | e
        · rw [e, abs_zero]; exact (two_pos h).le
        · exact e.2
      rw [zpow_add₀ (by norm_num), zpow_one]
      have := up x hx
      have := up y hy
      have := abs_add_le x y
      linarith

theorem Bnd.sub {l h : Int} {x y : Rat} (hx : Bnd l h x) (hy : Bnd l h y) (fx : IsFloat x) (fy : IsFloat y) : Bnd (l - 52) (h + 1) (x - y) := by
  rw [sub_eq_add_neg x y]
  exact hx.add hy.neg fx (isFloat_neg fy)

theorem Bnd.int {k : Nat} {n : Int} (h : |n| ≤ 2 ^ k) : Bnd 0 k (n : Rat) := by
  by_cases h0 : n = 0
  · exact .inl (by rw [h0]; simp)
  · right
    have := Int.one_le_abs h0
    rw [zpow_zero, zpow_natCast]
    exact ⟨by exact_mod_cast this, by exact_mod_cast h⟩

theorem Bnd.div {k j : Nat} {a b : Int} (ha : |a| ≤ 2 ^ k) (hb : |b| ≤ 2 ^ j) (h0 : b ≠ 0) : Bnd (-j) k ((a : Rat) / b) := by
  by_cases ha0 : a = 0
  · exact .inl (by rw [ha0]; simp)
  · right
    have h1 : (1 : Rat) ≤ |(a : Rat)| := by exact_mod_cast Int.one_le_abs ha0
    have h2 : (1 : Rat) ≤ |(b : Rat)| := by exact_mod_cast Int.one_le_abs h0
    have h3 : |(a : Rat)| ≤ 2 ^ k := by exact_mod_cast ha
    have h4 : |(b : Rat)| ≤ 2 ^ j := by exact_mod_cast hb
    have hp : (0 : Rat) < |(b : Rat)| := by linarith
    rw [abs_div, zpow_neg, zpow_natCast, zpow_natCast]
    constructor
    · rw [le_div_iff₀ hp, inv_mul_le_iff₀ (by positivity)]
      nlinarith
    · rw [div_le_iff₀ hp]
      nlinarith [abs_nonneg (a : Rat)]

/-! ### no difference inside the range -/

theorem roundPos_same {q : Rat} (h : 0 < q) (hl : (2 : Rat) ^ (-1022 : Int) ≤ q) : roundPos q = Float64.roundPos q := by
  have : -1022 ≤ expOf q := by
    obtain ⟨_, h2⟩ := expOf_spec h
    have := lt_of_le_of_lt hl h2
    rw [zpow_lt_zpow_iff_right₀ (by norm_num)] at this
    omega
  unfold roundPos Float64.roundPos
  simp only
  rw [max_eq_left (by omega)]

theorem roundAny_same {l h : Int} {q : Rat} (hq : Bnd l h q) (hl : -1022 ≤ l) : roundAny q = fl q := by
  unfold roundAny fl
  rcases hq with h0 | ⟨a, _⟩
  · simp [h0]
  · have a := (zpow_le hl).trans a
    split
    · rename_i hp
      rw [abs_of_pos hp] at a
      exact roundPos_same hp a
    · split
      · rename_i hn
        rw [abs_of_neg hn] at a
        rw [roundPos_same (by linarith) a]
      · rfl

theorem round_same {l h : Int} {q : Rat} (hq : Bnd l h q) (hl : -1022 ≤ l) (hh : h ≤ 1023) : round q = .fin (fl q) := by
  have h2 : |fl q| < pow2 1024 := by
    rw [pow2_eq]
    rcases hq.fl with e | ⟨_, b⟩
    · rw [e, abs_zero]; exact two_pos _
    · refine lt_of_le_of_lt (b.trans (zpow_le hh)) ?_
      rw [zpow_lt_zpow_iff_right₀ (by norm_num)]
      omega
  obtain ⟨h3, h4⟩ := abs_lt.1 h2
  unfold round
  rw [roundAny_same hq hl, if_neg (not_le.2 h4), if_neg (not_le.2 h3)]

/-- the result `x` of a computation of binary64 is the number `q` of the unlimited format, which is 0 or between `2^l` and `2^h` -/
structure Agrees (l h : Int) (x : XF) (q : Rat) : Prop where
  eq : x = .fin q
  float : IsFloat q
  bnd : Bnd l h q

theorem agrees_round {l h : Int} {q : Rat} (hq : Bnd l h q) (hl : -1022 ≤ l) (hh : h ≤ 1023) : Agrees l h (round q) (fl q) :=
  ⟨round_same hq hl hh, isFloat_fl q, hq.fl⟩

theorem Agrees.mono {l h l' h' : Int} {x : XF} {q : Rat} (hl : l' ≤ l) (hh : h ≤ h') (a : Agrees l h x q) : Agrees l' h' x q := ⟨a.eq, a.float, a.bnd.mono hl hh⟩

theorem Agrees.mul {l h l' h' : Int} {x y : XF} {p q : Rat} (a : Agrees l h x p) (b : Agrees l' h' y q) (hl : -1022 ≤ l + l') (hh : h + h' ≤ 1023) :
    Agrees (l + l') (h + h') (mul x y) (Float64.mul p q) := by
  rw [a.eq, b.eq]
  exact agrees_round (a.bnd.mul b.bnd) hl hh

theorem Agrees.add {l h : Int} {x y : XF} {p q : Rat} (a : Agrees l h x p) (b : Agrees l h y q) (hl : -1022 ≤ l - 52) (hh : h + 1 ≤ 1023) :
    Agrees (l - 52) (h + 1) (add x y) (Float64.add p q) := by
  rw [a.eq, b.eq]
  exact agrees_round (a.bnd.add b.bnd a.float b.float) hl hh

theorem Agrees.sub {l h : Int} {x y : XF} {p q : Rat} (a : Agrees l h x p) (b : Agrees l h y q) (hl : -1022 ≤ l - 52) (hh : h + 1 ≤ 1023) :
    Agrees (l - 52) (h + 1) (sub x y) (Float64.sub p q) := by
  rw [a.eq, b.eq]
  unfold Binary64.sub Float64.sub
  simp only [Binary64.neg, Binary64.add]
  rw [← sub_eq_add_neg]
  exact agrees_round (a.bnd.sub b.bnd a.float b.float) hl hh

theorem agrees_one {l h : Int} (hl : l ≤ 0) (hh : 0 ≤ h) : Agrees l h (.fin 1) 1 :=
  ⟨rfl, ⟨1, 0, by norm_num, by simp⟩, .inr (by rw [abs_one, ← zpow_zero (2 : Rat)]; exact ⟨zpow_le hl, zpow_le hh⟩)⟩

theorem exact_agrees {l h : Int} {q : Rat} (hq : Bnd l h q) (hl : -1022 ≤ l) (hh : h ≤ 1023) : ∃ x, exact q = .ok x ∧ Agrees l h x (fl q) := by
  have a := agrees_round hq hl hh
  unfold exact
  rw [a.eq]
  exact ⟨_, rfl, ⟨rfl, a.float, a.bnd⟩⟩

/-- both divisions fail, or both give the same number -/
theorem div_agrees {k j : Nat} {a b : Int} (ha : |a| ≤ 2 ^ k) (hb : |b| ≤ 2 ^ j) (hk : k ≤ 1022) (hj : j ≤ 1022) :
    (b = 0 ∧ div a b = .error .zeroDivisionError ∧ Float64.div a b = .error .zeroDivisionError) ∨
    (b ≠ 0 ∧ ∃ x q, div a b = .ok x ∧ Float64.div a b = .ok q ∧ Agrees (-j) k x q) := by
  by_cases h0 : b = 0
  · exact .inl ⟨h0, by simp [div, h0], by simp [Float64.div, h0]⟩
  · right
    have hr : (b : Rat) ≠ 0 := by exact_mod_cast h0
    obtain ⟨x, h1, h2⟩ := exact_agrees (Bnd.div ha hb h0) (by omega) (by omega)
    refine ⟨h0, x, _, ?_, ?_, h2⟩
    · unfold div; rw [if_neg hr]; exact h1
    · unfold Float64.div; rw [if_neg hr]

/-! ### the rounding is the one of IEEE 754 -/

theorem nearestInt_best (x : Rat) (n : Int) : |(nearestInt x : Rat) - x| ≤ |(n : Rat) - x| ∧ (n ≠ nearestInt x → |(nearestInt x : Rat) - x| = |(n : Rat) - x| → nearestInt x % 2 = 0) := by
  have h1 := nearestInt_near x
  by_cases hn : n = nearestInt x
  · exact ⟨by rw [hn], fun h => absurd hn h⟩
  · have h2 : (1 : Rat) ≤ |(n : Rat) - nearestInt x| := by
      have := Int.one_le_abs (sub_ne_zero.2 hn)
      exact_mod_cast this
    have h3 : |(n : Rat) - nearestInt x| ≤ |(n : Rat) - x| + |(nearestInt x : Rat) - x| := by
      have := abs_sub_le (n : Rat) x (nearestInt x)
      rwa [abs_sub_comm x] at this
    refine ⟨by linarith, fun _ he => ?_⟩
    have h4 : |(nearestInt x : Rat) - x| = 1 / 2 := by linarith
    have f1 : (x.floor : Rat) ≤ x := Rat.floor_le x
    have f2 : x < x.floor + 1 := by exact_mod_cast Rat.lt_floor_add_one x
    unfold nearestInt at h4 ⊢
    simp only at h4 ⊢
    split
    · rename_i c
      rw [if_pos c] at h4
      rw [abs_of_nonpos (by linarith)] at h4
      linarith
    · rename_i c
      rw [if_neg c] at h4
      split
      · rename_i c'
        rw [if_pos c'] at h4
        push_cast at h4
        rw [abs_of_nonneg (by linarith)] at h4
        linarith
      · split
        · assumption
        · omega

/-- the exponent of the last digit -/
def lastExp (q : Rat) : Int := max (expOf q - 52) (-1074)

theorem roundPos_eq (q : Rat) : roundPos q = (nearestInt (q * 2 ^ (-lastExp q)) : Rat) * 2 ^ lastExp q := by
  unfold roundPos lastExp
  simp only [pow2_eq]

theorem dist_scaled (n : Int) (q : Rat) (e : Int) : |(n : Rat) * 2 ^ e - q| = |(n : Rat) - q * 2 ^ (-e)| * 2 ^ e := by
  conv_lhs => rw [← unscale q e]
  rw [← sub_mul, abs_mul, abs_of_pos (two_pos e)]

/-- a number of the format is a multiple of the last digit of `q`, or smaller than the power of 2 below `q` -/
theorem float64_grid {q g : Rat} (hg : IsFloat64 g) : (∃ n : Int, g = n * (2 : Rat) ^ lastExp q) ∨ (lastExp q = expOf q - 52 ∧ |g| < 2 ^ expOf q) := by
  obtain ⟨m, e, hm, h1, h2, rfl⟩ := hg
  by_cases he : lastExp q ≤ e
  · left
    obtain ⟨j, hj⟩ := Int.eq_ofNat_of_zero_le (show 0 ≤ e - lastExp q by omega)
    refine ⟨m * 2 ^ j, ?_⟩
    rw [show e = (j : Int) + lastExp q by omega, zpow_add₀ (by norm_num), zpow_natCast]
    push_cast; ring
  · right
    have h3 : lastExp q = expOf q - 52 := by unfold lastExp at *; omega
    refine ⟨h3, ?_⟩
    rw [abs_mul, abs_of_pos (two_pos e)]
    have h4 : |(m : Rat)| < 2 ^ (53 : Nat) := by exact_mod_cast hm
    calc |(m : Rat)| * 2 ^ e < 2 ^ (53 : Nat) * 2 ^ e := mul_lt_mul_of_pos_right h4 (two_pos e)
      _ = 2 ^ (53 + e) := by rw [zpow_add₀ (by norm_num)]; norm_cast
      _ ≤ 2 ^ expOf q := zpow_le (by omega)

theorem roundPos_nearest {q : Rat} (h : 0 < q) {g : Rat} (hg : IsFloat64 g) :
    |roundPos q - q| ≤ |g - q| ∧ (g ≠ roundPos q → |roundPos q - q| = |g - q| → nearestInt (q * 2 ^ (-lastExp q)) % 2 = 0) := by
  rw [roundPos_eq]
  rcases float64_grid (q := q) hg with ⟨n, rfl⟩ | ⟨he, hlt⟩
  · obtain ⟨b1, b2⟩ := nearestInt_best (q * 2 ^ (-lastExp q)) n
    rw [dist_scaled, dist_scaled]
    have hp := two_pos (lastExp q)
    refine ⟨mul_le_mul_of_nonneg_right b1 hp.le, fun hne heq => b2 (fun hh => hne (by rw [hh])) (mul_right_cancel₀ hp.ne' heq)⟩
  · obtain ⟨e1, _⟩ := expOf_spec h
    have hlt' : g < 2 ^ expOf q := lt_of_le_of_lt (le_abs_self g) hlt
    have e2 : ((2 ^ 52 : Int) : Rat) * 2 ^ lastExp q = 2 ^ expOf q := by
      rw [he, zpow_sub₀ (by norm_num), mul_comm]; norm_num
    have b1 := (nearestInt_best (q * 2 ^ (-lastExp q)) (2 ^ 52)).1
    have b2 : |(nearestInt (q * 2 ^ (-lastExp q)) : Rat) * 2 ^ lastExp q - q| ≤ |((2 ^ 52 : Int) : Rat) * 2 ^ lastExp q - q| := by
      rw [dist_scaled, dist_scaled]
      exact mul_le_mul_of_nonneg_right b1 (two_pos _).le
    rw [e2, abs_of_nonpos (a := (2 : Rat) ^ expOf q - q) (by linarith)] at b2
    have b3 : |g - q| = q - g := by rw [abs_of_neg (by linarith)]; ring
    have b4 : |(nearestInt (q * 2 ^ (-lastExp q)) : Rat) * 2 ^ lastExp q - q| < |g - q| := by rw [b3]; linarith
    exact ⟨b4.le, fun _ he => absurd he b4.ne⟩

theorem scaled_bounds {q : Rat} (h : 0 < q) : 0 ≤ nearestInt (q * 2 ^ (-lastExp q)) ∧ nearestInt (q * 2 ^ (-lastExp q)) ≤ 2 ^ 53 ∧
    (2 ^ 52 ≤ nearestInt (q * 2 ^ (-lastExp q)) ∨ lastExp q = -1074) ∧ (nearestInt (q * 2 ^ (-lastExp q)) = 2 ^ 53 → lastExp q = expOf q - 52) := by
  by_cases hc : -1074 ≤ expOf q - 52
  · have he : lastExp q = expOf q - 52 := max_eq_left hc
    rw [he]
    obtain ⟨h1, h2⟩ := mantissa h
    exact ⟨le_trans (by norm_num) h1, h2, .inl h1, fun _ => rfl⟩
  · have he : lastExp q = -1074 := max_eq_right (by omega)
    rw [he]
    have h1 : (0 : Rat) ≤ q * 2 ^ (-(-1074 : Int)) := by positivity
    have h2 : q * 2 ^ (-(-1074 : Int)) ≤ ((2 ^ 52 : Int) : Rat) := by
      obtain ⟨_, e2⟩ := expOf_spec h
      have e3 : q ≤ 2 ^ (-1022 : Int) := e2.le.trans (zpow_le (by omega))
      calc q * 2 ^ (-(-1074 : Int)) ≤ 2 ^ (-1022 : Int) * 2 ^ (-(-1074 : Int)) := mul_le_mul_of_nonneg_right e3 (two_pos _).le
        _ = 2 ^ ((52 : Nat) : Int) := by rw [← zpow_add₀ (by norm_num)]; norm_num
        _ = _ := by rw [zpow_natCast]; push_cast; rfl
    have h3 : 0 ≤ nearestInt (q * 2 ^ (-(-1074 : Int))) := by
      have := nearestInt_mono h1
      rwa [show (0 : Rat) = ((0 : Int) : Rat) by simp, nearestInt_int] at this
    have h4 : nearestInt (q * 2 ^ (-(-1074 : Int))) ≤ 2 ^ 52 := by
      have := nearestInt_mono h2
      rwa [nearestInt_int] at this
    refine ⟨h3, h4.trans (by norm_num), .inr rfl, fun hh => ?_⟩
    rw [hh] at h4
    norm_num at h4

theorem roundPos_pos {q : Rat} (h : 0 < q) : 0 ≤ roundPos q := by
  rw [roundPos_eq]
  have : (0 : Rat) ≤ (nearestInt (q * 2 ^ (-lastExp q)) : Rat) := by exact_mod_cast (scaled_bounds h).1
  exact mul_nonneg this (two_pos _).le

theorem roundPos_float {q : Rat} (h : 0 < q) (hlt : roundPos q < 2 ^ (1024 : Int)) : IsFloat64 (roundPos q) := by
  obtain ⟨h1, h2, h3, h4⟩ := scaled_bounds h
  rw [roundPos_eq] at hlt ⊢
  have hge : -1074 ≤ lastExp q := le_max_right _ _
  rcases h2.lt_or_eq with h2 | h2
  · refine ⟨_, _, by rw [abs_of_nonneg h1]; exact h2, hge, ?_, rfl⟩
    rcases h3 with h3 | h3
    · have h3' : ((2 ^ 52 : Int) : Rat) ≤ (nearestInt (q * 2 ^ (-lastExp q)) : Rat) := by exact_mod_cast h3
      have : (2 : Rat) ^ (52 + lastExp q) < 2 ^ (1024 : Int) := by
        refine lt_of_le_of_lt ?_ hlt
        rw [zpow_add₀ (by norm_num)]
        refine mul_le_mul_of_nonneg_right ?_ (two_pos _).le
        exact le_trans (by norm_num) h3'
      rw [zpow_lt_zpow_iff_right₀ (by norm_num)] at this
      omega
    · omega
  · rw [h2] at hlt ⊢
    have e1 : ((2 ^ 53 : Int) : Rat) * 2 ^ lastExp q = 2 ^ (53 + lastExp q) := by rw [zpow_add₀ (by norm_num)]; norm_num
    refine ⟨2 ^ 52, lastExp q + 1, by rw [abs_of_pos (by positivity)]; norm_num, by omega, ?_, ?_⟩
    · rw [e1, zpow_lt_zpow_iff_right₀ (by norm_num)] at hlt
      omega
    · rw [zpow_add₀ (by norm_num)]; push_cast; ring

theorem roundPos_even {q : Rat} (h : 0 < q) (he : nearestInt (q * 2 ^ (-lastExp q)) % 2 = 0) : EvenMantissa64 (roundPos q) := by
  obtain ⟨h1, h2, h3, h4⟩ := scaled_bounds h
  rw [roundPos_eq]
  have hge : -1074 ≤ lastExp q := le_max_right _ _
  rcases h2.lt_or_eq with h2 | h2
  · exact ⟨_, _, by rw [abs_of_nonneg h1]; exact h3, by rw [abs_of_nonneg h1]; exact h2, hge, he, rfl⟩
  · rw [h2]
    refine ⟨2 ^ 52, lastExp q + 1, .inl (by rw [abs_of_pos (by positivity)]), by rw [abs_of_pos (by positivity)]; norm_num, by omega, by norm_num, ?_⟩
    rw [zpow_add₀ (by norm_num)]; push_cast; ring

theorem isFloat64_neg {f : Rat} (h : IsFloat64 f) : IsFloat64 (-f) := by
  obtain ⟨m, e, hm, h1, h2, rfl⟩ := h
  exact ⟨-m, e, by rwa [abs_neg], h1, h2, by push_cast; ring⟩

theorem even64_neg {f : Rat} (h : EvenMantissa64 f) : EvenMantissa64 (-f) := by
  obtain ⟨m, e, h1, h2, h3, h4, rfl⟩ := h
  exact ⟨-m, e, by rwa [abs_neg], by rwa [abs_neg], h3, by omega, by push_cast; ring⟩

theorem isRounding64_neg {q f : Rat} (h : IsRounding64 q f) : IsRounding64 (-q) (-f) := by
  have flip : ∀ a b : Rat, |-a - -b| = |a - b| := fun a b => by rw [← abs_neg]; congr 1; ring
  have flip' : ∀ g : Rat, |g - -q| = |-g - q| := fun g => by rw [← flip (-g) q, neg_neg]
  refine ⟨isFloat64_neg h.float, fun g hg => ?_, fun g hg hne he => ?_⟩
  · rw [flip, flip']
    exact h.nearest _ (isFloat64_neg hg)
  · rw [flip, flip'] at he
    exact even64_neg (h.tie _ (isFloat64_neg hg) (fun hh => hne (by rw [← hh, neg_neg])) he)

theorem roundAny_neg (q : Rat) : roundAny (-q) = -roundAny q := by
  unfold roundAny
  rcases lt_trichotomy q 0 with h | h | h
  · rw [if_pos (by linarith), if_neg (by linarith), if_pos h, neg_neg]
  · simp [h]
  · rw [if_neg (by linarith), if_pos (by linarith), if_pos h, neg_neg]

theorem roundAny_rounding {q : Rat} (h1 : roundAny q < 2 ^ (1024 : Int)) (h2 : -2 ^ (1024 : Int) < roundAny q) : IsRounding64 q (roundAny q) := by
  have pos : ∀ q, 0 < q → roundPos q < 2 ^ (1024 : Int) → IsRounding64 q (roundPos q) := fun q h hl =>
    ⟨roundPos_float h hl, fun g hg => (roundPos_nearest h hg).1, fun g hg hne he => roundPos_even h ((roundPos_nearest h hg).2 hne he)⟩
  rcases lt_trichotomy q 0 with h | h | h
  · have e : roundAny q = -roundPos (-q) := by unfold roundAny; rw [if_neg (by linarith), if_pos h]
    rw [e] at h1 h2 ⊢
    have := isRounding64_neg (pos (-q) (by linarith) (by linarith))
    rwa [neg_neg] at this
  · have e : roundAny q = 0 := by unfold roundAny; simp [h]
    rw [e, h]
    exact ⟨⟨0, 0, by norm_num, by norm_num, by norm_num, by simp⟩, fun g _ => by simp, fun g _ _ _ => ⟨0, -1074, .inr rfl, by norm_num, by norm_num, by norm_num, by simp⟩⟩
  · have e : roundAny q = roundPos q := by unfold roundAny; rw [if_pos h]
    rw [e] at h1 ⊢
    exact pos q h h1

/-- overflow begins half a last digit below `2^1024` -/
theorem overflow_iff (q : Rat) : (2 : Rat) ^ (1024 : Int) ≤ roundAny q ↔ 2 ^ (1024 : Int) - 2 ^ (970 : Int) ≤ q := by
  have hT : (2 : Rat) ^ (970 : Int) < 2 ^ (1024 : Int) := by rw [zpow_lt_zpow_iff_right₀ (by norm_num)]; norm_num
  have hp0 := two_pos 1024
  have hr0 := two_pos 970
  have hrb : (2 : Rat) ^ (970 : Int) ≤ 2 ^ (1023 : Int) := zpow_le (by norm_num)
  have hbb : (2 : Rat) ^ (1024 : Int) = 2 ^ (1023 : Int) + 2 ^ (1023 : Int) := by rw [show (1024 : Int) = 1023 + 1 by norm_num, zpow_add₀ (by norm_num)]; ring
  have hra : (1 / 2 : Rat) * 2 ^ (971 : Int) = 2 ^ (970 : Int) := by rw [show (971 : Int) = 970 + 1 by norm_num, zpow_add₀ (by norm_num)]; ring
  generalize hP : (2 : Rat) ^ (1024 : Int) = P at *
  generalize hR : (2 : Rat) ^ (970 : Int) = R at *
  generalize hB : (2 : Rat) ^ (1023 : Int) = B at *
  generalize hA : (2 : Rat) ^ (971 : Int) = A at *
  by_cases hq : 0 < q
  swap
  · constructor
    · intro h
      exfalso
      have : roundAny q ≤ 0 := by
        unfold roundAny
        rw [if_neg hq]
        split
        · rename_i hn
          have := roundPos_pos (q := -q) (by linarith only [hn])
          linarith only [this]
        · exact le_refl _
      linarith only [h, this, hp0]
    · intro h
      exfalso
      linarith only [h, hT, hq]
  have e0 : roundAny q = roundPos q := by unfold roundAny; rw [if_pos hq]
  rw [e0, roundPos_eq]
  obtain ⟨x1, x2⟩ := expOf_spec hq
  constructor
  · intro h
    by_contra hc
    have hc := not_le.1 hc
    have h3 : expOf q < 1024 := by
      have : (2 : Rat) ^ expOf q < P := by linarith only [x1, hc, hr0]
      rwa [← hP, zpow_lt_zpow_iff_right₀ (by norm_num)] at this
    have h4 : lastExp q ≤ 971 := by unfold lastExp; omega
    have h5 := (abs_le.1 (nearestInt_near (q * 2 ^ (-lastExp q)))).2
    have h6 : (nearestInt (q * 2 ^ (-lastExp q)) : Rat) * 2 ^ lastExp q ≤ (q * 2 ^ (-lastExp q) + 1 / 2) * 2 ^ lastExp q :=
      mul_le_mul_of_nonneg_right (by linarith only [h5]) (two_pos _).le
    rw [add_mul, unscale] at h6
    have h7 := zpow_le h4
    rw [hA] at h7
    linarith only [h7, h6, hc, h, hra]
  · intro h
    by_cases hb : P ≤ q
    · have h1 : 1024 ≤ expOf q := by
        have := lt_of_le_of_lt hb x2
        rw [← hP, zpow_lt_zpow_iff_right₀ (by norm_num)] at this
        omega
      have h2 : lastExp q = expOf q - 52 := max_eq_left (by omega)
      rw [h2, ← Float64.roundPos_eq]
      rw [← hP]
      exact (zpow_le h1).trans (Float64.roundPos_bounds hq).1
    · have hb := not_le.1 hb
      have h1 : expOf q = 1023 := by
        have a : expOf q < 1024 := by
          have := lt_of_le_of_lt x1 hb
          rwa [← hP, zpow_lt_zpow_iff_right₀ (by norm_num)] at this
        have b : (1023 : Int) < expOf q + 1 := by
          have : (2 : Rat) ^ (1023 : Int) < 2 ^ (expOf q + 1) := by
            refine lt_of_le_of_lt (le_trans ?_ h) x2
            rw [hB]
            linarith only [hbb, hrb]
          rwa [zpow_lt_zpow_iff_right₀ (by norm_num)] at this
        omega
      have h2 : lastExp q = 971 := by unfold lastExp; rw [h1]; norm_num
      rw [h2]
      have h3 : (9007199254740991 + 1 / 2 : Rat) ≤ q * 2 ^ (-(971 : Int)) := by
        calc (9007199254740991 + 1 / 2 : Rat) = (P - R) * 2 ^ (-(971 : Int)) := by
              rw [← hP, ← hR, sub_mul, ← zpow_add₀ (by norm_num), ← zpow_add₀ (by norm_num)]; norm_num
          _ ≤ _ := mul_le_mul_of_nonneg_right h (two_pos _).le
      have h4 := nearestInt_mono h3
      have h5 : nearestInt (9007199254740991 + 1 / 2) = 9007199254740992 := by decide +kernel
      rw [h5] at h4
      have h6 : ((9007199254740992 : Int) : Rat) ≤ (nearestInt (q * 2 ^ (-(971 : Int))) : Rat) := by exact_mod_cast h4
      rw [← hP]
      calc (2 : Rat) ^ (1024 : Int) = ((9007199254740992 : Int) : Rat) * 2 ^ (971 : Int) := by
            rw [show (1024 : Int) = 53 + 971 by norm_num, zpow_add₀ (by norm_num)]; norm_num
        _ ≤ _ := mul_le_mul_of_nonneg_right h6 (two_pos _).le

end Verif.Binary64
