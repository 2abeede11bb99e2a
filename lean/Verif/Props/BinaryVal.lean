import Mathlib.Data.Nat.Digits.Lemmas
import Verif.Spec.BinaryVal
import Verif.Lemmas.Float
import Verif.Props.Binary64
/-! Property C105: comparisons of floats by their printed decimals. -/
namespace Verif
open Spec Float64

theorem isFloat64_int {n : Int} (h : |n| ≤ 2 ^ 53) : IsFloat64 n := by
  rcases lt_or_eq_of_le h with h | h
  · exact ⟨n, 0, h, by norm_num, by norm_num, by simp⟩
  · rcases abs_eq (a := n) (b := 2 ^ 53) (by norm_num) |>.1 h with rfl | rfl
    · exact ⟨2 ^ 52, 1, by norm_num, by norm_num, by norm_num, by norm_num⟩
    · exact ⟨-2 ^ 52, 1, by norm_num, by norm_num, by norm_num, by norm_num⟩

/-- rounding does not change the order -/
theorem round_order {x y a b : Rat} (hx : Binary64.round x = .fin a) (hy : Binary64.round y = .fin b) (h : x ≤ y) : a ≤ b := by
  by_contra hab
  rw [not_le] at hab
  have rx := (C103_rounding x).1 a hx
  have ry := (C103_rounding y).1 b hy
  have h1 := rx.nearest b ry.float
  have h2 := ry.nearest a rx.float
  have e1 : (a + b) / 2 ≤ x := by
    by_contra hc
    rw [not_le] at hc
    have : |b - x| < |a - x| := by
      rw [abs_of_pos (by linarith : (0 : Rat) < a - x), abs_lt]
      constructor <;> linarith
    linarith
  have e2 : y ≤ (a + b) / 2 := by
    by_contra hc
    rw [not_le] at hc
    have : |a - y| < |b - y| := by
      rw [abs_of_neg (by linarith : b - y < 0), abs_lt]
      constructor <;> linarith
    linarith
  have : x = y := le_antisymm h (by linarith)
  rw [this, hy] at hx
  cases hx
  exact lt_irrefl _ hab

/-- floats are not rounded -/
theorem round_float {b : Rat} (hb : IsFloat64 b) : Binary64.round b = .fin b := by
  obtain ⟨c1, c2, c3, c4⟩ := C103_rounding b
  have hlt : |b| < (2 : Rat) ^ (1024 : Int) - 2 ^ (970 : Int) := by
    obtain ⟨m, e, h1, h2, h3, rfl⟩ := id hb
    rw [abs_mul, abs_of_pos (Float64.two_pos e)]
    have hm : |(m : Rat)| ≤ 2 ^ 53 - 1 := by
      have : |m| ≤ 2 ^ 53 - 1 := by omega
      rw [← Int.cast_abs]
      exact_mod_cast this
    have he : (2 : Rat) ^ e ≤ 2 ^ (971 : Int) := Binary64.zpow_le h3
    have h4 : |(m : Rat)| * 2 ^ e ≤ (2 ^ 53 - 1) * 2 ^ (971 : Int) := mul_le_mul hm he (Float64.two_pos e).le (by norm_num)
    have h5 : (2 : Rat) ^ (1024 : Int) = 2 ^ 54 * 2 ^ (970 : Int) := by
      rw [← zpow_natCast (2 : Rat) 54, ← zpow_add₀ (by norm_num)]; norm_num
    have h6 : (2 : Rat) ^ (971 : Int) = 2 * 2 ^ (970 : Int) := by
      rw [show (971 : Int) = 970 + 1 by norm_num, zpow_add_one₀ (by norm_num), mul_comm]
    have h7 := Float64.two_pos 970
    rw [h5]
    rw [h6] at h4
    generalize (2 : Rat) ^ (970 : Int) = t at h4 h7 ⊢
    generalize |(m : Rat)| * 2 ^ e = u at h4 ⊢
    linarith only [h4, h7]
  cases h : Binary64.round b with
  | fin f =>
    have := (c1 f h).nearest b hb
    rw [sub_self, abs_zero] at this
    have := abs_eq_zero.1 (le_antisymm this (abs_nonneg _))
    rw [sub_eq_zero.1 this]
  | inf =>
    have h' := c2.1 h
    exact absurd ((le_abs_self b).trans_lt hlt) (not_lt.2 h')
  | ninf =>
    have h' := le_neg.1 (c3.1 h)
    exact absurd ((neg_le_abs b).trans_lt hlt) (not_lt.2 h')
  | nan => exact absurd h c4

theorem sigDigits_le {f : Flt} {k : Nat} : sigDigits f ≤ k ↔ f.m.natAbs < 10 ^ k := Nat.digits_length_le_iff (by norm_num) _

theorem toRat_asPow (f : Flt) : f.toRat = f.m * (10 : Rat) ^ f.e := by
  unfold Flt.toRat
  split
  · rename_i h
    obtain ⟨k, hk⟩ : ∃ k : Nat, f.e = k := ⟨f.e.toNat, by omega⟩
    rw [hk]; simp
  · rename_i h
    obtain ⟨k, hk⟩ : ∃ k : Nat, f.e = -(k : Int) := ⟨(-f.e).toNat, by omega⟩
    rw [hk]; simp [div_eq_mul_inv]

theorem stripZeros_asPow (m e : Int) : ((stripZeros m e).1 : Rat) * (10 : Rat) ^ (stripZeros m e).2 = m * (10 : Rat) ^ e := by
  fun_induction stripZeros m e with
  | case1 e => simp
  | case2 m e h1 h2 ih =>
    rw [ih, zpow_add_one₀ (by norm_num)]
    obtain ⟨k, rfl⟩ := h2
    rw [Int.mul_ediv_cancel_left _ (by norm_num)]
    push_cast; ring
  | case3 m e h1 h2 => rfl

theorem stripZeros_natAbs (m e : Int) : (stripZeros m e).1.natAbs ≤ m.natAbs := by
  fun_induction stripZeros m e with
  | case1 e => simp
  | case2 m e h1 h2 ih => omega
  | case3 m e h1 h2 => exact le_refl _

theorem toRat_mkInt (n : Int) : (mkFlt n 0).toRat = n := by
  rw [toRat_asPow]
  have := stripZeros_asPow n 0
  simpa [mkFlt] using this

theorem toRat_pow_ten (k : Nat) : mkFlt (10 ^ k : Nat) 0 = ⟨1, k, .inr (by decide)⟩ := by
  apply Flt.toRat_inj
  rw [toRat_mkInt, toRat_asPow]
  simp

/-- an integer is printed as it is, when it is less than `2^53` -/
theorem int_of_short {f : Flt} {n : Nat} (h0 : 0 < n) (hn : n < 2 ^ 53) (hr : Binary64.round f.toRat = .fin n)
    (hs : sigDigits f ≤ sigDigits (mkFlt n 0)) : f.toRat = n := by
  have near := ((C103_rounding _).1 _ hr).nearest
  have fi : ∀ k : Int, |k| ≤ 2 ^ 53 → |(n : Rat) - f.toRat| ≤ |(k : Rat) - f.toRat| := fun k hk => near _ (isFloat64_int hk)
  have hnR : (n : Rat) < 2 ^ 53 := by exact_mod_cast hn
  have h0R : (0 : Rat) < n := by exact_mod_cast h0
  by_cases he : 0 ≤ f.e
  · -- an integer
    obtain ⟨k, hk⟩ : ∃ k : Int, f.toRat = k := ⟨f.m * 10 ^ f.e.toNat, by unfold Flt.toRat; rw [if_pos he]; push_cast; rfl⟩
    rw [hk] at fi ⊢
    by_cases h1 : |k| ≤ 2 ^ 53
    · have := fi k h1
      rw [sub_self, abs_zero] at this
      have := abs_eq_zero.1 (le_antisymm this (abs_nonneg _))
      linarith
    · exfalso
      rw [not_le, lt_abs] at h1
      rcases h1 with h1 | h1
      · have h1R : ((2 : Rat) ^ 53) < k := by exact_mod_cast h1
        have := fi (2 ^ 53) (by norm_num)
        push_cast at this
        rw [abs_of_neg (by linarith), abs_of_neg (by linarith)] at this
        linarith
      · have h1R : ((2 : Rat) ^ 53) < -k := by exact_mod_cast h1
        have := fi 0 (by norm_num)
        push_cast at this
        rw [abs_of_pos (by linarith), abs_of_pos (by linarith)] at this
        linarith
  · exfalso
    -- |m| < 10^K with 10^(K-1) ≤ n
    obtain ⟨j, hj⟩ : ∃ j : Nat, f.e = -((j : Int) + 1) := ⟨(-f.e - 1).toNat, by omega⟩
    have hx : ∀ K : Nat, f.m.natAbs < 10 ^ (K + 1) → |f.toRat| < (10 : Rat) ^ K := by
      intro K hK
      rw [toRat_asPow, hj, abs_mul, zpow_neg, abs_of_pos (by positivity : (0 : Rat) < ((10 : Rat) ^ ((j : Int) + 1))⁻¹), ← div_eq_mul_inv,
        div_lt_iff₀ (by positivity)]
      have h1 : |(f.m : Rat)| < (10 : Rat) ^ (K + 1) := by
        rw [← Int.cast_abs, Int.abs_eq_natAbs]
        exact_mod_cast hK
      have h2 : (10 : Rat) ^ (K + 1) ≤ 10 ^ K * 10 ^ ((j : Int) + 1) := by
        rw [pow_succ]
        refine mul_le_mul_of_nonneg_left ?_ (by positivity)
        rw [zpow_add_one₀ (by norm_num)]
        have : (1 : Rat) ≤ (10 : Rat) ^ (j : Int) := by rw [zpow_natCast]; exact one_le_pow₀ (by norm_num)
        linarith
      linarith
    have hL : n ≠ 0 := by omega
    obtain ⟨K, k1, k2⟩ : ∃ K, 10 ^ K ≤ n ∧ n < 10 ^ (K + 1) := ⟨Nat.log 10 n, Nat.pow_log_le_self 10 hL, Nat.lt_pow_succ_log_self (by norm_num) n⟩
    have d0 : sigDigits (mkFlt n 0) ≤ K + 1 := by
      rw [sigDigits_le]
      refine lt_of_le_of_lt (stripZeros_natAbs _ _) ?_
      simpa using k2
    have hlt := hx K (sigDigits_le.1 (hs.trans d0))
    have k1R : ((10 : Rat) ^ K) ≤ n := by exact_mod_cast k1
    have hg := fi ((10 : Int) ^ K) (by
      rw [abs_of_nonneg (by positivity)]
      have : (10 : Int) ^ K ≤ n := by exact_mod_cast k1
      have : (n : Int) < 2 ^ 53 := by exact_mod_cast hn
      omega)
    push_cast at hg
    have hlt' := abs_lt.1 hlt
    rw [abs_of_pos (by linarith), abs_of_pos (by linarith)] at hg
    have hnK : (n : Rat) = 10 ^ K := le_antisymm (by linarith) k1R
    have hnK' : n = 10 ^ K := by exact_mod_cast hnK
    have d1 : f.m.natAbs < 10 ^ 1 := by
      rw [← sigDigits_le]
      refine hs.trans ?_
      rw [hnK', toRat_pow_ten, sigDigits_le]
      norm_num
    -- so |x| ≤ 9/10
    have hx9 : |f.toRat| ≤ 9 / 10 := by
      rw [toRat_asPow, hj, abs_mul, zpow_neg, abs_of_pos (by positivity : (0 : Rat) < ((10 : Rat) ^ ((j : Int) + 1))⁻¹), ← div_eq_mul_inv,
        div_le_iff₀ (by positivity)]
      have h1 : |(f.m : Rat)| ≤ 9 := by
        rw [← Int.cast_abs, Int.abs_eq_natAbs]
        have : f.m.natAbs ≤ 9 := by omega
        exact_mod_cast this
      have : (1 : Rat) ≤ (10 : Rat) ^ (j : Int) := by rw [zpow_natCast]; exact one_le_pow₀ (by norm_num)
      rw [zpow_add_one₀ (by norm_num)]
      linarith
    obtain ⟨b1, b2⟩ := abs_le.1 hx9
    have h1n : (1 : Rat) ≤ n := by exact_mod_cast h0
    have h78 := near (7 / 8) ⟨7, -3, by norm_num, by norm_num, by norm_num, by norm_num⟩
    rw [abs_of_pos (by linarith)] at h78
    rcases le_or_gt f.toRat (7 / 8) with hc | hc
    · rw [abs_of_nonneg (by linarith)] at h78
      linarith
    · rw [abs_of_neg (by linarith)] at h78
      linarith

/-- the opposite number -/
def Spec.fltNeg (f : Flt) : Flt := ⟨-f.m, f.e, by rcases f.norm with ⟨a, b⟩ | h; exact .inl ⟨by omega, b⟩; exact .inr (by omega)⟩

theorem fltNeg_toRat (f : Flt) : (fltNeg f).toRat = -f.toRat := by
  rw [toRat_asPow, toRat_asPow]; simp [fltNeg]

theorem fltNeg_digits (f : Flt) : sigDigits (fltNeg f) = sigDigits f := by unfold sigDigits fltNeg; simp

theorem round64_neg {x b : Rat} (h : Binary64.round x = .fin b) : Binary64.round (-x) = .fin (-b) := by
  unfold Binary64.round at h ⊢
  rw [Binary64.roundAny_neg]
  split at h
  · cases h
  · split at h
    · cases h
    · rename_i h1 h2
      cases h
      rw [if_neg, if_neg]
      · intro h3; exact h1 (by linarith only [h3])
      · intro h3; exact h2 (by linarith only [h3])

/-- C105: an integer less than `2^53` in absolute value that is a float is printed as this integer. -/
theorem C105_integers {repr : Rat → Flt} (hp : ShortestRepr repr) (n : Int) (hn : |n| < 2 ^ 53) : (repr n).toRat = n := by
  have hb := hp.back n (isFloat64_int hn.le)
  have hr : Binary64.round (mkFlt n 0).toRat = .fin (n : Rat) := by
    rw [toRat_mkInt]; exact round_float (isFloat64_int hn.le)
  have hs := hp.short n _ (isFloat64_int hn.le) hr
  rcases lt_trichotomy n 0 with h | rfl | h
  · obtain ⟨k, rfl⟩ : ∃ k : Nat, n = -(k : Int) := ⟨n.natAbs, by omega⟩
    have e := int_of_short (f := fltNeg (repr ((-(k : Int) : Int) : Rat))) (n := k) (by omega) (by rw [abs_neg, abs_of_nonneg (by omega)] at hn; exact_mod_cast hn)
      (by rw [fltNeg_toRat]; have := round64_neg hb; simpa using this)
      (by
        rw [fltNeg_digits]
        refine hs.trans (le_of_eq ?_)
        rw [← fltNeg_digits]
        congr 1
        apply Flt.toRat_inj
        rw [fltNeg_toRat, toRat_mkInt, toRat_mkInt]; simp)
    rw [fltNeg_toRat] at e
    push_cast at e ⊢
    linarith
  · have : sigDigits (mkFlt 0 0) ≤ 0 := by rw [sigDigits_le]; unfold mkFlt stripZeros; simp
    have := sigDigits_le.1 (hs.trans this)
    have : (repr ((0 : Int) : Rat)).m = 0 := by simp at this; simpa using this
    rw [toRat_asPow, this]
    simp
  · obtain ⟨k, rfl⟩ : ∃ k : Nat, n = (k : Int) := ⟨n.natAbs, by omega⟩
    have e := int_of_short (f := repr (((k : Int) : Int) : Rat)) (n := k) (by omega) (by rw [abs_of_nonneg (by omega)] at hn; exact_mod_cast hn)
      (by simpa using hb) hs
    simpa using e

/-- C105: floats are in the same order as what is printed. -/
theorem C105_order {repr : Rat → Flt} (hp : ShortestRepr repr) {a b : Rat} (ha : IsFloat64 a) (hb : IsFloat64 b) :
    ((repr a).toRat < (repr b).toRat ↔ a < b) ∧ ((repr a).toRat = (repr b).toRat ↔ a = b) := by
  have key : ∀ {a b}, IsFloat64 a → IsFloat64 b → (repr a).toRat ≤ (repr b).toRat → a ≤ b := fun ha hb h => round_order (hp.back _ ha) (hp.back _ hb) h
  have e : (repr a).toRat = (repr b).toRat ↔ a = b := ⟨fun h => le_antisymm (key ha hb h.le) (key hb ha h.ge), fun h => by rw [h]⟩
  refine ⟨⟨fun h => lt_of_le_of_ne (key ha hb h.le) (fun he => h.ne (e.2 he)), fun h => ?_⟩, e⟩
  by_contra hc
  exact absurd (key hb ha (not_lt.1 hc)) (not_le.2 h)

/-- a number and what is printed of it compare alike -/
theorem num_printed {repr : Rat → Flt} (hp : ShortestRepr repr) {a b : BVal} (ha : Ordinary a) (hb : Ordinary b) (sa : (a.printed repr).isStr = false)
    (sb : (b.printed repr).isStr = false) : ((a.printed repr).num < (b.printed repr).num ↔ a.num < b.num) ∧
      ((a.printed repr).num = (b.printed repr).num ↔ a.num = b.num) := by
  have key : ∀ {v : BVal}, Ordinary v → (v.printed repr).isStr = false → IsFloat64 v.num ∧ (v.printed repr).num = (repr v.num).toRat := by
    intro v hv hs
    cases v with
    | str s => simp [BVal.printed, Val.isStr] at hs
    | int z => exact ⟨isFloat64_int (le_of_lt hv), (C105_integers hp z hv).symm⟩
    | flt b => exact ⟨hv, rfl⟩
  obtain ⟨a1, a2⟩ := key ha sa
  obtain ⟨b1, b2⟩ := key hb sb
  rw [a2, b2]
  exact C105_order hp a1 b1

/-- C105: `op.evaluate` of two values and of what is printed of them, errors included. -/
theorem C105_evaluate {repr : Rat → Flt} (hp : ShortestRepr repr) (op : Op) (a b : BVal) (ha : Ordinary a) (hb : Ordinary b) :
    op.evaluate (a.printed repr) (b.printed repr) = op.evaluateB a b := by
  have hn := fun sa sb => num_printed hp ha hb sa sb
  have hn' := fun sa sb => num_printed hp hb ha sa sb
  have heq : ∀ x y : Rat, ∀ x' y' : Rat, (x = y ↔ x' = y') → (x == y) = (x' == y') := by
    intro x y x' y' h
    rw [Bool.eq_iff_iff, beq_iff_eq, beq_iff_eq, h]
  cases a <;> cases b <;> cases op <;>
    simp only [Op.evaluate, Op.evaluateB, BVal.printed, Val.eq, BVal.eq, Val.lt?, BVal.lt?, Val.le?, BVal.le?, Except.ok.injEq, decide_eq_decide] <;>
    first
    | rfl
    | exact (hn rfl rfl).1
    | exact (hn' rfl rfl).1
    | exact heq _ _ _ _ (hn rfl rfl).2
    | exact congrArg _ (heq _ _ _ _ (hn rfl rfl).2)
    | exact not_lt.symm.trans ((not_congr (hn' rfl rfl).1).trans not_lt)
    | exact not_lt.symm.trans ((not_congr (hn rfl rfl).1).trans not_lt)

/-- C105: numpy converts the integers of a column before it compares them with a float; for integers below `2^53` this makes no difference. -/
theorem C105_numpy (op : Op) (a b : BVal) (ha : Ordinary a) (hb : Ordinary b) : op.evaluateB a.asFloat b.asFloat = op.evaluateB a b := by
  have key : ∀ {z : Int}, |z| < 2 ^ 53 → fl (z : Rat) = z := fun h => fl_int h.le
  cases a <;> cases b <;> simp only [BVal.asFloat] <;> first
    | rfl
    | (rw [key ha, key hb]; cases op <;> rfl)
    | (rw [key ha]; cases op <;> rfl)
    | (rw [key hb]; cases op <;> rfl)

/-- C105: reading what is printed gives the float again (the text of the decimal is read as this decimal, which is rounded to the float). -/
theorem C105_read {repr : Rat → Flt} (hp : ShortestRepr repr) {b : Rat} (hb : IsFloat64 b) :
    (parseFloat (repr b).str).map (fun f => Binary64.round f.toRat) = some (.fin b) := by
  rw [parseFloat_str, Option.map_some, hp.back b hb]

/-- such a `repr` exists -/
theorem shortest_exists : ∃ repr : Rat → Flt, ShortestRepr repr := by
  have ex : ∀ b, IsFloat64 b → ∃ k, ∃ f : Flt, Binary64.round f.toRat = .fin b ∧ sigDigits f = k := by
    rintro b hb
    obtain ⟨m, e, h1, h2, h3, rfl⟩ := id hb
    rcases le_or_gt 0 e with he | he
    · obtain ⟨k, rfl⟩ : ∃ k : Nat, e = k := ⟨e.toNat, by omega⟩
      refine ⟨_, mkFlt (m * 2 ^ k) 0, ?_, rfl⟩
      rw [toRat_mkInt]
      have := round_float hb
      simpa using this
    · obtain ⟨k, rfl⟩ : ∃ k : Nat, e = -(k : Int) := ⟨(-e).toNat, by omega⟩
      refine ⟨_, mkFlt (m * 5 ^ k) (-k), ?_, rfl⟩
      have hv : (mkFlt (m * 5 ^ k) (-k)).toRat = m * (2 : Rat) ^ (-(k : Int)) := by
        rw [toRat_asPow]
        refine (stripZeros_asPow _ _).trans ?_
        rw [zpow_neg, zpow_neg, zpow_natCast, zpow_natCast, show (10 : Rat) = 2 * 5 by norm_num, mul_pow]
        push_cast
        field_simp
      rw [hv]
      exact round_float hb
  classical
  refine ⟨fun b => if hb : IsFloat64 b then (Nat.find_spec (ex b hb)).choose else mkFlt 0 0, ?_, ?_⟩
  · intro b hb
    rw [dif_pos hb]
    exact (Nat.find_spec (ex b hb)).choose_spec.1
  · intro b f hb hf
    rw [dif_pos hb, (Nat.find_spec (ex b hb)).choose_spec.2]
    exact Nat.find_min' (ex b hb) ⟨f, hf, rfl⟩

/-- C105, the limit: the float `1e23` is not the integer `10**23`, although it is printed as `1e+23`. -/
theorem C105_fails {repr : Rat → Flt} (hp : ShortestRepr repr) :
    IsFloat64 (fl (10 ^ 23)) ∧ (repr (fl (10 ^ 23))).str = c!"1e+23" ∧
    Op.equal.evaluateB (.int (10 ^ 23)) (.flt (fl (10 ^ 23))) = .ok false ∧
    Op.equal.evaluate ((BVal.int (10 ^ 23)).printed repr) ((BVal.flt (fl (10 ^ 23))).printed repr) = .ok true := by
  have hv : fl (10 ^ 23) = 99999999999999991611392 := by decide +kernel
  have hfl : IsFloat64 (99999999999999991611392 : Rat) := ⟨5960464477539062, 24, by norm_num, by norm_num, by norm_num, by norm_num⟩
  have h23 : Binary64.round ((⟨1, 23, .inr (by decide)⟩ : Flt).toRat) = .fin 99999999999999991611392 := by decide +kernel
  rw [hv]
  have hb := hp.back _ hfl
  have hs := hp.short _ _ hfl h23
  have hm : (repr 99999999999999991611392).m.natAbs < 10 ^ 1 := by
    rw [← sigDigits_le]; refine hs.trans ?_; rw [sigDigits_le]; norm_num
  have near := ((C103_rounding _).1 _ hb).nearest
  have n1 := near (5960464477539061 * 2 ^ (24 : Int)) ⟨5960464477539061, 24, by norm_num, by norm_num, by norm_num, by norm_num⟩
  have n2 := near (5960464477539063 * 2 ^ (24 : Int)) ⟨5960464477539063, 24, by norm_num, by norm_num, by norm_num, by norm_num⟩
  have hx1 : (99999999999999900000000 : Rat) < (repr 99999999999999991611392).toRat := by
    by_contra hc
    rw [not_lt] at hc
    rw [abs_of_pos (by linarith), abs_of_pos (by norm_num; linarith)] at n1
    norm_num at n1
  have hx2 : (repr 99999999999999991611392).toRat < (100000000000000100000000 : Rat) := by
    by_contra hc
    rw [not_lt] at hc
    rw [abs_of_neg (by linarith), abs_of_neg (by norm_num; linarith)] at n2
    norm_num at n2
    linarith
  have hF : repr 99999999999999991611392 = ⟨1, 23, .inr (by decide)⟩ := by
    generalize repr 99999999999999991611392 = F at hm hx1 hx2
    obtain ⟨m, e, hn⟩ := F
    rw [toRat_asPow] at hx1 hx2
    simp only at hm hx1 hx2
    have hpos : 0 < m := by
      by_contra hc
      have : (m : Rat) ≤ 0 := by exact_mod_cast not_lt.1 hc
      have : (m : Rat) * 10 ^ e ≤ 0 := mul_nonpos_of_nonpos_of_nonneg this (by positivity)
      linarith
    have hm1 : (1 : Rat) ≤ m := by exact_mod_cast hpos
    have hm9 : (m : Rat) ≤ 9 := by
      have : m ≤ 9 := by omega
      exact_mod_cast this
    have e1 : e ≤ 23 := by
      by_contra hc
      have : (10 : Rat) ^ (24 : Int) ≤ 10 ^ e := zpow_le_zpow_right₀ (by norm_num) (by omega)
      have : (1 : Rat) * 10 ^ (24 : Int) ≤ m * 10 ^ e := mul_le_mul hm1 this (by positivity) (by linarith)
      norm_num at this
      linarith
    have e2 : 22 ≤ e := by
      by_contra hc
      have : (10 : Rat) ^ e ≤ 10 ^ (21 : Int) := zpow_le_zpow_right₀ (by norm_num) (by omega)
      have : (m : Rat) * 10 ^ e ≤ 9 * 10 ^ (21 : Int) := mul_le_mul hm9 this (by positivity) (by norm_num)
      norm_num at this
      linarith
    have e3 : e = 22 ∨ e = 23 := by omega
    rcases e3 with rfl | rfl
    · exfalso
      have : (m : Rat) * 10 ^ (22 : Int) ≤ 9 * 10 ^ (22 : Int) := mul_le_mul_of_nonneg_right hm9 (by positivity)
      norm_num at this hx1
      linarith
    · have : m = 1 := by
        have : (m : Rat) < 2 := by
          by_contra hc
          have : (2 : Rat) * 10 ^ (23 : Int) ≤ m * 10 ^ (23 : Int) := mul_le_mul_of_nonneg_right (not_lt.1 hc) (by positivity)
          norm_num at this hx2
          linarith
        have : m < 2 := by exact_mod_cast this
        omega
      subst this
      rfl
  refine ⟨hfl, ?_, by decide +kernel, ?_⟩
  · rw [hF]; decide +kernel
  · unfold BVal.printed
    simp only [hF]
    decide +kernel

/-- the hypotheses: `0.1`, `0.5` and an integer -/
example : Ordinary (.flt (3602879701896397 / 36028797018963968)) ∧ Ordinary (.flt (1 / 2)) ∧ Ordinary (.int 7) ∧
    Op.less.evaluateB (.flt (3602879701896397 / 36028797018963968)) (.flt (1 / 2)) = .ok true := by
  refine ⟨⟨3602879701896397, -55, by norm_num, by norm_num, by norm_num, by norm_num⟩, ⟨1, -1, by norm_num, by norm_num, by norm_num, by norm_num⟩, ?_, by decide +kernel⟩
  unfold Ordinary; norm_num

end Verif
