import Verif.Model.FloatRead
import Verif.Props.BinaryVal
import Verif.Props.Reading
import Verif.Props.SpecialFloats
/-! Property C114: reading decimal literals as binary floats. -/
namespace Verif.FloatRead
open Verif.Spec

theorem generate_parts (repr : Rat → Flt) (a : Str) (op : Op) (t : Str) (ha : ' ' ∉ a) :
    generateFromStr repr (a ++ c!" " ++ op.str ++ c!" " ++ t) = (match readVal repr t with
      | .error e => .error e
      | .ok v => if !XSelector.legal op v then .error .valueError else .ok ⟨a, op, v⟩) := by
  unfold generateFromStr
  rw [Selector.split_str ha]
  simp only [Selector.split_op, Op.roundtrip]
  rfl

theorem mkFlt_nonneg (n : Nat) (j : Int) : 0 ≤ (mkFlt (n : Int) j).toRat := by
  rw [toRat_mkFlt]
  have : (0 : Rat) ≤ (n : Rat) * (10 : Rat) ^ j := by positivity
  exact_mod_cast this

/-- the sign of a number that is not zero is that of its literal -/
theorem sign_head {t : Str} {f : Flt} (h : parseFloat t = some f) :
    (f.toRat < 0 → (literal t).bind List.head? = some '-') ∧ (0 < f.toRat → (literal t).bind List.head? ≠ some '-') := by
  unfold parseFloat at h
  obtain ⟨u, h1, h2⟩ := Option.bind_eq_some_iff.1 h
  rw [h1, Option.bind_some]
  unfold readFloat at h2
  split at h2
  · rename_i cs
    obtain ⟨p, _, hp⟩ := Option.map_eq_some_iff.1 h2
    refine ⟨fun _ => rfl, fun hpos => ?_⟩
    exfalso
    have h3 := mkFlt_nonneg p.1 p.2
    rw [← hp, toRat_mkFlt] at hpos
    rw [toRat_mkFlt] at h3
    push_cast at hpos h3
    linarith
  · rename_i cs
    obtain ⟨p, _, hp⟩ := Option.map_eq_some_iff.1 h2
    refine ⟨fun hneg => ?_, fun _ => by simp⟩
    have h3 := mkFlt_nonneg p.1 p.2
    rw [hp] at h3
    linarith
  · rename_i hx1 hx2
    obtain ⟨p, _, hp⟩ := Option.map_eq_some_iff.1 h2
    have h3 := mkFlt_nonneg p.1 p.2
    rw [hp] at h3
    refine ⟨fun hneg => by linarith, fun _ hm => ?_⟩
    cases u with
    | nil => cases hm
    | cons c cs =>
      simp only [List.head?_cons, Option.some.injEq] at hm
      subst hm
      exact hx1 cs rfl

theorem parseVal_float {t : Str} {f : Flt} (hq : ¬ Quoted t) (hd : '.' ∈ t) (h : FloatText t f.toRat) : Selector.parseVal t = .ok (.flt f) :=
  (parseVal_iff (by rintro rfl; cases hd) _).2 (.float hq hd h)

/-- **C114.** A decimal literal with a point, not in quotes, for the number `q`: the selector read has as value the float nearest to `q` (the even one of two), shown by what `repr` prints of it; a
number that is rounded to zero keeps its minus sign (`-0.0`); from half a last digit below `2^1024` on the value is infinite. All operators are allowed. -/
theorem C114_read (repr : Rat → Flt) (a : Str) (op : Op) (t : Str) (q : Rat) (ha : ' ' ∉ a) (hq : ¬ Quoted t) (hd : '.' ∈ t) (h : FloatText t q) :
    ∃ v, generateFromStr repr (a ++ c!" " ++ op.str ++ c!" " ++ t) = .ok ⟨a, op, v⟩ ∧
      ((2 : Rat) ^ (1024 : Int) - 2 ^ (970 : Int) ≤ q → v = .pinf) ∧ (q ≤ -((2 : Rat) ^ (1024 : Int) - 2 ^ (970 : Int)) → v = .ninf) ∧
      (|q| < (2 : Rat) ^ (1024 : Int) - 2 ^ (970 : Int) → ∃ b, IsRounding64 q b ∧
        (b ≠ 0 ∨ 0 < q → v = .val (.flt (repr b))) ∧ (b = 0 → q < 0 → v = .nzero) ∧ (b = 0 → v = .nzero ∨ v = .val (.flt (repr 0)))) := by
  obtain ⟨f, rfl⟩ := floatText_flt h
  have hp := parseVal_float hq hd h
  have hs := sign_head ((parseFloat_iff t f).2 h)
  obtain ⟨c1, c2, c3, c4⟩ := C103_rounding f.toRat
  have hv : ∃ v, v = floatValue repr t f ∧ v.isStr = false := by
    refine ⟨_, rfl, ?_⟩
    unfold floatValue
    cases Binary64.round f.toRat with
    | fin b => simp only; split <;> rfl
    | inf => rfl
    | ninf => rfl
    | nan => rfl
  obtain ⟨v, hv, hstr⟩ := hv
  have hleg : XSelector.legal op v = true := by
    cases v with
    | val w => cases w <;> simp_all [XSelector.legal, XVal.isStr, Val.isStr]
    | _ => simp [XSelector.legal, XVal.isStr]
  refine ⟨v, ?_, fun h1 => ?_, fun h1 => ?_, fun h1 => ?_⟩
  · rw [generate_parts repr a op t ha]
    unfold readVal
    rw [hp]
    simp only
    rw [← hv, hleg]
    rfl
  · rw [hv]; unfold floatValue; rw [c2.2 h1]
  · rw [hv]; unfold floatValue; rw [c3.2 h1]
  · rw [abs_lt] at h1
    cases hr : Binary64.round f.toRat with
    | inf => exact absurd (c2.1 hr) (not_le.2 h1.2)
    | ninf => exact absurd (c3.1 hr) (not_le.2 h1.1)
    | nan => exact absurd hr c4
    | fin b =>
      refine ⟨b, c1 b hr, ?_, ?_, ?_⟩
      · intro hc
        rw [hv]; unfold floatValue; rw [hr]
        simp only
        rw [if_neg]
        rintro ⟨h2, h3⟩
        rcases hc with h4 | h4
        · exact h4 h2
        · exact hs.2 h4 h3
      · intro h2 h3
        rw [hv]; unfold floatValue; rw [hr]
        simp only
        rw [if_pos ⟨h2, hs.1 h3⟩]
      · intro h2
        rw [hv]; unfold floatValue; rw [hr]
        simp only
        split
        · left; rfl
        · right; rw [h2]

/-- **C114.** Every other value, and every failure, is that of C71. -/
theorem C114_other (repr : Rat → Flt) (x : Str) :
    (∀ e, generateFromStr repr x = .error e ↔ Selector.generateFromStr x = .error e) ∧
    (∀ a op v, (∀ f, v ≠ .flt f) → (generateFromStr repr x = .ok ⟨a, op, .val v⟩ ↔ Selector.generateFromStr x = .ok ⟨a, op, v⟩)) ∧
    ((∃ s, generateFromStr repr x = .ok s ∧ ((∃ f, s.val = .val (.flt f)) ∨ s.val = .nzero ∨ s.val = .pinf ∨ s.val = .ninf)) ↔
      ∃ s f, Selector.generateFromStr x = .ok s ∧ s.val = .flt f) := by
  unfold generateFromStr Selector.generateFromStr
  cases splitFirst (· == ' ') x with
  | mk a o =>
    cases o with
    | none => simp
    | some rest =>
      simp only
      cases splitFirst (· == ' ') rest with
      | mk o third =>
        simp only
        cases Op.generateFromStr o with
        | error e => simp
        | ok op =>
          simp only
          cases third with
          | none => simp
          | some t =>
            simp only
            unfold readVal Selector.mk?
            cases Selector.parseVal t with
            | error e => simp
            | ok v =>
              cases v with
              | str s => cases op <;> simp [XSelector.legal, Selector.legal, XVal.isStr, Val.isStr]
              | int z => cases op <;> simp [XSelector.legal, Selector.legal, XVal.isStr, Val.isStr]
              | flt f =>
                have h4 := (C103_rounding f.toRat).2.2.2
                have hfv : (∃ g, floatValue repr t f = .val (.flt g)) ∨ floatValue repr t f = .nzero ∨ floatValue repr t f = .pinf ∨ floatValue repr t f = .ninf := by
                  unfold floatValue
                  cases hr : Binary64.round f.toRat with
                  | fin b => simp only; split; exact .inr (.inl rfl); exact .inl ⟨_, rfl⟩
                  | inf => exact .inr (.inr (.inl rfl))
                  | ninf => exact .inr (.inr (.inr rfl))
                  | nan => exact absurd hr h4
                have hl : XSelector.legal op (floatValue repr t f) = true := by
                  rcases hfv with ⟨g, h⟩ | h | h | h <;> rw [h] <;> simp [XSelector.legal, XVal.isStr, Val.isStr]
                have hl' : Selector.legal op (.flt f) = true := by simp [Selector.legal, Val.isStr]
                simp only [hl, hl', Bool.not_true, Bool.false_eq_true, if_false]
                refine ⟨by simp, ?_, ?_⟩
                · intro a' op' v hv
                  constructor
                  · intro h
                    simp only [Except.ok.injEq, XSelector.mk.injEq] at h
                    rcases hfv with ⟨g, h'⟩ | h' | h' | h' <;> rw [h'] at h
                    · exact absurd (XVal.val.inj h.2.2).symm (hv g)
                    · cases h.2.2
                    · cases h.2.2
                    · cases h.2.2
                  · intro h
                    simp only [Except.ok.injEq, Selector.mk.injEq] at h
                    exact absurd h.2.2.symm (hv f)
                · exact ⟨fun _ => ⟨_, f, rfl, rfl⟩, fun _ => ⟨_, rfl, hfv⟩⟩

theorem generate_of_no_blank (repr : Rat → Flt) (s : XSelector) (ha : ' ' ∉ s.attr) :
    generateFromStr repr s.str = (match readVal repr (XSelector.valText s.val) with
      | .error e => .error e
      | .ok v => if !XSelector.legal s.op v then .error .valueError else .ok ⟨s.attr, s.op, v⟩) := by
  have := generate_parts repr s.attr s.op (XSelector.valText s.val) ha
  exact this

theorem generate_attr {repr : Rat → Flt} {x : Str} {s : XSelector} (h : generateFromStr repr x = .ok s) : ' ' ∉ s.attr := by
  unfold generateFromStr at h
  split at h
  · cases h
  · rename_i a rest heq
    split at h
    rename_i o third heq2
    split at h
    · cases h
    · split at h
      · cases h
      · split at h
        · cases h
        · split at h
          · cases h
          · cases h
            intro hb
            exact Selector.splitFirst_fst_ne (s := x) hb (by rw [heq])

theorem repr_zero {repr : Rat → Flt} (hp : ShortestRepr repr) : repr 0 = mkFlt 0 0 := by
  have h0 : IsFloat64 0 := ⟨0, 0, by norm_num, by norm_num, by norm_num, by norm_num⟩
  have hr : Binary64.round (mkFlt 0 0).toRat = .fin 0 := by rw [toRat_mkFlt]; simpa using round_float h0
  have hs := hp.short 0 (mkFlt 0 0) h0 hr
  have : sigDigits (mkFlt 0 0) = 0 := by decide +kernel
  rw [this, Nat.le_zero] at hs
  have hm : (repr 0).m = 0 := by
    unfold sigDigits at hs
    have := Nat.digits_eq_nil_iff_eq_zero.1 (List.length_eq_zero_iff.1 hs)
    exact Int.natAbs_eq_zero.1 this
  have hz : (repr 0).toRat = 0 := by unfold Flt.toRat; rw [hm]; simp
  apply Flt.toRat_inj
  rw [hz, toRat_mkFlt]; simp

/-- **C114.** What has been read is printed and read again as the same selector, unless it is infinite or a float without a point in its printed form (`1e+16`). -/
theorem C114_again {repr : Rat → Flt} (hp : ShortestRepr repr) (x : Str) (s : XSelector) (h : generateFromStr repr x = .ok s) (h1 : s.val ≠ .pinf) (h2 : s.val ≠ .ninf)
    (h3 : ∀ f, s.val = .val (.flt f) → '.' ∈ f.str) : generateFromStr repr s.str = .ok s := by
  have ha := generate_attr h
  obtain ⟨o1, o2, o3⟩ := C114_other repr x
  rw [generate_of_no_blank repr s ha]
  -- the value is what some text is read as
  have hval : (∃ t, readVal repr t = .ok s.val) ∧ XSelector.legal s.op s.val = true := by
    unfold generateFromStr at h
    split at h
    · cases h
    · split at h
      split at h
      · cases h
      · split at h
        · cases h
        · rename_i t _
          split at h
          · cases h
          · rename_i v hv
            split at h
            · cases h
            · rename_i hl
              cases h
              exact ⟨⟨t, hv⟩, by simpa using hl⟩
  obtain ⟨⟨t, ht⟩, hl⟩ := hval
  have key : readVal repr (XSelector.valText s.val) = .ok s.val := by
    unfold readVal at ht
    cases hpv : Selector.parseVal t with
    | error e => rw [hpv] at ht; cases ht
    | ok v =>
      rw [hpv] at ht
      cases v with
      | str y =>
        simp only [Except.ok.injEq] at ht
        rw [← ht]
        show readVal repr (Selector.valText (.str y)) = _
        unfold readVal
        rw [Selector.parseVal_str]
      | int z =>
        simp only [Except.ok.injEq] at ht
        rw [← ht]
        show readVal repr (Selector.valText (.int z)) = _
        unfold readVal
        rw [Selector.parseVal_int]
      | flt f =>
        simp only [Except.ok.injEq] at ht
        unfold floatValue at ht
        obtain ⟨c1, _, _, c4⟩ := C103_rounding f.toRat
        cases hr : Binary64.round f.toRat with
        | inf => rw [hr] at ht; exact absurd ht.symm h1
        | ninf => rw [hr] at ht; exact absurd ht.symm h2
        | nan => exact absurd hr c4
        | fin b =>
          rw [hr] at ht
          simp only at ht
          have hb := (c1 b hr).float
          split at ht
          · rw [← ht]
            have e : XSelector.valText .nzero = c!"-0.0" := rfl
            have e2 : Selector.parseVal c!"-0.0" = .ok (.flt (mkFlt 0 0)) := by decide +kernel
            have e3 : Binary64.round (mkFlt 0 0).toRat = .fin 0 := by rw [toRat_mkFlt]; simpa using round_float ⟨0, 0, by norm_num, by norm_num, by norm_num, by norm_num⟩
            have e4 : (literal c!"-0.0").bind List.head? = some '-' := by decide +kernel
            unfold readVal
            rw [e, e2]
            simp only
            unfold floatValue
            rw [e3]
            simp only [e4, and_self, if_true]
          · have hpt := h3 _ ht.symm
            rw [← ht]
            show readVal repr (Selector.valText (.flt (repr b))) = _
            unfold readVal
            rw [Selector.parseVal_flt _ hpt]
            simp only
            unfold floatValue
            rw [hp.back b hb]
            simp only
            rw [if_neg]
            rintro ⟨hz, hm⟩
            subst hz
            rw [repr_zero hp] at hm
            revert hm
            decide +kernel
  rw [key]
  simp [hl]

/-- **C114.** Two literals in the range are read as equal values exactly when they have the same nearest float. -/
theorem C114_equal {repr : Rat → Flt} (hp : ShortestRepr repr) (t t' : Str) (q q' b b' : Rat) (hq : ¬ Quoted t) (hd : '.' ∈ t) (h : FloatText t q) (hq' : ¬ Quoted t') (hd' : '.' ∈ t')
    (h' : FloatText t' q') (hr : Binary64.round q = .fin b) (hr' : Binary64.round q' = .fin b') (v v' : XVal) (hv : readVal repr t = .ok v) (hv' : readVal repr t' = .ok v') :
    v.eq v' = true ↔ b = b' := by
  have main : ∀ {t : Str} {q b : Rat} {v : XVal}, ¬ Quoted t → '.' ∈ t → FloatText t q → Binary64.round q = .fin b → readVal repr t = .ok v →
      IsFloat64 b ∧ ((b = 0 ∧ v = .nzero) ∨ v = .val (.flt (repr b))) := by
    intro t q b v hq hd h hr hv
    obtain ⟨f, rfl⟩ := floatText_flt h
    unfold readVal at hv
    rw [parseVal_float hq hd h] at hv
    simp only [Except.ok.injEq] at hv
    unfold floatValue at hv
    rw [hr] at hv
    simp only at hv
    refine ⟨((C103_rounding f.toRat).1 b hr).float, ?_⟩
    split at hv
    · rename_i hz; exact .inl ⟨hz.1, hv.symm⟩
    · exact .inr hv.symm
  obtain ⟨hb, m⟩ := main hq hd h hr hv
  obtain ⟨hb', m'⟩ := main hq' hd' h' hr' hv'
  have h0 : IsFloat64 0 := ⟨0, 0, by norm_num, by norm_num, by norm_num, by norm_num⟩
  have z0 : (repr 0).toRat = 0 := by rw [repr_zero hp, toRat_mkFlt]; simp
  have zi : ∀ {c : Rat}, IsFloat64 c → ((repr c).toRat = 0 ↔ c = 0) := fun hc => by
    have := (C105_order hp hc h0).2
    rwa [z0] at this
  rcases m with ⟨e, rfl⟩ | rfl <;> rcases m' with ⟨e', rfl⟩ | rfl
  · rw [e, e']; simp [XVal.eq, XVal.eqNum]
  · rw [e]
    show ((repr b').toRat == 0) = true ↔ _
    rw [beq_iff_eq, zi hb']
    exact eq_comm
  · rw [e']
    show ((repr b).toRat == 0) = true ↔ _
    rw [beq_iff_eq, zi hb]
  · show ((repr b).toRat == (repr b').toRat) = true ↔ _
    rw [beq_iff_eq]
    exact (C105_order hp hb hb').2

/-! ### up to fifteen digits -/

theorem flt_zpow (f : Flt) : f.toRat = f.m * (10 : Rat) ^ f.e := by
  unfold Flt.toRat
  split
  · rename_i h
    rw [← zpow_natCast, Int.toNat_of_nonneg h]
  · rename_i h
    rw [div_eq_mul_inv, ← zpow_natCast, ← zpow_neg, Int.toNat_of_nonneg (by omega), neg_neg]

theorem sig_lt (f : Flt) (h : sigDigits f ≤ 15) : |(f.m : Rat)| < 10 ^ 15 := by
  have h1 : f.m.natAbs < 10 ^ 15 := lt_of_lt_of_le (Nat.lt_base_pow_length_digits (b := 10) (by norm_num)) (Nat.pow_le_pow_right (by norm_num) h)
  have h2 : |f.m| < 10 ^ 15 := by rw [Int.abs_eq_natAbs]; omega
  exact_mod_cast h2

/-- two different decimal numbers with at most fifteen digits are not within a float's error of the same number -/
theorem fifteen_aux {f g : Flt} {b : Rat} (hf : sigDigits f ≤ 15) (he : f.e ≤ g.e) (h1 : |b - f.toRat| ≤ 2 ^ (-53 : Int) * |f.toRat|)
    (h2 : |b - g.toRat| ≤ 2 ^ (-53 : Int) * |g.toRat|) : f.toRat = g.toRat := by
  by_contra hne
  obtain ⟨k, hk⟩ : ∃ k : Nat, g.e = f.e + k := ⟨(g.e - f.e).toNat, by omega⟩
  have hp : (0 : Rat) < (10 : Rat) ^ f.e := zpow_pos (by norm_num) _
  have e1 : f.toRat - g.toRat = ((f.m - g.m * 10 ^ k : Int) : Rat) * (10 : Rat) ^ f.e := by
    rw [flt_zpow f, flt_zpow g, hk, zpow_add₀ (by norm_num), zpow_natCast]
    push_cast; ring
  have hn : f.m - g.m * 10 ^ k ≠ 0 := by
    intro h
    rw [h, Int.cast_zero, zero_mul] at e1
    exact hne (sub_eq_zero.1 e1)
  have h3 : (10 : Rat) ^ f.e ≤ |f.toRat - g.toRat| := by
    rw [e1, abs_mul, abs_of_pos hp]
    have : (1 : Rat) ≤ |((f.m - g.m * 10 ^ k : Int) : Rat)| := by
      have := Int.one_le_abs hn
      exact_mod_cast this
    exact le_mul_of_one_le_left hp.le this
  have h4 : |f.toRat| ≤ 10 ^ 15 * (10 : Rat) ^ f.e := by
    rw [flt_zpow f, abs_mul, abs_of_pos hp]
    exact mul_le_mul_of_nonneg_right (sig_lt f hf).le hp.le
  have h5 : |f.toRat - g.toRat| ≤ |b - f.toRat| + |b - g.toRat| := by
    have := abs_sub_le f.toRat b g.toRat
    rwa [abs_sub_comm f.toRat b] at this
  have h6 : |g.toRat| ≤ |f.toRat| + |f.toRat - g.toRat| := by
    have := abs_sub_le g.toRat f.toRat 0
    rw [sub_zero, sub_zero, abs_sub_comm g.toRat f.toRat] at this
    linarith only [this]
  have h7 : (2 : Rat) ^ (-53 : Int) = 1 / 9007199254740992 := by norm_num
  rw [h7] at h1 h2
  norm_num at h4
  linarith only [h1, h2, h3, h4, h5, h6, abs_nonneg f.toRat, hp]

theorem close_of_round {q b : Rat} (h : Binary64.round q = .fin b) (hb : (2 : Rat) ^ (-1022 : Int) < |b|) : |b - q| ≤ 2 ^ (-53 : Int) * |q| := by
  have hfl : IsFloat64 ((2 : Rat) ^ (-1022 : Int)) := ⟨2 ^ 52, -1074, by norm_num, by norm_num, by norm_num, by
    rw [show ((2 ^ 52 : Int) : Rat) = (2 : Rat) ^ (52 : Int) by norm_num, ← zpow_add₀ (by norm_num)]; rfl⟩
  have h1 := round_float hfl
  have h2 := round64_neg h1
  have hq : (2 : Rat) ^ (-1022 : Int) ≤ |q| := by
    by_contra hc
    rw [not_le, abs_lt] at hc
    have a1 := round_order h h1 hc.2.le
    have a2 := round_order h2 h hc.1.le
    exact absurd (abs_le.2 ⟨a2, a1⟩) (not_le.2 hb)
  have hbnd : ∃ k : Int, Binary64.Bnd (-1022) k q := by
    obtain ⟨k, hk⟩ := pow_unbounded_of_one_lt |q| (show (1 : Rat) < 2 by norm_num)
    exact ⟨k, .inr ⟨hq, by rw [zpow_natCast]; exact hk.le⟩⟩
  obtain ⟨k, hk⟩ := hbnd
  have hs := Binary64.roundAny_same hk (by norm_num)
  have hb' : b = Binary64.roundAny q := by
    unfold Binary64.round at h
    split at h
    · cases h
    · split at h
      · cases h
      · cases h; rfl
  rw [hb', hs]
  exact Float64.fl_error q

/-- **C114.** For a literal of a number with at most fifteen significant digits, zero or in the normal range of floats, the float read is printed as that number: what `Model/SpecialFloats` (and, with
`-0.0` left out, `Model/Selector`) say of the decimal number is exact. -/
theorem C114_fifteen {repr : Rat → Flt} (hp : ShortestRepr repr) (t : Str) (h : ∀ f, Selector.parseVal t = .ok (.flt f) →
      sigDigits f ≤ 15 ∧ (f.toRat = 0 ∨ ((2 : Rat) ^ (-1021 : Int) ≤ |f.toRat| ∧ |f.toRat| < (2 : Rat) ^ (1024 : Int) - 2 ^ (970 : Int)))) :
    readVal repr t = XSelector.parseVal t := by
  unfold readVal XSelector.parseVal
  cases hpv : Selector.parseVal t with
  | error e => rfl
  | ok v =>
    cases v with
    | str y => rfl
    | int z => rfl
    | flt f =>
      obtain ⟨hd, hr⟩ := h f hpv
      simp only
      have mz : f.toRat = 0 ↔ f.m = 0 := by
        rw [flt_zpow]
        have : (10 : Rat) ^ f.e ≠ 0 := zpow_ne_zero _ (by norm_num)
        simp [this]
      rcases hr with h0 | ⟨h1, h2⟩
      · have hf : f = mkFlt 0 0 := by
          apply Flt.toRat_inj; rw [h0, toRat_mkFlt]; simp
        have e3 : Binary64.round f.toRat = .fin 0 := by rw [h0]; exact round_float ⟨0, 0, by norm_num, by norm_num, by norm_num, by norm_num⟩
        unfold floatValue
        rw [e3]
        simp only [mz.1 h0, true_and]
        rw [repr_zero hp, ← hf]
        split <;> rfl
      · obtain ⟨c1, c2, c3, c4⟩ := C103_rounding f.toRat
        rw [abs_lt] at h2
        cases hrr : Binary64.round f.toRat with
        | inf => exact absurd (c2.1 hrr) (not_le.2 h2.2)
        | ninf => exact absurd (c3.1 hrr) (not_le.2 h2.1)
        | nan => exact absurd hrr c4
        | fin b =>
          have hfl : IsFloat64 ((2 : Rat) ^ (-1021 : Int)) := ⟨2 ^ 52, -1073, by norm_num, by norm_num, by norm_num, by
            rw [show ((2 ^ 52 : Int) : Rat) = (2 : Rat) ^ (52 : Int) by norm_num, ← zpow_add₀ (by norm_num)]; rfl⟩
          have hb : (2 : Rat) ^ (-1021 : Int) ≤ |b| := by
            rcases le_abs.1 h1 with h3 | h3
            · exact le_abs.2 (.inl (round_order (round_float hfl) hrr h3))
            · exact le_abs.2 (.inr (round_order (round_float hfl) (round64_neg hrr) h3))
          have hb' : (2 : Rat) ^ (-1022 : Int) < |b| := lt_of_lt_of_le (zpow_lt_zpow_right₀ (by norm_num) (by norm_num)) hb
          have hbf := (c1 b hrr).float
          have hback := hp.back b hbf
          have hg : sigDigits (repr b) ≤ 15 := (hp.short b f hbf hrr).trans hd
          have k1 := close_of_round hrr hb'
          have k2 := close_of_round hback hb'
          have heq : f.toRat = (repr b).toRat := by
            rcases le_total f.e (repr b).e with he | he
            · exact fifteen_aux hd he k1 k2
            · exact (fifteen_aux hg he k2 k1).symm
          have hf : repr b = f := Flt.toRat_inj heq.symm
          have hb0 : b ≠ 0 := by
            rintro rfl
            rw [abs_zero] at hb
            exact absurd hb (not_le.2 (zpow_pos (by norm_num) _))
          have hf0 : f.m ≠ 0 := by
            intro h
            have := mz.2 h
            rw [this, abs_zero] at h1
            exact absurd h1 (not_le.2 (zpow_pos (by norm_num) _))
          unfold floatValue
          rw [hrr]
          simp only [hb0, hf0, false_and, if_false, hf]

/-! ### the hypotheses are met -/

/-- `0.1` is read, and shown, as `0.1`, though the float is 3602879701896397 / 2^55 -/
theorem C114_tenth {repr : Rat → Flt} (hp : ShortestRepr repr) : readVal repr c!"0.1" = .ok (.val (.flt (mkFlt 1 (-1)))) := by
  have h : Selector.parseVal c!"0.1" = .ok (.flt (mkFlt 1 (-1))) := by decide +kernel
  rw [C114_fifteen hp]
  · decide +kernel
  · intro f hf
    rw [h] at hf
    cases hf
    refine ⟨by decide +kernel, .inr ?_⟩
    have : (mkFlt 1 (-1)).toRat = 1 / 10 := by rw [toRat_mkFlt]; norm_num
    rw [this, abs_of_pos (by norm_num)]
    constructor
    · exact (zpow_le_zpow_right₀ (by norm_num) (by norm_num : (-1021 : Int) ≤ -4)).trans (by norm_num)
    · have h1 : (2 : Rat) ^ (1024 : Int) = 2 ^ (54 : Int) * 2 ^ (970 : Int) := by rw [← zpow_add₀ (by norm_num)]; rfl
      have h2 : (1 : Rat) ≤ 2 ^ (970 : Int) := one_le_zpow₀ (by norm_num) (by norm_num)
      rw [h1]
      generalize (2 : Rat) ^ (970 : Int) = y at *
      norm_num
      linarith only [h2]

/-- seventeen digits are too many: `0.10000000000000001` and `0.1` are one float -/
example : Binary64.round (1 / 10) = Binary64.round (10000000000000001 / 100000000000000000) := by decide +kernel
/-- the decimal model tells them apart -/
example : Selector.parseVal c!"0.10000000000000001" ≠ Selector.parseVal c!"0.1" := by decide +kernel
/-- beyond the range -/
example (repr : Rat → Flt) : ∃ s, generateFromStr repr c!"a <= -1.0e999" = .ok s ∧ s.val = .ninf := by
  refine ⟨⟨c!"a", Op.lessOrEqual, .ninf⟩, ?_, rfl⟩
  have h : Selector.parseVal c!"-1.0e999" = .ok (.flt (mkFlt (-1) 999)) := by decide +kernel
  have h2 : Binary64.round (mkFlt (-1) 999).toRat = .ninf := by decide +kernel
  have := generate_parts repr c!"a" .lessOrEqual c!"-1.0e999" (by decide)
  rw [show c!"a <= -1.0e999" = c!"a" ++ c!" " ++ Op.str .lessOrEqual ++ c!" " ++ c!"-1.0e999" from by decide, this]
  unfold readVal floatValue
  rw [h]
  simp only [h2]
  rfl
/-- below the range, the sign is kept -/
example (repr : Rat → Flt) : readVal repr c!"-1.0e-999" = .ok .nzero := by
  have h : Selector.parseVal c!"-1.0e-999" = .ok (.flt (mkFlt (-1) (-999))) := by decide +kernel
  have h2 : Binary64.round (mkFlt (-1) (-999)).toRat = .fin 0 := by decide +kernel
  have h3 : (literal c!"-1.0e-999").bind List.head? = some '-' := by decide +kernel
  unfold readVal floatValue
  rw [h]
  simp only [h2, h3, and_self, if_true]

end Verif.FloatRead
