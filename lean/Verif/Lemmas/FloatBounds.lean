import Verif.Lemmas.Float64
import Mathlib.Tactic.GCongr
import Mathlib.Algebra.Order.Field.Basic
/-! Inequalities between rounded expressions of counts. -/
namespace Verif.Float64

/-- the unit of rounding -/
def u : Rat := 1 / 9007199254740992

theorem u_eq : (2 : Rat) ^ (-53 : Int) = u := by unfold u; norm_num
theorem u_pos : 0 < u := by unfold u; norm_num
theorem u_small : u ≤ 1 / 1000000 := by unfold u; norm_num

theorem fl_le {q : Rat} (h : 0 ≤ q) : fl q ≤ q * (1 + u) := by
  have := (abs_le.1 (fl_error q)).2
  rw [u_eq, abs_of_nonneg h] at this
  linarith

theorem fl_ge {q : Rat} (h : 0 ≤ q) : q * (1 - u) ≤ fl q := by
  have := (abs_le.1 (fl_error q)).1
  rw [u_eq, abs_of_nonneg h] at this
  linarith

theorem fl_abs (q : Rat) : |fl q - q| ≤ u * |q| := by rw [← u_eq]; exact fl_error q

theorem fl_le_one {q : Rat} (h : q ≤ 1) : fl q ≤ 1 := by
  have := fl_mono h
  rwa [fl_one] at this

theorem fl_add_nat {n : Nat} (h : n ≤ 2 ^ 53) {a b : Nat} (e : n = a + b) : fl ((a : Rat) + b) = a + b := by
  have := fl_nat h
  rw [e] at this
  push_cast at this
  exact this

/-- the share of positives among all rows, rounded -/
theorem share_bounds (TP FP : Nat) (h : 0 < TP + FP) :
    0 ≤ fl ((TP : Rat) / (TP + FP)) ∧ fl ((TP : Rat) / (TP + FP)) ≤ 1 ∧ (TP : Rat) * (1 - u) ≤ fl ((TP : Rat) / (TP + FP)) * (TP + FP) := by
  have hN : (0 : Rat) < TP + FP := by exact_mod_cast h
  have h0 : (0 : Rat) ≤ (TP : Rat) / (TP + FP) := by positivity
  refine ⟨fl_nonneg h0, fl_le_one ((div_le_one hN).2 (by simp)), ?_⟩
  have := fl_ge h0
  calc (TP : Rat) * (1 - u) = (TP : Rat) / (TP + FP) * (1 - u) * (TP + FP) := by field_simp
    _ ≤ _ := mul_le_mul_of_nonneg_right this hN.le

/-- `n (p - p0)` against `tp (1 - p0)`, before the last rounding, with some negatives covered: there is room for four more rounding errors -/
theorem core_strict (tp fp TP FP : Nat) (h1 : tp ≤ TP) (h2 : 1 ≤ fp) (hN : TP + FP ≤ 2 ^ 48) (h0 : 0 < TP + FP) :
    ((tp : Rat) + fp) * fl (fl ((tp : Rat) / (tp + fp)) - fl ((TP : Rat) / (TP + FP))) * (1 + 4 * u) ≤
      tp * fl (1 - fl ((TP : Rat) / (TP + FP))) := by
  obtain ⟨c0, c1, c2⟩ := share_bounds TP FP h0
  set c := fl ((TP : Rat) / (TP + FP)) with hc
  have hn : (0 : Rat) < (tp : Rat) + fp := by exact_mod_cast (by omega : 0 < tp + fp)
  have hNp : (0 : Rat) < (TP : Rat) + FP := by exact_mod_cast h0
  have hNb : ((TP : Rat) + FP) * u ≤ 1 / 32 := by
    have : ((TP : Rat) + FP) ≤ 2 ^ 48 := by exact_mod_cast hN
    unfold u
    norm_num at this ⊢
    linarith
  have htp : (tp : Rat) ≤ TP := by exact_mod_cast h1
  have htp0 : (0 : Rat) ≤ tp := by positivity
  have hu := u_pos
  have hus := u_small
  have hE : (1 - c) * (1 - u) ≤ fl (1 - c) := fl_ge (by linarith)
  have hE0 : 0 ≤ fl (1 - c) := fl_nonneg (by linarith)
  rcases le_or_gt (fl ((tp : Rat) / (tp + fp))) c with hle | hgt
  · have hD : fl (fl ((tp : Rat) / (tp + fp)) - c) ≤ 0 := fl_nonpos (by linarith)
    have : ((tp : Rat) + fp) * fl (fl ((tp : Rat) / (tp + fp)) - c) * (1 + 4 * u) ≤ 0 :=
      mul_nonpos_of_nonpos_of_nonneg (mul_nonpos_of_nonneg_of_nonpos hn.le hD) (by linarith)
    exact this.trans (mul_nonneg htp0 hE0)
  · have hp : fl ((tp : Rat) / (tp + fp)) ≤ (tp : Rat) / (tp + fp) * (1 + u) := fl_le (by positivity)
    have hD := fl_le (q := fl ((tp : Rat) / (tp + fp)) - c) (by linarith)
    have e1 : ((tp : Rat) + fp) * fl (fl ((tp : Rat) / (tp + fp)) - c) ≤ (tp * (1 + u) - (tp + fp) * c) * (1 + u) := by
      calc ((tp : Rat) + fp) * fl (fl ((tp : Rat) / (tp + fp)) - c) ≤ (tp + fp) * (((tp : Rat) / (tp + fp) * (1 + u) - c) * (1 + u)) := by
            apply mul_le_mul_of_nonneg_left _ hn.le
            refine hD.trans (mul_le_mul_of_nonneg_right ?_ (by linarith))
            linarith
        _ = _ := by field_simp
    have e2 : ((tp : Rat) * (1 + u) - (tp + fp) * c) ≤ tp * (1 + u) - (tp + 1) * c := by
      have : (1 : Rat) ≤ fp := by exact_mod_cast h2
      nlinarith
    have e3 : ((tp : Rat) + fp) * fl (fl ((tp : Rat) / (tp + fp)) - c) * (1 + 4 * u) ≤
        (tp * (1 + u) - (tp + 1) * c) * (1 + u) * (1 + 4 * u) := by
      apply mul_le_mul_of_nonneg_right _ (by linarith)
      exact e1.trans (mul_le_mul_of_nonneg_right e2 (by linarith))
    refine e3.trans (le_trans ?_ (mul_le_mul_of_nonneg_left hE htp0))
    -- `8 tp u ≤ c`
    have hcb : 8 * tp * u ≤ c := by
      have : 8 * tp * u * (TP + FP) ≤ c * (TP + FP) := by
        calc 8 * tp * u * ((TP : Rat) + FP) = 8 * tp * (((TP : Rat) + FP) * u) := by ring
          _ ≤ 8 * tp * (1 / 32) := by apply mul_le_mul_of_nonneg_left hNb; positivity
          _ ≤ TP * (1 - u) := by nlinarith
          _ ≤ _ := c2
      exact le_of_mul_le_mul_right this hNp
    have k1 : (1 + u) * (1 + 4 * u) ≤ 1 + 6 * u := by nlinarith
    have k2 : 1 ≤ (1 + u) * (1 + 4 * u) := by nlinarith
    set K := (1 + u) * (1 + 4 * u) with hK
    have : (tp * (1 + u) - (tp + 1) * c) * (1 + u) * (1 + 4 * u) = (tp * (1 + u) - (tp + 1) * c) * K := by rw [hK]; ring
    rw [this]
    have m1 : (tp : Rat) * (1 - c) * K ≤ tp * (1 - c) * (1 + 6 * u) :=
      mul_le_mul_of_nonneg_left k1 (mul_nonneg htp0 (by linarith))
    have m2 : (tp : Rat) * u * K ≤ tp * u * (1 + 6 * u) := mul_le_mul_of_nonneg_left k1 (mul_nonneg htp0 hu.le)
    have m3 : c ≤ c * K := by nlinarith
    have m4 : (tp : Rat) * u * (6 * u) ≤ tp * u * (1 / 1000) := mul_le_mul_of_nonneg_left (by linarith) (mul_nonneg htp0 hu.le)
    have m5 : 0 ≤ (tp : Rat) * c * u := by positivity
    nlinarith

/-- the same with or without negatives -/
theorem core (tp fp TP FP : Nat) (h1 : tp ≤ TP) (hn : 0 < tp + fp) (hN : TP + FP ≤ 2 ^ 48) (h0 : 0 < TP + FP) :
    ((tp : Rat) + fp) * fl (fl ((tp : Rat) / (tp + fp)) - fl ((TP : Rat) / (TP + FP))) ≤
      tp * fl (1 - fl ((TP : Rat) / (TP + FP))) := by
  have hn' : (0 : Rat) < (tp : Rat) + fp := by exact_mod_cast hn
  rcases Nat.eq_zero_or_pos fp with h | h
  · subst h
    have : (tp : Rat) / (tp + (0 : Nat)) = 1 := by
      simp only [Nat.cast_zero, add_zero] at hn' ⊢
      exact div_self hn'.ne'
    rw [this, fl_one]; simp
  · have := core_strict tp fp TP FP h1 h hN h0
    obtain ⟨c0, c1, -⟩ := share_bounds TP FP h0
    rcases le_or_gt 0 (fl (fl ((tp : Rat) / (tp + fp)) - fl ((TP : Rat) / (TP + FP)))) with hd | hd
    · refine le_trans ?_ this
      have := mul_nonneg hn'.le hd
      nlinarith [u_pos]
    · have a := mul_nonpos_of_nonneg_of_nonpos hn'.le hd.le
      have b : (0 : Rat) ≤ tp * fl (1 - fl ((TP : Rat) / (TP + FP))) := mul_nonneg (by positivity) (fl_nonneg (by linarith))
      linarith

/-- rounded WRAcc of a refinement against its rounded estimate, before the last rounding -/
theorem core_wracc (tp fp TP FP tp' fp' : Nat) (h1 : tp ≤ TP) (h2 : fp ≤ FP) (h3 : tp' ≤ tp) (h4 : fp' ≤ fp) (hn : 0 < tp' + fp')
    (hN : TP + FP ≤ 2 ^ 48) :
    fl (((tp' : Rat) + fp') / (TP + FP)) * fl (fl ((tp' : Rat) / (tp' + fp')) - fl ((TP : Rat) / (TP + FP))) ≤
      fl ((tp : Rat) * tp / (tp + fp)) * fl (1 - fl ((TP : Rat) / (TP + FP))) := by
  have h0 : 0 < TP + FP := by omega
  obtain ⟨c0, c1, -⟩ := share_bounds TP FP h0
  have hc := core tp' fp' TP FP (by omega) hn hN h0
  set c := fl ((TP : Rat) / (TP + FP)) with hcdef
  set D := fl (fl ((tp' : Rat) / (tp' + fp')) - c) with hD
  set E := fl (1 - c) with hEdef
  have hE0 : 0 ≤ E := fl_nonneg (by linarith)
  have hu := u_pos
  have hus := u_small
  have hn' : (0 : Rat) < (tp' : Rat) + fp' := by exact_mod_cast hn
  have hnn : (0 : Rat) < (tp : Rat) + fp := by exact_mod_cast (by omega : 0 < tp + fp)
  have hNp : (0 : Rat) < (TP : Rat) + FP := by exact_mod_cast h0
  have hNb : ((TP : Rat) + FP) * u ≤ 1 / 32 := by
    have : ((TP : Rat) + FP) ≤ 2 ^ 48 := by exact_mod_cast hN
    unfold u
    norm_num at this ⊢
    linarith
  have hA0 : 0 ≤ fl (((tp' : Rat) + fp') / (TP + FP)) := fl_nonneg (by positivity)
  have hB0 : 0 ≤ fl ((tp : Rat) * tp / (tp + fp)) := fl_nonneg (by positivity)
  rcases le_or_gt D 0 with hd | hd
  · exact (mul_nonpos_of_nonneg_of_nonpos hA0 hd).trans (mul_nonneg hB0 hE0)
  have hA : fl (((tp' : Rat) + fp') / (TP + FP)) ≤ ((tp' : Rat) + fp') / (TP + FP) * (1 + u) := fl_le (by positivity)
  have hB : (tp : Rat) * tp / (tp + fp) * (1 - u) ≤ fl ((tp : Rat) * tp / (tp + fp)) := fl_ge (by positivity)
  have htp' : 0 < tp' := by
    rcases Nat.eq_zero_or_pos tp' with h | h
    · exfalso
      rw [h] at hc
      simp only [Nat.cast_zero, zero_mul, zero_add] at hc
      have : (0 : Rat) < ((fp' : Nat) : Rat) := by rw [h] at hn; exact_mod_cast (by omega : 0 < fp')
      nlinarith
    · exact h
  -- the left-hand side is at most `(1 + u) / N * tp' * E`
  have hL : fl (((tp' : Rat) + fp') / (TP + FP)) * D * (TP + FP) ≤ (1 + u) * (((tp' : Rat) + fp') * D) := by
    calc fl (((tp' : Rat) + fp') / (TP + FP)) * D * (TP + FP) ≤ ((tp' : Rat) + fp') / (TP + FP) * (1 + u) * D * (TP + FP) := by
          apply mul_le_mul_of_nonneg_right _ hNp.le
          exact mul_le_mul_of_nonneg_right hA hd.le
      _ = _ := by field_simp
  by_cases hspecial : tp = 1 ∧ tp + fp = TP + FP
  · obtain ⟨t1, t2⟩ := hspecial
    have hTP : TP = 1 := by omega
    have ht' : tp' = 1 := by omega
    have hEq : fl ((tp : Rat) * tp / (tp + fp)) = c := by
      rw [hcdef]
      have e : (tp : Rat) + fp = TP + FP := by exact_mod_cast t2
      rw [e, t1, hTP]; simp
    rcases Nat.eq_zero_or_pos fp' with hf | hf
    · -- the same operations on both sides
      have hDE : D = E := by
        rw [hD, hEdef, ht', hf]
        simp only [Nat.cast_one, Nat.cast_zero, add_zero, div_one, fl_one]
      have hAc : fl (((tp' : Rat) + fp') / (TP + FP)) = c := by rw [ht', hf, hcdef, hTP]; simp
      rw [hDE, hAc, hEq]
    · have hs := core_strict tp' fp' TP FP (by omega) hf hN h0
      rw [← hcdef, ← hD, ← hEdef, ht'] at hs
      rw [ht'] at hL hn'
      have hcN := (share_bounds TP FP h0).2.2
      rw [← hcdef, hTP] at hcN
      rw [hEq, ht']
      apply le_of_mul_le_mul_right _ hNp
      refine hL.trans ?_
      have hnD : 0 ≤ (((1 : Nat) : Rat) + fp') * D := mul_nonneg hn'.le hd.le
      rw [hTP]
      calc (1 + u) * ((((1 : Nat) : Rat) + fp') * D) ≤ (1 - u) * ((((1 : Nat) : Rat) + fp') * D * (1 + 4 * u)) := by
            have k : 1 + u ≤ (1 - u) * (1 + 4 * u) := by nlinarith
            have := mul_le_mul_of_nonneg_right k hnD
            linarith
        _ ≤ (1 - u) * (((1 : Nat) : Rat) * E) := mul_le_mul_of_nonneg_left hs (by linarith)
        _ = (((1 : Nat) : Rat) * (1 - u)) * E := by ring
        _ ≤ (c * (((1 : Nat) : Rat) + FP)) * E := mul_le_mul_of_nonneg_right hcN hE0
        _ = _ := by ring
  · apply le_of_mul_le_mul_right _ hNp
    refine hL.trans ?_
    have t1 : (1 : Rat) ≤ tp' := by exact_mod_cast htp'
    have t2 : (tp' : Rat) ≤ tp := by exact_mod_cast h3
    have key : (1 + u) * tp' ≤ fl ((tp : Rat) * tp / (tp + fp)) * (TP + FP) := by
      have : (1 + u) * tp' * (tp + fp) ≤ (tp : Rat) * tp * (1 - u) * (TP + FP) := by
        rcases Nat.lt_or_ge (tp + fp) (TP + FP) with hlt | hge
        · have hlt' : (tp : Rat) + fp + 1 ≤ TP + FP := by exact_mod_cast hlt
          have a1 : (1 + u) * ((tp : Rat) + fp) ≤ (1 - u) * (TP + FP) := by nlinarith
          have a2 : (tp' : Rat) ≤ tp * tp := by nlinarith
          calc (1 + u) * tp' * ((tp : Rat) + fp) = tp' * ((1 + u) * ((tp : Rat) + fp)) := by ring
            _ ≤ tp' * ((1 - u) * (TP + FP)) := mul_le_mul_of_nonneg_left a1 (by linarith)
            _ ≤ (tp * tp) * ((1 - u) * (TP + FP)) := mul_le_mul_of_nonneg_right a2 (mul_nonneg (by linarith) hNp.le)
            _ = _ := by ring
        · have heq : tp + fp = TP + FP := by omega
          have heq' : (tp : Rat) + fp = TP + FP := by exact_mod_cast heq
          have h2' : 2 ≤ tp := by
            by_contra hcon
            exact hspecial ⟨by omega, heq⟩
          have h2q : (2 : Rat) ≤ tp := by exact_mod_cast h2'
          rw [heq']
          apply mul_le_mul_of_nonneg_right _ hNp.le
          nlinarith
      have e : (tp : Rat) * tp / (tp + fp) * (1 - u) * (TP + FP) = (tp : Rat) * tp * (1 - u) * (TP + FP) / (tp + fp) := by
        field_simp
      calc (1 + u) * tp' ≤ (tp : Rat) * tp * (1 - u) * (TP + FP) / (tp + fp) := (le_div_iff₀ hnn).2 this
        _ = (tp : Rat) * tp / (tp + fp) * (1 - u) * (TP + FP) := e.symm
        _ ≤ _ := mul_le_mul_of_nonneg_right hB hNp.le
    calc (1 + u) * (((tp' : Rat) + fp') * D) ≤ (1 + u) * (tp' * E) := mul_le_mul_of_nonneg_left hc (by linarith)
      _ = ((1 + u) * tp') * E := by ring
      _ ≤ (fl ((tp : Rat) * tp / (tp + fp)) * (TP + FP)) * E := mul_le_mul_of_nonneg_right key hE0
      _ = _ := by ring

end Verif.Float64
