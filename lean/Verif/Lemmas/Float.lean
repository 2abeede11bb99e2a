import Verif.Model.Value
import Verif.Lemmas.Str
import Mathlib.Tactic.Ring
import Mathlib.Tactic.FieldSimp
import Mathlib.Algebra.Order.Ring.Rat
/-! `float(repr(x)) = x` in the decimal model of floats. -/
namespace Verif

theorem parseDigitsAux_replicate (acc k : Nat) :
    parseDigitsAux acc (List.replicate k '0') = some (acc * 10 ^ k) := by
  induction k generalizing acc with
  | zero => simp [parseDigitsAux]
  | succ k ih =>
    have h0 : digitVal? '0' = some 0 := by decide
    simp only [List.replicate_succ, parseDigitsAux, h0, ih]
    congr 1; ring

theorem stripZeros_normal {m e : Int} (h : (m = 0 ∧ e = 0) ∨ ¬ (10 ∣ m)) : stripZeros m e = (m, e) := by
  unfold stripZeros
  rcases h with ⟨h1, h2⟩ | h
  · simp [h1, h2]
  · have : m ≠ 0 := by rintro rfl; simp at h
    simp [this, h]

theorem stripZeros_mul {m : Int} (hm : m ≠ 0) (e : Int) (k : Nat) :
    stripZeros (m * 10 ^ k) e = stripZeros m (e + k) := by
  induction k generalizing e with
  | zero => simp
  | succ k ih =>
    rw [stripZeros]
    have h1 : m * 10 ^ (k + 1) ≠ 0 := mul_ne_zero hm (pow_ne_zero _ (by decide))
    have h2 : (10 : Int) ∣ m * 10 ^ (k + 1) := ⟨m * 10 ^ k, by ring⟩
    have h3 : m * 10 ^ (k + 1) / 10 = m * 10 ^ k := by
      rw [show m * 10 ^ (k + 1) = (m * 10 ^ k) * 10 by ring, Int.mul_ediv_cancel _ (by decide)]
    simp only [h1, if_false, h2, if_true, h3]
    rw [ih]; congr 1; push_cast; ring

theorem mkFlt_self (f : Flt) : mkFlt f.m f.e = f := by
  cases f with
  | mk m e h => simp [mkFlt, stripZeros_normal h]

theorem mkFlt_mul (f : Flt) (k : Nat) : mkFlt (f.m * 10 ^ k) (f.e - k) = f := by
  by_cases hm : f.m = 0
  · obtain ⟨m, e, h⟩ := f
    simp only at hm
    subst hm
    have he : e = 0 := by rcases h with h | h; exact h.2; simp at h
    subst he
    simp [mkFlt, stripZeros]
  · have := stripZeros_mul hm (f.e - k) k
    rw [show f.e - (k : Int) + k = f.e by ring, stripZeros_normal f.norm] at this
    cases f; simp only [mkFlt, this]

theorem readInt_expStr (x : Int) : readInt (expStr x) = some x := by
  have key : parseNat (if x.natAbs < 10 then '0' :: natStr x.natAbs else natStr x.natAbs) = some x.natAbs := by
    split
    · have h0 : digitVal? '0' = some 0 := by decide
      simp only [parseNat, parseDigitsAux, h0]
      simpa using parseDigitsAux_natStr x.natAbs
    · exact parseNat_natStr _
  unfold expStr
  split
  · rename_i h
    simp only [readInt, key]
    show some (-((x.natAbs : Nat) : Int)) = some x
    congr 1; omega
  · rename_i h
    simp only [readInt, key]
    show some ((x.natAbs : Nat) : Int) = some x
    congr 1; omega

theorem isDigit_zero : IsDigit '0' := ⟨0, by decide, by decide⟩

theorem digits_no {s : Str} (h : ∀ c ∈ s, IsDigit c) : ∀ c ∈ s, (c == '.') = false ∧ (c == 'e' || c == 'E') = false := by
  intro c hc
  have := (h c hc).ne
  simp [this.1, this.2.1, this.2.2.1]

theorem parseUFloat_fixed {i fr : Str} (hi : ∀ c ∈ i, IsDigit c) (hf : ∀ c ∈ fr, IsDigit c)
    (hne : i ≠ []) {n : Nat} (hn : parseDigitsAux 0 (i ++ fr) = some n) :
    parseUFloat (i ++ '.' :: fr) = some (n, -(fr.length : Int)) := by
  have h1 : splitFirst (fun c => c == 'e' || c == 'E') (i ++ '.' :: fr) = (i ++ '.' :: fr, none) := by
    apply splitFirst_none
    intro c hc
    simp only [List.mem_append, List.mem_cons] at hc
    rcases hc with hc | hc | hc
    · exact (digits_no hi c hc).2
    · subst hc; decide
    · exact (digits_no hf c hc).2
  have h2 : splitFirst (· == '.') (i ++ '.' :: fr) = (i, some fr) :=
    splitFirst_append (fun c hc => (digits_no hi c hc).1) (by decide) fr
  have h3 : i ++ fr ≠ [] := by simp [hne]
  simp only [parseUFloat, h1, parseMantissa, h2, parseNat_eq h3, hn]
  rfl

theorem parseUFloat_exp {i fr : Str} (hi : ∀ c ∈ i, IsDigit c) (hf : ∀ c ∈ fr, IsDigit c)
    (hne : i ≠ []) {n : Nat} (hn : parseDigitsAux 0 (i ++ fr) = some n) (k : Int) :
    parseUFloat (i ++ '.' :: fr ++ 'e' :: expStr k) = some (n, k - (fr.length : Int)) := by
  have h1 : splitFirst (fun c => c == 'e' || c == 'E') ((i ++ '.' :: fr) ++ 'e' :: expStr k)
      = (i ++ '.' :: fr, some (expStr k)) := by
    apply splitFirst_append _ (by decide)
    intro c hc
    simp only [List.mem_append, List.mem_cons] at hc
    rcases hc with hc | hc | hc
    · exact (digits_no hi c hc).2
    · subst hc; decide
    · exact (digits_no hf c hc).2
  have h2 : splitFirst (· == '.') (i ++ '.' :: fr) = (i, some fr) :=
    splitFirst_append (fun c hc => (digits_no hi c hc).1) (by decide) fr
  have h3 : i ++ fr ≠ [] := by simp [hne]
  simp only [parseUFloat, h1, parseMantissa, h2, parseNat_eq h3, hn, readInt_expStr]
  rfl

theorem parseUFloat_exp1 {i : Str} (hi : ∀ c ∈ i, IsDigit c)
    (hne : i ≠ []) {n : Nat} (hn : parseDigitsAux 0 i = some n) (k : Int) :
    parseUFloat (i ++ 'e' :: expStr k) = some (n, k) := by
  have h1 : splitFirst (fun c => c == 'e' || c == 'E') (i ++ 'e' :: expStr k) = (i, some (expStr k)) :=
    splitFirst_append (fun c hc => (digits_no hi c hc).2) (by decide) _
  have h2 : splitFirst (· == '.') i = (i, none) := splitFirst_none (fun c hc => (digits_no hi c hc).1)
  simp only [parseUFloat, h1, parseMantissa, h2, parseNat_eq hne, hn, readInt_expStr]
  simp

/-- the parsed pair is `(n * 10^k, e - k)` -/
theorem parseUFloat_floatDigits {ds : Str} (hd : ∀ c ∈ ds, IsDigit c) (hne : ds ≠ []) {n : Nat}
    (hn : parseDigitsAux 0 ds = some n) (e : Int) :
    ∃ k : Nat, parseUFloat (floatDigits ds e) = some (n * 10 ^ k, e - k) := by
  unfold floatDigits
  simp only
  split
  · split
    · rename_i h1 h2
      refine ⟨e.toNat + 1, ?_⟩
      have hp : parseDigitsAux 0 ((ds ++ List.replicate e.toNat '0') ++ c!"0") = some (n * 10 ^ (e.toNat + 1)) := by
        have := parseDigitsAux_replicate n (e.toNat + 1)
        rw [List.append_assoc, parseDigitsAux_append, hn]
        rw [List.replicate_succ'] at this
        exact this
      have := parseUFloat_fixed (i := ds ++ List.replicate e.toNat '0') (fr := c!"0")
        (by intro c hc
            simp only [List.mem_append, List.mem_replicate] at hc
            rcases hc with hc | hc
            · exact hd c hc
            · rw [hc.2]; exact isDigit_zero)
        (by intro c hc; simp at hc; subst hc; exact isDigit_zero) (by simp [hne]) hp
      rw [show ds ++ List.replicate e.toNat '0' ++ c!".0" = ds ++ List.replicate e.toNat '0' ++ '.' :: c!"0" from rfl, this]
      congr 2
      push_cast; simp; omega
    · split
      · rename_i h1 h2 h3
        refine ⟨0, ?_⟩
        have := parseUFloat_fixed (i := ds.take (ds.length + e).toNat) (fr := ds.drop (ds.length + e).toNat)
          (fun c hc => hd c (List.mem_of_mem_take hc)) (fun c hc => hd c (List.mem_of_mem_drop hc))
          (by intro h
              rw [List.take_eq_nil_iff] at h
              rcases h with h | h
              · omega
              · exact hne h)
          (n := n) (by rw [List.take_append_drop]; exact hn)
        rw [this]
        congr 2
        · simp
        · simp; omega
      · rename_i h1 h2 h3
        refine ⟨0, ?_⟩
        have hp : parseDigitsAux 0 (c!"0" ++ (List.replicate (-(ds.length + e)).toNat '0' ++ ds)) = some n := by
          have h0 : digitVal? '0' = some 0 := by decide
          rw [parseDigitsAux_append]
          simp only [parseDigitsAux, h0, Option.bind_some]
          rw [parseDigitsAux_append, parseDigitsAux_replicate]
          simpa using hn
        have := parseUFloat_fixed (i := c!"0") (fr := List.replicate (-(ds.length + e)).toNat '0' ++ ds)
          (by intro c hc; simp at hc; subst hc; exact isDigit_zero)
          (by intro c hc
              simp only [List.mem_append, List.mem_replicate] at hc
              rcases hc with hc | hc
              · rw [hc.2]; exact isDigit_zero
              · exact hd c hc) (by simp) hp
        rw [show c!"0." ++ List.replicate (-(↑ds.length + e)).toNat '0' ++ ds
          = c!"0" ++ '.' :: (List.replicate (-(↑ds.length + e)).toNat '0' ++ ds) from rfl, this]
        congr 2
        · simp
        · simp; omega
  · refine ⟨0, ?_⟩
    match ds, hne with
    | [d], _ =>
      have := parseUFloat_exp1 hd (by simp) hn (([d] : Str).length + e - 1)
      simp only [List.cons_append, List.nil_append] at this
      simp only [this]
      congr 2
      · simp
      · simp
    | d :: d2 :: rest, _ =>
      have := parseUFloat_exp (i := [d]) (fr := d2 :: rest) (fun c hc => hd c (by simp at hc; simp [hc]))
        (fun c hc => hd c (by simp at hc; simp [hc])) (by simp) hn (((d :: d2 :: rest : Str).length : Int) + e - 1)
      simp only [List.cons_append, List.nil_append] at this
      simp only [List.cons_append]
      rw [this]
      congr 2
      · simp
      · simp; omega

theorem floatDigits_head {ds : Str} (hd : ∀ c ∈ ds, IsDigit c) (hne : ds ≠ []) (e : Int) :
    ∃ c cs, floatDigits ds e = c :: cs ∧ IsDigit c := by
  unfold floatDigits
  simp only
  obtain ⟨d, rest, rfl⟩ := List.exists_cons_of_ne_nil hne
  have hdd : IsDigit d := hd d (by simp)
  split
  · split
    · exact ⟨d, _, rfl, hdd⟩
    · split
      · rename_i h
        obtain ⟨k, hk⟩ : ∃ k, (((d :: rest).length : Int) + e).toNat = k + 1 := ⟨(((d :: rest).length : Int) + e).toNat - 1, by omega⟩
        rw [hk]
        exact ⟨d, _, rfl, hdd⟩
      · exact ⟨'0', _, rfl, isDigit_zero⟩
  · cases rest with
    | nil => exact ⟨d, _, rfl, hdd⟩
    | cons => exact ⟨d, _, rfl, hdd⟩

theorem expStr_chars (x : Int) : ∀ c ∈ expStr x, IsDigit c ∨ c = '-' ∨ c = '+' := by
  intro c hc
  unfold expStr at hc
  simp only [List.mem_cons] at hc
  rcases hc with rfl | hc
  · split <;> simp
  · split at hc
    · simp only [List.mem_cons] at hc
      rcases hc with rfl | hc
      · exact .inl isDigit_zero
      · exact .inl (natStr_digits _ c hc)
    · exact .inl (natStr_digits _ c hc)

theorem floatDigits_chars {ds : Str} (hd : ∀ c ∈ ds, IsDigit c) (e : Int) :
    ∀ c ∈ floatDigits ds e, IsDigit c ∨ c = '-' ∨ c = '+' ∨ c = '.' ∨ c = 'e' := by
  intro c hc
  unfold floatDigits at hc
  simp only at hc
  split at hc
  · split at hc
    · simp only [List.mem_append, List.mem_replicate, List.mem_cons, List.not_mem_nil, or_false] at hc
      rcases hc with (hc | hc) | rfl | rfl
      · exact .inl (hd c hc)
      · rw [hc.2]; exact .inl isDigit_zero
      · simp
      · exact .inl isDigit_zero
    · split at hc
      · simp only [List.mem_append, List.mem_cons] at hc
        rcases hc with hc | rfl | hc
        · exact .inl (hd c (List.mem_of_mem_take hc))
        · simp
        · exact .inl (hd c (List.mem_of_mem_drop hc))
      · simp only [List.mem_append, List.mem_replicate, List.mem_cons, List.not_mem_nil, or_false] at hc
        rcases hc with ((rfl | rfl) | hc) | hc
        · exact .inl isDigit_zero
        · simp
        · rw [hc.2]; exact .inl isDigit_zero
        · exact .inl (hd c hc)
  · split at hc
    · simp only [List.mem_cons] at hc
      rcases hc with rfl | rfl | hc
      · exact .inl (hd _ (by simp))
      · simp
      · rcases expStr_chars _ c hc with h | h | h <;> simp [h]
    · simp only [List.cons_append, List.mem_append, List.mem_cons] at hc
      rcases hc with rfl | rfl | hc | rfl | hc
      · exact .inl (hd _ (by simp))
      · simp
      · exact .inl (hd _ (by simp [hc]))
      · simp
      · rcases expStr_chars _ c hc with h | h | h <;> simp [h]
    · simp at hc

theorem fltStr_chars (f : Flt) : ∀ c ∈ f.str, IsDigit c ∨ c = '-' ∨ c = '+' ∨ c = '.' ∨ c = 'e' := by
  intro c hc
  unfold Flt.str at hc
  split at hc
  · simp only [List.mem_cons] at hc
    rcases hc with rfl | hc
    · simp
    · exact floatDigits_chars (natStr_digits _) _ c hc
  · exact floatDigits_chars (natStr_digits _) _ c hc

theorem fltStr_plain (f : Flt) : ∀ c ∈ f.str, Plain c := by
  intro c hc
  rcases fltStr_chars f c hc with h | rfl | rfl | rfl | rfl
  · exact h.plain
  all_goals exact ⟨by decide, by decide⟩

theorem readFloat_of_digit {c : Char} {cs : Str} (h : IsDigit c) :
    readFloat (c :: cs) = (parseUFloat (c :: cs)).map (fun p => mkFlt p.1 p.2) := by
  have := h.ne
  unfold readFloat
  split
  · rename_i heq; simp at heq; simp_all
  · rename_i heq; simp at heq; simp_all
  · rfl

theorem readFloat_str (f : Flt) : readFloat f.str = some f := by
  have hd := natStr_digits f.m.natAbs
  have hne := natStr_ne_nil f.m.natAbs
  obtain ⟨k, hk⟩ := parseUFloat_floatDigits hd hne (parseDigitsAux_natStr _) f.e
  unfold Flt.str
  split
  · rename_i hneg
    simp only [readFloat, hk]
    show some _ = some _
    congr 1
    refine Eq.trans ?_ (mkFlt_mul f k)
    have : -((f.m.natAbs * 10 ^ k : Nat) : Int) = f.m * 10 ^ k := by
      push_cast
      rw [abs_of_neg hneg]; ring
    simp only [this]
  · rename_i hneg
    obtain ⟨c, cs, hc, hcd⟩ := floatDigits_head hd hne f.e
    rw [hc, readFloat_of_digit hcd, ← hc, hk]
    show some _ = some _
    congr 1
    refine Eq.trans ?_ (mkFlt_mul f k)
    have : ((f.m.natAbs * 10 ^ k : Nat) : Int) = f.m * 10 ^ k := by
      push_cast
      rw [abs_of_nonneg (by omega)]
    simp only [this]

/-- `float(str(x)) == x` -/
theorem parseFloat_str (f : Flt) : parseFloat f.str = some f := by
  rw [parseFloat, literal_plain (fltStr_plain f), Option.bind_some, readFloat_str]

theorem Flt.toRat_mul (f : Flt) (k : Nat) (hk : 0 ≤ f.e + k) :
    f.toRat * 10 ^ k = ((f.m * 10 ^ (f.e + k).toNat : Int) : Rat) := by
  unfold Flt.toRat
  push_cast
  split
  · rename_i h
    have : (f.e + k).toNat = f.e.toNat + k := by omega
    rw [this, pow_add]; ring
  · rename_i h
    have : k = (-f.e).toNat + (f.e + k).toNat := by omega
    conv_lhs => rw [this]
    rw [pow_add]
    field_simp

theorem Flt.toRat_inj_aux {f g : Flt} (h : f.toRat = g.toRat) (he : f.e ≤ g.e) : f = g := by
  have h1 := f.toRat_mul (-f.e).toNat (by omega)
  have h2 := g.toRat_mul (-f.e).toNat (by omega)
  rw [h, h2] at h1
  have h3 : g.m * 10 ^ (g.e + (-f.e).toNat).toNat = f.m * 10 ^ (f.e + (-f.e).toNat).toNat := by exact_mod_cast h1
  have h4 : (g.e + (-f.e).toNat).toNat = (g.e - f.e).toNat + (f.e + (-f.e).toNat).toNat := by omega
  rw [h4, pow_add, ← mul_assoc] at h3
  have h5 : g.m * 10 ^ (g.e - f.e).toNat = f.m := by
    have : (10 : Int) ^ (f.e + (-f.e).toNat).toNat ≠ 0 := pow_ne_zero _ (by decide)
    exact mul_right_cancel₀ this h3
  rcases Int.lt_or_eq_of_le he with hlt | heq
  · exfalso
    obtain ⟨k, hk⟩ : ∃ k, (g.e - f.e).toNat = k + 1 := ⟨(g.e - f.e).toNat - 1, by omega⟩
    have hd : (10 : Int) ∣ f.m := ⟨g.m * 10 ^ k, by rw [← h5, hk]; ring⟩
    rcases f.norm with ⟨hm, hfe⟩ | hn
    · have : g.m = 0 := by
        rw [hm] at h5
        rcases mul_eq_zero.1 h5 with h6 | h6
        · exact h6
        · exact absurd h6 (pow_ne_zero _ (by decide))
      rcases g.norm with ⟨_, hge⟩ | hn
      · omega
      · exact hn (this ▸ ⟨0, rfl⟩)
    · exact hn hd
  · have : (g.e - f.e).toNat = 0 := by omega
    rw [this] at h5
    obtain ⟨fm, fe, fn⟩ := f
    obtain ⟨gm, ge, gn⟩ := g
    simp at h5 heq
    subst h5; subst heq; rfl

theorem Flt.toRat_inj {f g : Flt} (h : f.toRat = g.toRat) : f = g := by
  rcases Int.le_total f.e g.e with he | he
  · exact Flt.toRat_inj_aux h he
  · exact (Flt.toRat_inj_aux h.symm he).symm

end Verif
