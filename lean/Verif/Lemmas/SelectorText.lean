import Verif.Model.Selector
import Verif.Lemmas.Str
import Verif.Lemmas.Float
/-! Printed form of selectors: round trip and injectivity. -/
namespace Verif

theorem Op.str_no_blank (op : Op) : ∀ c ∈ op.str, (c == ' ') = false := by
  cases op <;> decide

theorem Op.roundtrip (op : Op) : Op.generateFromStr op.str = .ok op := by
  cases op <;> decide

theorem Op.str_inj {a b : Op} (h : a.str = b.str) : a = b := by
  have := Op.roundtrip a
  rw [h, Op.roundtrip b] at this
  exact (Except.ok.inj this).symm

theorem Op.generateFromStr_ok {s : Str} {op : Op} (h : Op.generateFromStr s = .ok op) : s = op.str := by
  unfold Op.generateFromStr at h
  split at h; · cases h; assumption
  split at h; · cases h; assumption
  split at h; · cases h; assumption
  split at h; · cases h; assumption
  split at h; · cases h; assumption
  split at h; · cases h; assumption
  cases h

theorem Op.generateFromStr_error {s : Str} {e : PyErr} (h : Op.generateFromStr s = .error e) :
    e = .attributeError := by
  unfold Op.generateFromStr at h
  split at h; · cases h
  split at h; · cases h
  split at h; · cases h
  split at h; · cases h
  split at h; · cases h
  split at h; · cases h
  cases h; rfl

/-- characters of an integer text -/
theorem intStr_chars (z : Int) : ∀ c ∈ intStr z, IsDigit c ∨ c = '-' := by
  intro c hc
  cases z with
  | ofNat n => exact .inl (natStr_digits n c hc)
  | negSucc n =>
    simp only [intStr, List.mem_cons] at hc
    rcases hc with rfl | hc
    · exact .inr rfl
    · exact .inl (natStr_digits _ c hc)

theorem intStr_head (z : Int) : ∃ c cs, intStr z = c :: cs ∧ (IsDigit c ∨ c = '-') := by
  cases h : intStr z with
  | nil =>
    cases z with
    | ofNat n => exact absurd h (natStr_ne_nil n)
    | negSucc n => simp [intStr] at h
  | cons c cs => exact ⟨c, cs, rfl, intStr_chars z c (by simp [h])⟩

theorem fltStr_head (f : Flt) : ∃ c cs, f.str = c :: cs ∧ (IsDigit c ∨ c = '-') := by
  unfold Flt.str
  split
  · exact ⟨_, _, rfl, .inr rfl⟩
  · obtain ⟨c, cs, h, hd⟩ := floatDigits_head (natStr_digits f.m.natAbs) (natStr_ne_nil _) f.e
    exact ⟨c, cs, h, .inl hd⟩

/-- a float text has a point or an exponent letter -/
theorem floatDigits_mark {ds : Str} (hne : ds ≠ []) (e : Int) : '.' ∈ floatDigits ds e ∨ 'e' ∈ floatDigits ds e := by
  unfold floatDigits
  simp only
  split
  · split
    · simp
    · split <;> simp
  · split
    · simp
    · simp
    · exact absurd rfl hne

theorem fltStr_mark (f : Flt) : '.' ∈ f.str ∨ 'e' ∈ f.str := by
  have := floatDigits_mark (natStr_ne_nil f.m.natAbs) f.e
  unfold Flt.str
  split
  · simpa using this
  · exact this

theorem natStr_length_eq_one {n : Nat} : (natStr n).length = 1 ↔ n < 10 := by
  rw [natStr]
  split
  · simp [*]
  · rename_i h
    have := List.length_pos_iff.2 (natStr_ne_nil (n / 10))
    simp only [List.length_append, List.length_singleton, h, iff_false]
    omega

/-- when the decimal text of a float shows a point -/
theorem fltStr_point (f : Flt) : '.' ∈ f.str ↔ (10 ≤ f.m.natAbs ∨ (-4 ≤ f.e ∧ f.e ≤ 15)) := by
  have hd := natStr_digits f.m.natAbs
  have hne := natStr_ne_nil f.m.natAbs
  have hlen := natStr_length_eq_one (n := f.m.natAbs)
  have key : '.' ∈ floatDigits (natStr f.m.natAbs) f.e ↔ (10 ≤ f.m.natAbs ∨ (-4 ≤ f.e ∧ f.e ≤ 15)) := by
    revert hd hne hlen
    generalize natStr f.m.natAbs = ds
    intro hd hne hlen
    unfold floatDigits
    simp only
    split
    · rename_i hc
      have : (10 ≤ f.m.natAbs ∨ (-4 ≤ f.e ∧ f.e ≤ 15)) := by
        by_cases h : 10 ≤ f.m.natAbs
        · exact .inl h
        · right; have := hlen.2 (by omega); omega
      simp only [this, iff_true]
      split
      · simp
      · split <;> simp
    · rename_i hc
      split
      · rename_i d
        have h1 := hlen.1 rfl
        simp only [List.length_singleton] at hc
        have : ¬ (10 ≤ f.m.natAbs ∨ (-4 ≤ f.e ∧ f.e ≤ 15)) := by omega
        simp only [this, iff_false, List.mem_cons, not_or]
        refine ⟨fun h => ?_, by decide, fun h => ?_⟩
        · exact (hd d (by simp)).ne.1 h.symm
        · rcases expStr_chars _ _ h with h | h | h
          · exact h.ne.1 rfl
          · simp at h
          · simp at h
      · rename_i d rest hx
        have : (10 ≤ f.m.natAbs ∨ (-4 ≤ f.e ∧ f.e ≤ 15)) := by
          left
          by_contra h
          have h1 := hlen.2 (by omega)
          cases rest with
          | nil => exact hx rfl
          | cons => simp at h1
        simp [this]
      · exact absurd rfl hne
  unfold Flt.str
  split
  · simpa using key
  · exact key

namespace Selector

theorem parseVal_str (s : Str) : parseVal (valText (.str s)) = .ok (.str s) := by
  have h1 : (valText (.str s)).getLast? = some '\'' := by
    simp [valText, List.getLast?_cons, List.getLast?_append]
  have h2 : (valText (.str s)).head? = some '\'' := rfl
  have h3 : (valText (.str s)).tail.dropLast = s := by simp [valText]
  unfold parseVal
  rw [h1, h2]
  simp [h3]

theorem parseVal_num {t : Str} {c : Char} {cs : Str} (ht : t = c :: cs) (hc : IsDigit c ∨ c = '-') :
    parseVal t = if '.' ∈ t then (match parseFloat t with
      | some f => .ok (.flt f)
      | none => .ok (.str t)) else (match parseInt t with
      | some z => .ok (.int z)
      | none => .ok (.str t)) := by
  have hq : c ≠ '\'' ∧ c ≠ '"' := by
    rcases hc with hc | rfl
    · exact ⟨by have := hc.ne; simp_all, by have := hc.ne; simp_all⟩
    · decide
  obtain ⟨b, hb⟩ : ∃ b, t.getLast? = some b := by subst ht; exact ⟨_, List.getLast?_cons⟩
  have hh : t.head? = some c := by subst ht; rfl
  unfold parseVal
  rw [hb, hh]
  simp [hq]
  rfl

theorem parseVal_int (z : Int) : parseVal (valText (.int z)) = .ok (.int z) := by
  obtain ⟨c, cs, h, hc⟩ := intStr_head z
  have hp : '.' ∉ intStr z := by
    intro h
    rcases intStr_chars z _ h with h | h
    · exact h.ne.1 rfl
    · simp at h
  show parseVal (intStr z) = _
  rw [parseVal_num h hc, if_neg hp, parseInt_intStr]

theorem parseVal_flt (f : Flt) (hp : '.' ∈ f.str) : parseVal (valText (.flt f)) = .ok (.flt f) := by
  obtain ⟨c, cs, h, hc⟩ := fltStr_head f
  show parseVal f.str = _
  rw [parseVal_num h hc, if_pos hp, parseFloat_str]

theorem parseDigitsAux_bad {acc : Nat} {s : Str} {c : Char} (hc : c ∈ s) (hb : digitVal? c = none) :
    parseDigitsAux acc s = none := by
  induction s generalizing acc with
  | nil => simp at hc
  | cons d ds ih =>
    simp only [parseDigitsAux]
    rcases List.mem_cons.1 hc with rfl | h
    · simp [hb]
    · split
      · exact ih h
      · rfl

theorem parseNat_bad {s : Str} {c : Char} (hc : c ∈ s) (hb : digitVal? c = none) : parseNat s = none := by
  cases s with
  | nil => simp at hc
  | cons d ds => exact parseDigitsAux_bad hc hb

theorem readInt_bad {s : Str} {c : Char} (hc : c ∈ s) (hb : digitVal? c = none) (h1 : c ≠ '-') (h2 : c ≠ '+') :
    readInt s = none := by
  unfold readInt
  split
  · rename_i cs
    rw [parseNat_bad (s := cs) (c := c) (by simpa [h1] using hc) hb]; rfl
  · rename_i cs
    rw [parseNat_bad (s := cs) (c := c) (by simpa [h2] using hc) hb]; rfl
  · rw [parseNat_bad hc hb]; rfl

theorem parseInt_bad {s : Str} {c : Char} (hc : c ∈ s) (hb : digitVal? c = none) (h1 : c ≠ '-') (h2 : c ≠ '+') (hp : Plain c) :
    parseInt s = none := by
  unfold parseInt
  cases h : literal s with
  | none => rfl
  | some t => exact readInt_bad (mem_literal hc hp h) hb h1 h2

theorem parseInt_fltStr (f : Flt) : parseInt f.str = none := by
  rcases fltStr_mark f with h | h
  · exact parseInt_bad h (by decide) (by decide) (by decide) ⟨by decide, by decide⟩
  · exact parseInt_bad h (by decide) (by decide) (by decide) ⟨by decide, by decide⟩

theorem parseVal_flt_nopoint (f : Flt) (hp : '.' ∉ f.str) : parseVal (valText (.flt f)) = .ok (.str f.str) := by
  obtain ⟨c, cs, h, hc⟩ := fltStr_head f
  show parseVal f.str = _
  rw [parseVal_num h hc, if_neg hp, parseInt_fltStr]

theorem split_str {a : Str} (ha : ' ' ∉ a) (op : Op) (t : Str) :
    splitFirst (· == ' ') (a ++ c!" " ++ op.str ++ c!" " ++ t) = (a, some (op.str ++ ' ' :: t)) := by
  have := splitFirst_append (p := (· == ' ')) (a := a) (by
    intro c hc
    simp only [beq_eq_false_iff_ne, ne_eq]
    rintro rfl; exact ha hc) (c := ' ') (by decide) (op.str ++ ' ' :: t)
  simpa using this

theorem split_op (op : Op) (t : Str) : splitFirst (· == ' ') (op.str ++ ' ' :: t) = (op.str, some t) :=
  splitFirst_append (Op.str_no_blank op) (by decide) t

theorem generateFromStr_of_no_blank (s : Selector) (ha : ' ' ∉ s.attr) :
    generateFromStr s.str = (match parseVal (valText s.val) with
      | .error e => .error e
      | .ok v => mk? s.attr s.op v) := by
  unfold generateFromStr str
  rw [split_str ha]
  simp only [split_op, Op.roundtrip]
  rfl

theorem splitFirst_fst_ne {s : Str} {a : Str} (h : ' ' ∈ a) : (splitFirst (· == ' ') s).1 ≠ a := by
  intro h2
  have := splitFirst_fst_free (· == ' ') s ' ' (by rw [h2]; exact h)
  simp at this

theorem generateFromStr_attr {x : Str} {t : Selector} (h : generateFromStr x = .ok t) : ' ' ∉ t.attr := by
  unfold generateFromStr at h
  split at h
  · cases h
  · rename_i a rest heq
    split at h
    rename_i o third heq2
    split at h
    · cases h
    · split at h
      · cases h
      · split at h
        · cases h
        · unfold mk? at h
          split at h
          · cases h
          · cases h
            intro hb
            exact splitFirst_fst_ne (s := x) hb (by rw [heq])

/-! injectivity of the printed form -/

theorem valText_inj {v w : Val} (h : valText v = valText w) : v = w := by
  have hq : ∀ {s t : Str} {c cs}, t = c :: cs → (IsDigit c ∨ c = '-') → '\'' :: s ++ c!"'" ≠ t := by
    intro s t c cs ht hc heq
    rw [ht] at heq
    simp only [List.cons_append, List.cons.injEq] at heq
    rcases hc with hc | hc
    · exact hc.ne.2.2.2.2.2.1 heq.1.symm
    · rw [hc] at heq; simp at heq
  cases v with
  | str s =>
    cases w with
    | str t => simpa [valText] using h
    | int z => obtain ⟨c, cs, h1, h2⟩ := intStr_head z; exact absurd h (hq h1 h2)
    | flt f => obtain ⟨c, cs, h1, h2⟩ := fltStr_head f; exact absurd h (hq h1 h2)
  | int z =>
    cases w with
    | str t => obtain ⟨c, cs, h1, h2⟩ := intStr_head z; exact absurd h.symm (hq h1 h2)
    | int y =>
      have := congrArg parseInt (show intStr z = intStr y from h)
      rw [parseInt_intStr, parseInt_intStr] at this
      simpa using this
    | flt f =>
      have := congrArg parseInt (show intStr z = f.str from h)
      rw [parseInt_intStr, parseInt_fltStr] at this
      simp at this
  | flt f =>
    cases w with
    | str t => obtain ⟨c, cs, h1, h2⟩ := fltStr_head f; exact absurd h.symm (hq h1 h2)
    | int y =>
      have := congrArg parseInt (show f.str = intStr y from h)
      rw [parseInt_intStr, parseInt_fltStr] at this
      simp at this
    | flt g =>
      have := congrArg parseFloat (show f.str = g.str from h)
      rw [parseFloat_str, parseFloat_str] at this
      simpa using this

theorem str_inj_of_no_blank {s t : Selector} (hs : ' ' ∉ s.attr) (ht : ' ' ∉ t.attr) (h : s.str = t.str) : s = t := by
  have h1 := split_str hs s.op (valText s.val)
  have h2 := split_str ht t.op (valText t.val)
  have h' : s.attr ++ c!" " ++ s.op.str ++ c!" " ++ valText s.val = t.attr ++ c!" " ++ t.op.str ++ c!" " ++ valText t.val := h
  rw [h', h2] at h1
  simp only [Prod.mk.injEq, Option.some.injEq] at h1
  have h3 := split_op s.op (valText s.val)
  rw [← h1.2, split_op] at h3
  simp only [Prod.mk.injEq, Option.some.injEq] at h3
  cases s; cases t
  simp only [mk.injEq] at *
  exact ⟨h1.1.symm, (Op.str_inj h3.1).symm, (valText_inj h3.2).symm⟩

theorem splitLast_unique {ch : Char} {a b x y : Str} (hx : ch ∉ x) (hy : ch ∉ y)
    (h : a ++ ch :: x = b ++ ch :: y) : a = b ∧ x = y := by
  have key : ∀ (u v : Str), ch ∉ v → splitFirst (· == ch) (u ++ ch :: v).reverse = (v.reverse, some u.reverse) := by
    intro u v hv
    have := splitFirst_append (p := (· == ch)) (a := v.reverse) (by
      intro c hc
      simp only [beq_eq_false_iff_ne, ne_eq]
      rintro rfl; exact hv (by simpa using hc)) (c := ch) (by simp) u.reverse
    simpa using this
  have h1 := key a x hx
  rw [h, key b y hy] at h1
  simp only [Prod.mk.injEq, Option.some.injEq, List.reverse_inj] at h1
  exact ⟨h1.2.symm, h1.1.symm⟩

theorem splitFirst_unique {ch : Char} {a b x y : Str} (ha : ch ∉ a) (hb : ch ∉ b)
    (h : a ++ ch :: x = b ++ ch :: y) : a = b ∧ x = y := by
  have key : ∀ (u v : Str), ch ∉ u → splitFirst (· == ch) (u ++ ch :: v) = (u, some v) := by
    intro u v hu
    exact splitFirst_append (p := (· == ch)) (by
      intro c hc
      simp only [beq_eq_false_iff_ne, ne_eq]
      rintro rfl; exact hu hc) (by simp) v
  have h1 := key a x ha
  rw [h, key b y hb] at h1
  simp only [Prod.mk.injEq, Option.some.injEq] at h1
  exact ⟨h1.1.symm, h1.2.symm⟩

theorem valText_num_chars {v : Val} (hv : v.isStr = false) : ∀ c ∈ valText v, c ≠ ' ' ∧ c ≠ '\'' ∧ c ≠ '"' := by
  intro c hc
  cases v with
  | str s => simp [Val.isStr] at hv
  | int z =>
    rcases intStr_chars z c hc with h | rfl
    · have := h.ne; simp_all
    · decide
  | flt f =>
    rcases fltStr_chars f c hc with h | rfl | rfl | rfl | rfl
    · have := h.ne; simp_all
    all_goals decide

theorem Op.str_no (op : Op) : ' ' ∉ op.str ∧ '\'' ∉ op.str := by cases op <;> decide

theorem prefix_inj {a b : Str} {o p : Op} {x y : Str} (hx : ' ' ∉ x) (hy : ' ' ∉ y)
    (h : a ++ c!" " ++ o.str ++ c!" " ++ x = b ++ c!" " ++ p.str ++ c!" " ++ y) : a = b ∧ o = p ∧ x = y := by
  have h1 : (a ++ ' ' :: o.str) ++ ' ' :: x = (b ++ ' ' :: p.str) ++ ' ' :: y := by simpa using h
  obtain ⟨h2, h3⟩ := splitLast_unique hx hy h1
  obtain ⟨h4, h5⟩ := splitLast_unique (Op.str_no o).1 (Op.str_no p).1 h2
  exact ⟨h4, Op.str_inj h5, h3⟩

theorem str_no_quote {s : Selector} (hs : '\'' ∉ s.attr) (hv : s.val.isStr = false) : '\'' ∉ s.str := by
  intro h
  unfold str at h
  simp only [List.mem_append, List.mem_cons, List.not_mem_nil, or_false] at h
  rcases h with (((h | h) | h) | h) | h
  · exact hs h
  · simp at h
  · exact (Op.str_no _).2 h
  · simp at h
  · exact (valText_num_chars hv _ h).2.1 rfl

theorem str_inj_of_no_quote {s t : Selector} (hs : '\'' ∉ s.attr) (ht : '\'' ∉ t.attr) (h : s.str = t.str) : s = t := by
  have hq : ∀ {u : Selector} {w : Str}, u.val = .str w → '\'' ∈ u.str := by
    intro u w hu; unfold str; rw [hu]; simp [valText]
  cases hsv : s.val.isStr with
  | false =>
    cases htv : t.val.isStr with
    | false =>
      have := prefix_inj (fun hc => (valText_num_chars hsv _ hc).1 rfl)
        (fun hc => (valText_num_chars htv _ hc).1 rfl) h
      cases s; cases t
      simp only [mk.injEq] at *
      exact ⟨this.1, this.2.1, valText_inj this.2.2⟩
    | true =>
      cases hv : t.val with
      | str w => exact absurd (h ▸ hq hv) (str_no_quote hs hsv)
      | int => simp [hv, Val.isStr] at htv
      | flt => simp [hv, Val.isStr] at htv
  | true =>
    cases hv : s.val with
    | int => simp [hv, Val.isStr] at hsv
    | flt => simp [hv, Val.isStr] at hsv
    | str w =>
      cases htv : t.val.isStr with
      | false => exact absurd (h ▸ hq hv) (str_no_quote ht htv)
      | true =>
        cases hv2 : t.val with
        | int => simp [hv2, Val.isStr] at htv
        | flt => simp [hv2, Val.isStr] at htv
        | str w2 =>
          unfold str at h
          rw [hv, hv2] at h
          have hfree : ∀ {a : Str} {o : Op}, '\'' ∉ a → '\'' ∉ a ++ c!" " ++ o.str ++ c!" " := by
            intro a o ha hc
            simp only [List.mem_append, List.mem_cons, List.not_mem_nil, or_false] at hc
            rcases hc with ((hc | hc) | hc) | hc
            · exact ha hc
            · simp at hc
            · exact (Op.str_no _).2 hc
            · simp at hc
          obtain ⟨h1, h2⟩ := splitFirst_unique (hfree hs) (hfree ht)
            (x := w ++ c!"'") (y := w2 ++ c!"'") (by simpa [valText] using h)
          have := prefix_inj (x := []) (y := []) (by simp) (by simp) (by simpa using h1)
          have h3 : w = w2 := by simpa using h2
          cases s; cases t
          simp only [mk.injEq] at *
          exact ⟨this.1, this.2.1, by rw [hv, hv2, h3]⟩

end Selector
end Verif
