import Verif.Lemmas.Literal
/-! C71: what `Selector.generate_from_str` makes of any text. -/
namespace Verif
open Selector

theorem floatText_flt {t : Str} {q : Rat} (h : FloatText t q) : ∃ f : Flt, f.toRat = q := by
  obtain ⟨_, _, b, sg, mant, ex, b', σ, v, e, _, _, _, h1, h2, _, rfl⟩ := h
  obtain ⟨u, n, j, _, _, h4⟩ := (ufloat_iff (mant ++ ex) _).2 ⟨mant, ex, v, e, h1, h2, rfl, rfl⟩
  exact ⟨mkFlt (σ * n) j, by rw [toRat_mkFlt, mul_assoc, h4]; push_cast; ring⟩

theorem quoted_iff {t : Str} {a b : Char} (ha : t.head? = some a) (hb : t.getLast? = some b) :
    Quoted t ↔ (a = '\'' ∧ b = '\'') ∨ (a = '"' ∧ b = '"') := by
  unfold Quoted
  rw [ha, hb]
  constructor
  · rintro ⟨q, rfl | rfl, h1, h2⟩
    · left; exact ⟨Option.some.inj h1, Option.some.inj h2⟩
    · right; exact ⟨Option.some.inj h1, Option.some.inj h2⟩
  · rintro (⟨rfl, rfl⟩ | ⟨rfl, rfl⟩)
    · exact ⟨_, .inl rfl, rfl, rfl⟩
    · exact ⟨_, .inr rfl, rfl, rfl⟩

theorem intText_no_point {t : Str} {z : Int} (h : IntText t z) : '.' ∉ t := by
  intro hd
  have h1 := (parseInt_iff t z).2 h
  rw [parseInt_bad hd (by decide) (by decide) (by decide) ⟨by decide, by decide⟩] at h1
  cases h1

theorem parseVal_iff {t : Str} (hne : t ≠ []) (v : Val) : parseVal t = .ok v ↔ Reads t v := by
  obtain ⟨a, ha⟩ : ∃ a, t.head? = some a := by cases t; exact absurd rfl hne; exact ⟨_, rfl⟩
  obtain ⟨b, hb⟩ : ∃ b, t.getLast? = some b := ⟨_, List.getLast?_eq_some_getLast hne⟩
  have hq := quoted_iff ha hb
  unfold parseVal
  rw [ha, hb]
  simp only
  by_cases h1 : (a = '\'' ∧ b = '\'') ∨ (a = '"' ∧ b = '"')
  · rw [if_pos h1]
    have hq1 := hq.2 h1
    constructor
    · intro h; cases h; exact .quoted hq1
    · intro h
      cases h with
      | quoted _ => rfl
      | float h => exact absurd hq1 h
      | int h => exact absurd hq1 h
      | text h => exact absurd hq1 h
  · rw [if_neg h1]
    have hq1 : ¬ Quoted t := fun h => h1 (hq.1 h)
    by_cases hd : '.' ∈ t
    · rw [if_pos hd]
      cases hf : parseFloat t with
      | some f =>
        simp only
        have hft := (parseFloat_iff t f).1 hf
        constructor
        · intro h; cases h; exact .float hq1 hd hft
        · intro h
          cases h with
          | quoted h => exact absurd h hq1
          | @float g _ _ h =>
            have : f = g := by
              have := (parseFloat_iff t g).2 h
              rw [hf] at this; exact Option.some.inj this
            rw [this]
          | int _ h => exact absurd hd (intText_no_point h)
          | text _ _ h => exact absurd hft (h hd _)
      | none =>
        simp only
        have hft : ∀ q, ¬ FloatText t q := by
          intro q h
          obtain ⟨f, rfl⟩ := floatText_flt h
          rw [(parseFloat_iff t f).2 h] at hf; cases hf
        constructor
        · intro h; cases h; exact .text hq1 (fun z h => intText_no_point h hd) (fun _ => hft)
        · intro h
          cases h with
          | quoted h => exact absurd h hq1
          | float _ _ h => exact absurd h (hft _)
          | int _ h => exact absurd hd (intText_no_point h)
          | text => rfl
    · rw [if_neg hd]
      cases hi : parseInt t with
      | some z =>
        simp only
        have hit := (parseInt_iff t z).1 hi
        constructor
        · intro h; cases h; exact .int hq1 hit
        · intro h
          cases h with
          | quoted h => exact absurd h hq1
          | float _ h => exact absurd h hd
          | @int y _ h =>
            have := (parseInt_iff t y).2 h
            rw [hi] at this; rw [Option.some.inj this]
          | text _ h => exact absurd hit (h _)
      | none =>
        simp only
        have hit : ∀ z, ¬ IntText t z := by
          intro z h; rw [(parseInt_iff t z).2 h] at hi; cases hi
        constructor
        · intro h; cases h; exact .text hq1 hit (fun h => absurd h hd)
        · intro h
          cases h with
          | quoted h => exact absurd h hq1
          | float _ h => exact absurd h hd
          | int _ h => exact absurd h (hit _)
          | text => rfl

theorem parseVal_ok {t : Str} (hne : t ≠ []) : ∃ v, parseVal t = .ok v := by
  obtain ⟨a, ha⟩ : ∃ a, t.head? = some a := by cases t; exact absurd rfl hne; exact ⟨_, rfl⟩
  obtain ⟨b, hb⟩ : ∃ b, t.getLast? = some b := ⟨_, List.getLast?_eq_some_getLast hne⟩
  unfold parseVal
  rw [ha, hb]
  simp only
  split
  · exact ⟨_, rfl⟩
  · split
    · cases parseFloat t <;> exact ⟨_, rfl⟩
    · cases parseInt t <;> exact ⟨_, rfl⟩

/-- **C71.** Every non-empty text stands for exactly one value: the grammar of `Reads` is total and unambiguous. -/
theorem C71_value (t : Str) (h : t ≠ []) : ∃! v, Reads t v := by
  obtain ⟨v, hv⟩ := parseVal_ok h
  refine ⟨v, (parseVal_iff h v).1 hv, ?_⟩
  intro w hw
  have := (parseVal_iff h w).2 hw
  rw [hv] at this
  exact (Except.ok.inj this).symm

theorem no_blank_bne {a : Str} (h : ' ' ∉ a) : ∀ c ∈ a, (c == ' ') = false := by
  intro c hc
  simp only [beq_eq_false_iff_ne, ne_eq]
  rintro rfl; exact h hc

theorem op_no_blank (op : Op) : ' ' ∉ op.str := by cases op <;> decide

/-- only equality and inequality accept texts -/
theorem legal_iff (op : Op) (v : Val) : legal op v = true ↔ ∀ y, v = .str y → op = .equal ∨ op = .notEqual := by
  cases v <;> cases op <;> simp [legal, Val.isStr]

/-- the three parts of a text, as the code splits it -/
theorem generate_parts (a : Str) (op : Op) (t : Str) (ha : ' ' ∉ a) :
    generateFromStr (a ++ c!" " ++ op.str ++ c!" " ++ t) = (match parseVal t with
      | .error e => .error e
      | .ok v => mk? a op v) := by
  unfold generateFromStr
  rw [split_str ha]
  simp only [split_op, Op.roundtrip]
  rfl

/-- **C71.** `Selector.generate_from_str(x)` returns the selector `(a, op, v)` exactly when `x` is the attribute name `a` without blanks, a blank, the
text of `op`, a blank and a non-empty text that stands for `v`; a text value needs `=` or `!=`. -/
theorem C71_read (x a : Str) (op : Op) (v : Val) :
    generateFromStr x = .ok ⟨a, op, v⟩ ↔
      ' ' ∉ a ∧ (∀ y, v = .str y → op = .equal ∨ op = .notEqual) ∧ ∃ t, t ≠ [] ∧ Reads t v ∧ x = a ++ c!" " ++ op.str ++ c!" " ++ t := by
  constructor
  · intro h
    have ha := generateFromStr_attr h
    unfold generateFromStr at h
    cases h1 : splitFirst (· == ' ') x with
    | mk a' o =>
      rw [h1] at h
      cases o with
      | none => cases h
      | some rest =>
        simp only at h
        cases h2 : splitFirst (· == ' ') rest with
        | mk o' third =>
          rw [h2] at h
          simp only at h
          cases h3 : Op.generateFromStr o' with
          | error e => rw [h3] at h; cases h
          | ok op' =>
            rw [h3] at h
            cases third with
            | none => cases h
            | some t =>
              simp only at h
              cases h4 : parseVal t with
              | error e => rw [h4] at h; cases h
              | ok v' =>
                rw [h4] at h
                simp only [mk?] at h
                split at h
                · cases h
                · rename_i hl
                  cases h
                  have ht : t ≠ [] := by rintro rfl; simp [parseVal] at h4
                  obtain ⟨c, hc, rfl, _⟩ := splitFirst_eq_some h1
                  obtain ⟨c', hc', rfl, _⟩ := splitFirst_eq_some h2
                  simp only [beq_iff_eq] at hc hc'
                  subst hc; subst hc'
                  refine ⟨ha, (legal_iff _ _).1 (by simpa using hl), t, ht, (parseVal_iff ht _).1 h4, ?_⟩
                  rw [Op.generateFromStr_ok h3]; simp
  · rintro ⟨ha, hl, t, ht, hv, rfl⟩
    rw [generate_parts a op t ha, (parseVal_iff ht v).2 hv]
    simp [mk?, (legal_iff op v).2 hl]

/-- **C71.** When and how `Selector.generate_from_str(x)` fails: `IndexError` when a part is missing, `AttributeError` when the second word is no
operator, `ValueError` when a text is to be compared by order. -/
theorem C71_errors (x : Str) (e : PyErr) :
    generateFromStr x = .error e ↔
      (e = .indexError ∧ ' ' ∉ x) ∨
      (e = .indexError ∧ ∃ (a : Str) (op : Op), ' ' ∉ a ∧ (x = a ++ c!" " ++ op.str ∨ x = a ++ c!" " ++ op.str ++ c!" ")) ∨
      (e = .attributeError ∧ ∃ (a o rest : Str), ' ' ∉ a ∧ ' ' ∉ o ∧ (∀ op : Op, o ≠ op.str) ∧ (rest = [] ∨ rest.head? = some ' ') ∧ x = a ++ c!" " ++ o ++ rest) ∨
      (e = .valueError ∧ ∃ (a : Str) (op : Op) (t y : Str), ' ' ∉ a ∧ t ≠ [] ∧ Reads t (.str y) ∧ op ≠ .equal ∧ op ≠ .notEqual ∧ x = a ++ c!" " ++ op.str ++ c!" " ++ t) := by
  constructor
  · intro h
    unfold generateFromStr at h
    cases h1 : splitFirst (· == ' ') x with
    | mk a o =>
      rw [h1] at h
      cases o with
      | none =>
        cases h
        obtain ⟨_, h2⟩ := splitFirst_eq_none h1
        exact .inl ⟨rfl, fun hb => by simpa using h2 _ hb⟩
      | some rest =>
        right
        obtain ⟨c, hc, rfl, hfa⟩ := splitFirst_eq_some h1
        simp only [beq_iff_eq] at hc
        subst hc
        have ha : ' ' ∉ a := fun hb => by simpa using hfa _ hb
        simp only at h
        cases h2 : splitFirst (· == ' ') rest with
        | mk o third =>
          rw [h2] at h
          simp only at h
          have hsplit : ' ' ∉ o ∧ ((third = none ∧ rest = o) ∨ ∃ t, third = some t ∧ rest = o ++ ' ' :: t) := by
            cases third with
            | none =>
              obtain ⟨rfl, h3⟩ := splitFirst_eq_none h2
              exact ⟨fun hb => by simpa using h3 _ hb, .inl ⟨rfl, rfl⟩⟩
            | some t =>
              obtain ⟨c', hc', rfl, h3⟩ := splitFirst_eq_some h2
              simp only [beq_iff_eq] at hc'
              subst hc'
              exact ⟨fun hb => by simpa using h3 _ hb, .inr ⟨t, rfl, rfl⟩⟩
          obtain ⟨ho, hrest⟩ := hsplit
          cases h3 : Op.generateFromStr o with
          | error e' =>
            rw [h3] at h
            cases h
            right; left
            have he := Op.generateFromStr_error h3
            refine ⟨he, a, o, ?_⟩
            have hno : ∀ op : Op, o ≠ op.str := by
              rintro op rfl; rw [Op.roundtrip] at h3; cases h3
            rcases hrest with ⟨_, rfl⟩ | ⟨t, _, rfl⟩
            · exact ⟨[], ha, ho, hno, .inl rfl, by simp⟩
            · exact ⟨' ' :: t, ha, ho, hno, .inr rfl, by simp⟩
          | ok op =>
            rw [h3] at h
            have hos := Op.generateFromStr_ok h3
            subst hos
            rcases hrest with ⟨rfl, rfl⟩ | ⟨t, rfl, rfl⟩
            · cases h
              exact .inl ⟨rfl, a, op, ha, .inl (by simp)⟩
            · simp only at h
              by_cases ht : t = []
              · subst ht
                simp [parseVal] at h
                exact .inl ⟨h.symm, a, op, ha, .inr (by simp)⟩
              · obtain ⟨v, hv⟩ := parseVal_ok ht
                rw [hv] at h
                simp only [mk?] at h
                split at h
                · rename_i hl
                  cases h
                  right; right
                  refine ⟨rfl, a, op, t, ?_⟩
                  have hl' : ¬ legal op v = true := by simpa using hl
                  rw [legal_iff] at hl'
                  push Not at hl'
                  obtain ⟨y, rfl, h5, h6⟩ := hl'
                  exact ⟨y, ha, ht, (parseVal_iff ht _).1 hv, h5, h6, by simp⟩
                · cases h
  · rintro (⟨rfl, h⟩ | ⟨rfl, a, op, ha, rfl | rfl⟩ | ⟨rfl, a, o, rest, ha, ho, hno, hr, rfl⟩ | ⟨rfl, a, op, t, y, ha, ht, hr, h1, h2, rfl⟩)
    · unfold generateFromStr
      rw [splitFirst_none (no_blank_bne h)]
    · unfold generateFromStr
      have : splitFirst (· == ' ') (a ++ c!" " ++ op.str) = (a, some op.str) := by
        simpa using splitFirst_append (p := (· == ' ')) (no_blank_bne ha) (c := ' ') (by decide) op.str
      rw [this]
      simp only [splitFirst_none (no_blank_bne (op_no_blank op)), Op.roundtrip]
    · have := generate_parts a op [] ha
      rw [List.append_nil] at this
      rw [this]; rfl
    · unfold generateFromStr
      have : splitFirst (· == ' ') (a ++ c!" " ++ o ++ rest) = (a, some (o ++ rest)) := by
        simpa using splitFirst_append (p := (· == ' ')) (no_blank_bne ha) (c := ' ') (by decide) (o ++ rest)
      rw [this]
      have h2 : (splitFirst (· == ' ') (o ++ rest)).1 = o := by
        rcases hr with rfl | hr
        · rw [List.append_nil, splitFirst_none (no_blank_bne ho)]
        · cases rest with
          | nil => cases hr
          | cons c cs =>
            simp only [List.head?_cons, Option.some.injEq] at hr
            subst hr
            rw [splitFirst_append (no_blank_bne ho) (by decide)]
      cases h3 : Op.generateFromStr o with
      | ok op => exact absurd (Op.generateFromStr_ok h3) (hno op)
      | error e' =>
        have he := Op.generateFromStr_error h3
        subst he
        cases h4 : splitFirst (· == ' ') (o ++ rest) with
        | mk o' third =>
          rw [h4] at h2
          simp only at h2
          subst h2
          simp only [h4, h3]
    · rw [generate_parts a op t ha, (parseVal_iff ht _).2 hr]
      have : ¬ legal op (.str y) = true := by
        rw [legal_iff]; push Not; exact ⟨y, rfl, h1, h2⟩
      simp [mk?, this]

/-! Examples. -/

-- underscores between digits and blanks around are ignored, a doubled underscore makes a text
example : generateFromStr c!"age >= 1_0" = .ok ⟨c!"age", .greaterOrEqual, .int 10⟩ := by decide +kernel
example : generateFromStr c!"age >= \t-1_0 " = .ok ⟨c!"age", .greaterOrEqual, .int (-10)⟩ := by decide +kernel
example : generateFromStr c!"age = 1__0" = .ok ⟨c!"age", .equal, .str c!"1__0"⟩ := by decide +kernel
example : generateFromStr c!"age = 1_" = .ok ⟨c!"age", .equal, .str c!"1_"⟩ := by decide +kernel
example : generateFromStr c!"x < 1_0.5e-1_1" = .ok ⟨c!"x", .less, .flt (mkFlt 105 (-12))⟩ := by decide +kernel
example : generateFromStr c!"x < .5" = .ok ⟨c!"x", .less, .flt (mkFlt 5 (-1))⟩ := by decide +kernel
example : generateFromStr c!"x = ." = .ok ⟨c!"x", .equal, .str c!"."⟩ := by decide +kernel
example : generateFromStr c!"x = 1e5" = .ok ⟨c!"x", .equal, .str c!"1e5"⟩ := by decide +kernel
example : generateFromStr c!"x = '" = .ok ⟨c!"x", .equal, .str []⟩ := by decide +kernel
-- the grammar has non-trivial members
example : IntText c!" -1_0" (-10) :=
  ⟨c!" -1_0", by repeat' first | exact .nil | refine .cons (.ascii (by decide)) ?_, c!" ", c!"-", c!"1_0", [], -1, 10, 2, by simp [Blanks], by simp [Blanks], .inr (.inr ⟨rfl, rfl⟩), Digits.underscore (d := 0) (Digits.one (d := 1) (by decide)) (by decide), by decide, by decide⟩
-- digits and blanks of other scripts: an Arabic three, a Devanagari one and a no-break space; a superscript is no digit
example : generateFromStr ['x', ' ', '=', ' ', '\u0663'] = .ok ⟨c!"x", .equal, .int 3⟩ := by decide +kernel
example : generateFromStr ['x', ' ', '=', ' ', '\u0967', '.', '5', '\u00a0'] = .ok ⟨c!"x", .equal, .flt (mkFlt 15 (-1))⟩ := by decide +kernel
example : generateFromStr ['x', ' ', '=', ' ', '\u00b2'] = .ok ⟨c!"x", .equal, .str ['\u00b2']⟩ := by decide +kernel
example : generateFromStr c!"a b c" = .error .attributeError := by decide +kernel
example : generateFromStr c!"a <" = .error .indexError := by decide +kernel
example : generateFromStr c!"a < b" = .error .valueError := by decide +kernel

end Verif
