import Verif.Model.Py
import Mathlib.Data.Char
import Mathlib.Tactic.Linarith
/-! Lemmas on strings and text parsing. -/
namespace Verif

theorem strLt_irrefl (a : Str) : strLt a a = false := by
  induction a with
  | nil => rfl
  | cons x xs ih => simp [strLt, ih]

theorem strLt_trans {a b c : Str} (h1 : strLt a b = true) (h2 : strLt b c = true) : strLt a c = true := by
  induction a generalizing b c with
  | nil => cases b <;> cases c <;> simp_all [strLt]
  | cons x xs ih =>
    cases b with
    | nil => simp [strLt] at h1
    | cons y ys =>
      cases c with
      | nil => simp [strLt] at h2
      | cons z zs =>
        simp only [strLt] at *
        split at h1 <;> split at h2
        · subst_vars; simp; exact ih h1 h2
        · subst_vars; simp_all
        · subst_vars; simp_all
        · have h3 : x < z := lt_trans (of_decide_eq_true h1) (of_decide_eq_true h2)
          have : x ≠ z := ne_of_lt h3
          simp [this, h3]

theorem strLt_asymm {a b : Str} (h : strLt a b = true) : strLt b a = false := by
  cases h' : strLt b a
  · rfl
  · have := strLt_trans h h'; rw [strLt_irrefl] at this; exact this.symm

theorem strLt_total {a b : Str} (h : a ≠ b) : strLt a b = true ∨ strLt b a = true := by
  induction a generalizing b with
  | nil => cases b <;> simp_all [strLt]
  | cons x xs ih =>
    cases b with
    | nil => simp [strLt]
    | cons y ys =>
      simp only [strLt]
      by_cases hxy : x = y
      · subst hxy; simp; apply ih; intro h2; exact h (by rw [h2])
      · have : y ≠ x := fun h => hxy h.symm
        simp only [hxy, this, if_false, decide_eq_true_eq]
        exact lt_or_gt_of_ne hxy

/-! ### splitFirst -/

theorem splitFirst_append {p : Char → Bool} {a : Str} (h : ∀ c ∈ a, p c = false) {c : Char} (hc : p c = true)
    (b : Str) : splitFirst p (a ++ c :: b) = (a, some b) := by
  induction a with
  | nil => simp [splitFirst, hc]
  | cons x xs ih =>
    have hx := h x (by simp)
    simp [splitFirst, hx, ih (fun c hc => h c (by simp [hc]))]

theorem splitFirst_none {p : Char → Bool} {a : Str} (h : ∀ c ∈ a, p c = false) :
    splitFirst p a = (a, none) := by
  induction a with
  | nil => simp [splitFirst]
  | cons x xs ih =>
    have hx := h x (by simp)
    simp [splitFirst, hx, ih (fun c hc => h c (by simp [hc]))]

theorem splitFirst_fst_free (p : Char → Bool) (a : Str) : ∀ c ∈ (splitFirst p a).1, p c = false := by
  induction a with
  | nil => simp [splitFirst]
  | cons x xs ih =>
    simp only [splitFirst]
    split
    · simp
    · simp_all

/-! ### decimal numbers -/

theorem digitVal_digitChar {d : Nat} (h : d < 10) : digitVal? (digitChar d) = some d := by
  have : ∀ d : Fin 10, digitVal? (digitChar d.val) = some d.val := by decide
  exact this ⟨d, h⟩

theorem digitChar_ne {d : Nat} (h : d < 10) :
    digitChar d ≠ '.' ∧ digitChar d ≠ 'e' ∧ digitChar d ≠ 'E' ∧ digitChar d ≠ '-' ∧ digitChar d ≠ '+'
      ∧ digitChar d ≠ '\'' ∧ digitChar d ≠ '"' ∧ digitChar d ≠ ' ' := by
  have : ∀ d : Fin 10, digitChar d.val ≠ '.' ∧ digitChar d.val ≠ 'e' ∧ digitChar d.val ≠ 'E' ∧ digitChar d.val ≠ '-' ∧ digitChar d.val ≠ '+'
      ∧ digitChar d.val ≠ '\'' ∧ digitChar d.val ≠ '"' ∧ digitChar d.val ≠ ' ' := by decide
  exact this ⟨d, h⟩

/-- being one of the ten ASCII digits -/
def IsDigit (c : Char) : Prop := ∃ d < 10, c = digitChar d

theorem IsDigit.ne {c : Char} (h : IsDigit c) :
    c ≠ '.' ∧ c ≠ 'e' ∧ c ≠ 'E' ∧ c ≠ '-' ∧ c ≠ '+' ∧ c ≠ '\'' ∧ c ≠ '"' ∧ c ≠ ' ' := by
  obtain ⟨d, hd, rfl⟩ := h; exact digitChar_ne hd

theorem natStr_digits (n : Nat) : ∀ c ∈ natStr n, IsDigit c := by
  fun_induction natStr n with
  | case1 n h => simp; exact ⟨n, h, rfl⟩
  | case2 n h ih =>
    intro c hc
    simp at hc
    rcases hc with hc | hc
    · exact ih c hc
    · exact ⟨n % 10, by omega, hc⟩

theorem natStr_ne_nil (n : Nat) : natStr n ≠ [] := by
  unfold natStr; split <;> simp

theorem parseDigitsAux_append (acc : Nat) (a b : Str) :
    parseDigitsAux acc (a ++ b) = (parseDigitsAux acc a).bind (fun x => parseDigitsAux x b) := by
  induction a generalizing acc with
  | nil => simp [parseDigitsAux]
  | cons c cs ih =>
    simp only [List.cons_append, parseDigitsAux]
    cases digitVal? c <;> simp [ih]

theorem parseDigitsAux_natStr (n : Nat) : parseDigitsAux 0 (natStr n) = some n := by
  fun_induction natStr n with
  | case1 n h => simp [parseDigitsAux, digitVal_digitChar h]
  | case2 n h ih =>
    rw [parseDigitsAux_append, ih]
    simp [parseDigitsAux, digitVal_digitChar (Nat.mod_lt n (by decide))]
    omega

theorem parseNat_eq {s : Str} (h : s ≠ []) : parseNat s = parseDigitsAux 0 s := by
  cases s with
  | nil => exact absurd rfl h
  | cons => rfl

theorem parseNat_natStr (n : Nat) : parseNat (natStr n) = some n := by
  rw [parseNat_eq (natStr_ne_nil n), parseDigitsAux_natStr]

theorem readInt_of_digit {s : Str} (h : ∀ c ∈ s, IsDigit c) : readInt s = (parseNat s).map (fun n : Nat => (n : Int)) := by
  cases s with
  | nil => rfl
  | cons c cs =>
    have := (h c (by simp)).ne
    unfold readInt
    split
    · rename_i heq; simp at heq; simp_all
    · rename_i heq; simp at heq; simp_all
    · rfl

theorem readInt_intStr (z : Int) : readInt (intStr z) = some z := by
  cases z with
  | ofNat n =>
    simp only [intStr]
    rw [readInt_of_digit (natStr_digits n), parseNat_natStr]; rfl
  | negSucc n =>
    simp only [intStr, readInt, parseNat_natStr]
    show some _ = some _
    congr 1

/-- a character that `literal` leaves alone -/
def Plain (c : Char) : Prop := c ≠ '_' ∧ isBlank c = false ∧ c.toNat < 128

theorem IsDigit.plain {c : Char} (h : IsDigit c) : Plain c := by
  obtain ⟨d, hd, rfl⟩ := h
  have : ∀ d : Fin 10, digitChar d.val ≠ '_' ∧ isBlank (digitChar d.val) = false ∧ (digitChar d.val).toNat < 128 := by decide
  exact this ⟨d, hd⟩

theorem dropWhile_plain {s : Str} (h : ∀ c ∈ s, isBlank c = false) : s.dropWhile isBlank = s := by
  cases s with
  | nil => rfl
  | cons c cs => simp [List.dropWhile, h c (by simp)]

theorem stripBlank_plain {s : Str} (h : ∀ c ∈ s, isBlank c = false) : stripBlank s = s := by
  unfold stripBlank
  rw [dropWhile_plain h, dropWhile_plain (by simpa using h), List.reverse_reverse]

theorem dropUnderscores_plain {s : Str} (h : ∀ c ∈ s, c ≠ '_') (b : Bool) : dropUnderscores b s = some s := by
  induction s generalizing b with
  | nil => rfl
  | cons c cs ih =>
    rw [dropUnderscores, if_neg (h c (by simp)), ih (fun x hx => h x (by simp [hx]))]
    rfl

theorem asciiChar_ascii {c : Char} (h : c.toNat < 128) : asciiChar c = c := if_pos h

theorem literal_plain {s : Str} (h : ∀ c ∈ s, Plain c) : literal s = some s := by
  unfold literal
  have hm : s.map asciiChar = s := (List.map_congr_left (fun c hc => asciiChar_ascii (h c hc).2.2)).trans (List.map_id s)
  rw [hm, stripBlank_plain (fun c hc => (h c hc).2.1), dropUnderscores_plain (fun c hc => (h c hc).1)]

theorem mem_dropWhile_of {p : Char → Bool} {s : Str} {c : Char} (hc : c ∈ s) (hp : p c = false) : c ∈ s.dropWhile p := by
  induction s with
  | nil => simp at hc
  | cons x xs ih =>
    rw [List.dropWhile_cons]
    split
    · rename_i hx
      rcases List.mem_cons.1 hc with rfl | h
      · rw [hp] at hx; simp at hx
      · exact ih h
    · exact hc

theorem mem_stripBlank {s : Str} {c : Char} (hc : c ∈ s) (hp : isBlank c = false) : c ∈ stripBlank s := by
  unfold stripBlank
  rw [List.mem_reverse]
  exact mem_dropWhile_of (by rw [List.mem_reverse]; exact mem_dropWhile_of hc hp) hp

theorem mem_dropUnderscores {s t : Str} {c : Char} {b : Bool} (hc : c ∈ s) (hp : c ≠ '_') (h : dropUnderscores b s = some t) : c ∈ t := by
  induction s generalizing b t with
  | nil => simp at hc
  | cons x xs ih =>
    rw [dropUnderscores] at h
    split at h
    · rename_i hx
      split at h
      · rcases List.mem_cons.1 hc with rfl | h2
        · exact absurd hx hp
        · exact ih h2 h
      · cases h
    · rcases Option.map_eq_some_iff.1 h with ⟨t', ht, rfl⟩
      rcases List.mem_cons.1 hc with rfl | h2
      · simp
      · exact List.mem_cons_of_mem _ (ih h2 ht)

/-- what is not a blank nor an underscore is still there in the literal -/
theorem mem_literal {s t : Str} {c : Char} (hc : c ∈ s) (hp : Plain c) (h : literal s = some t) : c ∈ t :=
  mem_dropUnderscores (mem_stripBlank (List.mem_map.2 ⟨c, hc, asciiChar_ascii hp.2.2⟩) hp.2.1) hp.1 h

theorem intStr_plain (z : Int) : ∀ c ∈ intStr z, Plain c := by
  intro c hc
  cases z with
  | ofNat n => exact (natStr_digits n c hc).plain
  | negSucc n =>
    simp only [intStr, List.mem_cons] at hc
    rcases hc with rfl | hc
    · exact ⟨by decide, by decide⟩
    · exact (natStr_digits _ c hc).plain

theorem parseInt_intStr (z : Int) : parseInt (intStr z) = some z := by
  rw [parseInt, literal_plain (intStr_plain z), Option.bind_some, readInt_intStr]

theorem digitChar_injOn {a b : Nat} (ha : a < 10) (hb : b < 10) (h : digitChar a = digitChar b) : a = b := by
  have h1 := digitVal_digitChar ha
  rw [h, digitVal_digitChar hb] at h1
  exact (Option.some.inj h1).symm

end Verif
