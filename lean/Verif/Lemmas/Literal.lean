import Verif.Spec.Literal
import Verif.Lemmas.SelectorText
import Mathlib.Tactic.FieldSimp
import Mathlib.Tactic.Ring
import Mathlib.Data.List.Induction
/-! The parser of number literals of the model against the grammar of `Spec/Literal`. -/
namespace Verif

theorem digitVal_some {c : Char} {d : Nat} (h : digitVal? c = some d) : d < 10 ∧ c = digitChar d := by
  unfold digitVal? at h
  split at h
  · rename_i hc
    cases h
    refine ⟨by omega, ?_⟩
    unfold digitChar
    rw [show 48 + (c.toNat - 48) = c.toNat by omega, Char.ofNat_toNat]
  · cases h

theorem isDigit_iff {c : Char} : IsDigit c ↔ ∃ d, digitVal? c = some d := by
  constructor
  · rintro ⟨d, hd, rfl⟩; exact ⟨d, digitVal_digitChar hd⟩
  · rintro ⟨d, h⟩; exact ⟨d, (digitVal_some h).1, (digitVal_some h).2⟩

/-! ### `dropUnderscores` -/

theorem dropU_append {d : Char} (hd : d ≠ '_') (b : Bool) (s r : Str) :
    dropUnderscores b (s ++ d :: r) =
      (dropUnderscores b (s ++ [d])).bind fun u => (dropUnderscores (digitVal? d).isSome r).map (u ++ ·) := by
  induction s generalizing b with
  | nil =>
    simp only [List.nil_append, dropUnderscores, if_neg hd, Option.map_some, Option.bind_some]
    rfl
  | cons x xs ih =>
    simp only [List.cons_append, dropUnderscores]
    have hh : (xs ++ d :: r).head? = (xs ++ [d]).head? := by cases xs <;> rfl
    rw [hh, ih, ih]
    split
    · split <;> rfl
    · cases dropUnderscores (digitVal? x).isSome (xs ++ [d]) with
      | none => rfl
      | some u =>
        simp only [Option.bind_some, Option.map_some]
        cases dropUnderscores (digitVal? d).isSome r <;> rfl

theorem dropU_snoc {d : Char} (hd : d ≠ '_') (hn : digitVal? d = none) (b : Bool) (s : Str) :
    dropUnderscores b (s ++ [d]) = (dropUnderscores b s).map (· ++ [d]) := by
  induction s generalizing b with
  | nil => simp [dropUnderscores, hd]
  | cons x xs ih =>
    simp only [List.cons_append, dropUnderscores]
    rw [ih, ih]
    split
    · cases xs with
      | nil => simp [hn]
      | cons y ys =>
        rw [show (y :: ys ++ [d]).head? = (y :: ys).head? from rfl]
        by_cases hb : (b && ((y :: ys).head?.bind digitVal?).isSome) = true
        · rw [if_pos hb, if_pos hb]
        · rw [if_neg hb, if_neg hb]; rfl
    · cases dropUnderscores (digitVal? x).isSome xs <;> rfl

/-- a mark that is neither a digit nor an underscore splits a literal -/
theorem dropU_split {d : Char} (hd : d ≠ '_') (hn : digitVal? d = none) (b : Bool) (s r : Str) :
    dropUnderscores b (s ++ d :: r) =
      (dropUnderscores b s).bind fun u => (dropUnderscores false r).map (fun v => u ++ d :: v) := by
  rw [dropU_append hd, dropU_snoc hd hn, hn]
  cases dropUnderscores b s with
  | none => rfl
  | some u =>
    simp only [Option.map_some, Option.bind_some, Option.isSome_none]
    cases dropUnderscores false r <;> simp

theorem dropU_mem {b : Bool} {s u : Str} (h : dropUnderscores b s = some u) : ∀ c ∈ u, c ∈ s := by
  induction s generalizing b u with
  | nil => simp [dropUnderscores] at h; simp [← h]
  | cons x xs ih =>
    rw [dropUnderscores] at h
    split at h
    · split at h
      · intro c hc; exact List.mem_cons_of_mem _ (ih h c hc)
      · cases h
    · rcases Option.map_eq_some_iff.1 h with ⟨v, hv, rfl⟩
      intro c hc
      rcases List.mem_cons.1 hc with rfl | hc
      · simp
      · exact List.mem_cons_of_mem _ (ih hv c hc)

theorem dropU_nil {s : Str} {b : Bool} (h : dropUnderscores b s = some []) : s = [] := by
  cases s with
  | nil => rfl
  | cons x xs =>
    rw [dropUnderscores] at h
    split at h
    · split at h
      · rename_i hx hc
        cases xs with
        | nil => simp at hc
        | cons y ys =>
          simp only [List.head?_cons, Option.bind_some, Bool.and_eq_true] at hc
          obtain ⟨d, hd⟩ := Option.isSome_iff_exists.1 hc.2
          have := (IsDigit.plain (isDigit_iff.2 ⟨d, hd⟩)).1
          rw [dropUnderscores, if_neg this] at h
          rcases Option.map_eq_some_iff.1 h with ⟨v, _, hv⟩
          cases hv
      · cases h
    · rcases Option.map_eq_some_iff.1 h with ⟨v, _, hv⟩
      cases hv

/-! ### digits -/

theorem digits_last {s : Str} {n k : Nat} (h : Digits s n k) : ∃ r d, d < 10 ∧ s = r ++ [digitChar d] := by
  cases h with
  | one hd => exact ⟨[], _, hd, rfl⟩
  | more h hd => exact ⟨_, _, hd, rfl⟩
  | @underscore t n k d h hd => exact ⟨t ++ ['_'], d, hd, by simp⟩

theorem digits_drop {s : Str} {n k : Nat} (h : Digits s n k) :
    ∃ u, dropUnderscores false s = some u ∧ parseDigitsAux 0 u = some n ∧ u.length = k ∧ u ≠ [] := by
  induction h with
  | @one d hd =>
    have := (IsDigit.plain ⟨d, hd, rfl⟩).1
    refine ⟨[digitChar d], by simp [dropUnderscores, this], by simp [parseDigitsAux, digitVal_digitChar hd], rfl, by simp⟩
  | @more t n k d ht hd ih =>
    obtain ⟨u, h1, h2, h3, h4⟩ := ih
    obtain ⟨r, e, he, rfl⟩ := digits_last ht
    have hp := (IsDigit.plain ⟨d, hd, rfl⟩).1
    have hpe := (IsDigit.plain ⟨e, he, rfl⟩).1
    refine ⟨u ++ [digitChar d], ?_, ?_, by simp [h3], by simp⟩
    · rw [List.append_assoc, List.singleton_append, dropU_append hpe, h1, digitVal_digitChar he]
      simp [dropUnderscores, hp]
    · rw [parseDigitsAux_append, h2]
      simp [parseDigitsAux, digitVal_digitChar hd]; omega
  | @underscore t n k d ht hd ih =>
    obtain ⟨u, h1, h2, h3, h4⟩ := ih
    obtain ⟨r, e, he, rfl⟩ := digits_last ht
    have hp := (IsDigit.plain ⟨d, hd, rfl⟩).1
    have hpe := (IsDigit.plain ⟨e, he, rfl⟩).1
    refine ⟨u ++ [digitChar d], ?_, ?_, by simp [h3], by simp⟩
    · rw [List.append_assoc, List.singleton_append, dropU_append hpe, h1, digitVal_digitChar he]
      simp [dropUnderscores, hp, digitVal_digitChar hd]
    · rw [parseDigitsAux_append, h2]
      simp [parseDigitsAux, digitVal_digitChar hd]; omega

theorem digits_of_drop_aux : ∀ (len : Nat) (p s u : Str) (m k n : Nat), s.length ≤ len → Digits p m k →
    dropUnderscores true s = some u → parseDigitsAux m u = some n → Digits (p ++ s) n (k + u.length) := by
  intro len
  induction len with
  | zero =>
    intro p s u m k n hs hp h hn
    have : s = [] := List.length_eq_zero_iff.1 (by omega)
    subst this
    simp only [dropUnderscores, Option.some.injEq] at h
    subst h
    simp only [parseDigitsAux, Option.some.injEq] at hn
    subst hn
    simpa using hp
  | succ len ih =>
    intro p s u m k n hs hp h hn
    have digitStep : ∀ (x : Char) (xs v p' : Str), (x :: xs).length ≤ len + 1 → x ≠ '_' →
        (∀ d, d < 10 → x = digitChar d → Digits (p' ++ [x]) (10 * m + d) (k + 1)) →
        dropUnderscores (digitVal? x).isSome xs = some v → parseDigitsAux m (x :: v) = some n →
        Digits (p' ++ x :: xs) n (k + (v.length + 1)) := by
      intro x xs v p' hl hx hd hv hpd
      rw [parseDigitsAux] at hpd
      cases hxd : digitVal? x with
      | none => rw [hxd] at hpd; simp at hpd
      | some d =>
        rw [hxd] at hpd hv
        obtain ⟨h1, h2⟩ := digitVal_some hxd
        have := ih (p' ++ [x]) xs v (m * 10 + d) (k + 1) n (by simp at hl; omega)
          (by rw [show m * 10 + d = 10 * m + d by ring]; exact hd d h1 h2) hv hpd
        rw [show k + (v.length + 1) = k + 1 + v.length by omega]
        simpa using this
    cases s with
    | nil =>
      simp only [dropUnderscores, Option.some.injEq] at h
      subst h
      simp only [parseDigitsAux, Option.some.injEq] at hn
      subst hn
      simpa using hp
    | cons x xs =>
      rw [dropUnderscores] at h
      split at h
      · rename_i hx
        subst hx
        split at h
        · rename_i hc
          cases xs with
          | nil => simp at hc
          | cons y ys =>
            simp only [List.head?_cons, Option.bind_some, Bool.true_and] at hc
            obtain ⟨d, hd⟩ := Option.isSome_iff_exists.1 hc
            have hy := (IsDigit.plain (isDigit_iff.2 ⟨d, hd⟩)).1
            rw [dropUnderscores, if_neg hy] at h
            rcases Option.map_eq_some_iff.1 h with ⟨v, hv, rfl⟩
            have := digitStep y ys v (p ++ ['_']) (by simp at hs ⊢; omega) hy (by
              intro e h10 he; rw [he]
              simpa using Digits.underscore hp h10) hv hn
            simpa using this
        · cases h
      · rename_i hx
        rcases Option.map_eq_some_iff.1 h with ⟨v, hv, rfl⟩
        exact digitStep x xs v p hs hx (by
          intro d hd he; subst he
          exact Digits.more hp hd) hv hn

theorem digits_of_drop {s u : Str} {n : Nat} (h : dropUnderscores false s = some u) (hn : parseDigitsAux 0 u = some n) (hne : u ≠ []) :
    Digits s n u.length := by
  cases s with
  | nil => simp [dropUnderscores] at h; exact absurd h hne
  | cons x xs =>
    rw [dropUnderscores] at h
    split at h
    · simp at h
    · rcases Option.map_eq_some_iff.1 h with ⟨v, hv, rfl⟩
      rw [parseDigitsAux] at hn
      cases hxd : digitVal? x with
      | none => rw [hxd] at hn; simp at hn
      | some d =>
        rw [hxd] at hn hv
        obtain ⟨h1, h2⟩ := digitVal_some hxd
        subst h2
        have := digits_of_drop_aux xs.length [digitChar d] xs v d 1 n le_rfl (.one h1) hv (by simpa using hn)
        simpa [Nat.add_comm] using this

/-- what the digits of a literal denote -/
theorem digits_iff {s : Str} {n k : Nat} :
    Digits s n k ↔ ∃ u, dropUnderscores false s = some u ∧ parseDigitsAux 0 u = some n ∧ u.length = k ∧ u ≠ [] := by
  constructor
  · exact digits_drop
  · rintro ⟨u, h1, h2, h3, h4⟩; rw [← h3]; exact digits_of_drop h1 h2 h4

theorem parseNat_some {u : Str} {n : Nat} : parseNat u = some n ↔ u ≠ [] ∧ parseDigitsAux 0 u = some n := by
  cases u <;> simp [parseNat]

theorem digits_iff_parseNat {s : Str} {n : Nat} : (∃ k, Digits s n k) ↔ ∃ u, dropUnderscores false s = some u ∧ parseNat u = some n := by
  constructor
  · rintro ⟨k, h⟩
    obtain ⟨u, h1, h2, _, h4⟩ := digits_iff.1 h
    exact ⟨u, h1, parseNat_some.2 ⟨h4, h2⟩⟩
  · rintro ⟨u, h1, h2⟩
    obtain ⟨h3, h4⟩ := parseNat_some.1 h2
    exact ⟨_, digits_of_drop h1 h4 h3⟩

theorem parseDigitsAux_digits {acc : Nat} {u : Str} {n : Nat} (h : parseDigitsAux acc u = some n) : ∀ c ∈ u, IsDigit c := by
  induction u generalizing acc with
  | nil => simp
  | cons x xs ih =>
    rw [parseDigitsAux] at h
    cases hx : digitVal? x with
    | none => rw [hx] at h; simp at h
    | some d =>
      rw [hx] at h
      intro c hc
      rcases List.mem_cons.1 hc with rfl | hc
      · exact isDigit_iff.2 ⟨d, hx⟩
      · exact ih h c hc

/-! ### signs -/

theorem dropU_cons {c : Char} (hc : c ≠ '_') (b : Bool) (s : Str) :
    dropUnderscores b (c :: s) = (dropUnderscores (digitVal? c).isSome s).map (c :: ·) := by
  rw [dropUnderscores, if_neg hc]

/-- an optional sign in front of a literal: what `f` reads, with the sign -/
def signed {α : Type} (f : Str → Option α) (neg pos : α → β) : Str → Option β
  | '-' :: cs => (f cs).map neg
  | '+' :: cs => (f cs).map pos
  | cs => (f cs).map pos

theorem signed_minus {α : Type} (f : Str → Option α) (neg pos : α → β) (cs : Str) : signed f neg pos ('-' :: cs) = (f cs).map neg := rfl
theorem signed_plus {α : Type} (f : Str → Option α) (neg pos : α → β) (cs : Str) : signed f neg pos ('+' :: cs) = (f cs).map pos := rfl
theorem signed_other {α : Type} (f : Str → Option α) (neg pos : α → β) (cs : Str) (h : ∀ c t, cs = c :: t → c ≠ '-' ∧ c ≠ '+') :
    signed f neg pos cs = (f cs).map pos := by
  unfold signed
  split
  · exact absurd rfl (h _ _ rfl).1
  · exact absurd rfl (h _ _ rfl).2
  · rfl

/-- a signed literal: the sign and the rest. `f` must read nothing that begins with a sign. -/
theorem signed_iff {α : Type} {f : Str → Option α} {neg pos : α → β} (hf : ∀ c t, c = '-' ∨ c = '+' → f (c :: t) = none) (s : Str) (y : β) :
    (∃ u, dropUnderscores false s = some u ∧ signed f neg pos u = some y) ↔
    ∃ sg r u a, dropUnderscores false r = some u ∧ f u = some a ∧ s = sg ++ r ∧ ((sg = [] ∧ y = pos a) ∨ (sg = ['+'] ∧ y = pos a) ∨ (sg = ['-'] ∧ y = neg a)) := by
  constructor
  · rintro ⟨u, hu, hy⟩
    cases s with
    | nil =>
      simp only [dropUnderscores, Option.some.injEq] at hu
      subst hu
      rcases Option.map_eq_some_iff.1 hy with ⟨a, ha, rfl⟩
      exact ⟨[], [], [], a, rfl, ha, rfl, .inl ⟨rfl, rfl⟩⟩
    | cons c cs =>
      by_cases h1 : c = '-'
      · subst h1
        rw [dropU_cons (by decide), show (digitVal? '-').isSome = false by decide] at hu
        rcases Option.map_eq_some_iff.1 hu with ⟨v, hv, rfl⟩
        rw [signed_minus] at hy
        rcases Option.map_eq_some_iff.1 hy with ⟨a, ha, rfl⟩
        exact ⟨['-'], cs, v, a, hv, ha, rfl, .inr (.inr ⟨rfl, rfl⟩)⟩
      · by_cases h2 : c = '+'
        · subst h2
          rw [dropU_cons (by decide), show (digitVal? '+').isSome = false by decide] at hu
          rcases Option.map_eq_some_iff.1 hu with ⟨v, hv, rfl⟩
          rw [signed_plus] at hy
          rcases Option.map_eq_some_iff.1 hy with ⟨a, ha, rfl⟩
          exact ⟨['+'], cs, v, a, hv, ha, rfl, .inr (.inl ⟨rfl, rfl⟩)⟩
        · have hc : c ≠ '_' := by
            rintro rfl
            simp [dropUnderscores] at hu
          have hu0 := hu
          rw [dropU_cons hc] at hu
          rcases Option.map_eq_some_iff.1 hu with ⟨v, hv, rfl⟩
          rw [signed_other] at hy
          · rcases Option.map_eq_some_iff.1 hy with ⟨a, ha, rfl⟩
            exact ⟨[], c :: cs, c :: v, a, hu0, ha, rfl, .inl ⟨rfl, rfl⟩⟩
          · intro c' t h; cases h; exact ⟨h1, h2⟩
  · rintro ⟨sg, r, u, a, hu, ha, rfl, ⟨rfl, rfl⟩ | ⟨rfl, rfl⟩ | ⟨rfl, rfl⟩⟩
    · refine ⟨u, by simpa using hu, ?_⟩
      rw [signed_other, ha]; · rfl
      rintro c t rfl
      constructor
      · rintro rfl; rw [hf _ _ (.inl rfl)] at ha; cases ha
      · rintro rfl; rw [hf _ _ (.inr rfl)] at ha; cases ha
    · exact ⟨'+' :: u, by
        rw [List.singleton_append, dropU_cons (by decide), show (digitVal? '+').isSome = false by decide, hu]; rfl, by rw [signed_plus, ha]; rfl⟩
    · exact ⟨'-' :: u, by
        rw [List.singleton_append, dropU_cons (by decide), show (digitVal? '-').isSome = false by decide, hu]; rfl, by rw [signed_minus, ha]; rfl⟩

theorem readInt_signed (u : Str) : readInt u = signed (α := Nat) parseNat (fun n => -(n : Int)) (fun n => (n : Int)) u := by
  unfold readInt
  split
  · rfl
  · rfl
  · rename_i h1 h2
    rw [signed_other]
    rintro c t rfl
    exact ⟨by rintro rfl; exact h1 _ rfl, by rintro rfl; exact h2 _ rfl⟩

theorem readFloat_signed (u : Str) : readFloat u = signed parseUFloat (fun p => mkFlt (-(p.1 : Int)) p.2) (fun p => mkFlt p.1 p.2) u := by
  unfold readFloat
  split
  · rfl
  · rfl
  · rename_i h1 h2
    rw [signed_other]
    rintro c t rfl
    exact ⟨by rintro rfl; exact h1 _ rfl, by rintro rfl; exact h2 _ rfl⟩

/-- optional sign and digits, without blanks -/
theorem readInt_iff (s : Str) (z : Int) :
    (∃ u, dropUnderscores false s = some u ∧ readInt u = some z) ↔
    ∃ (sg d : Str) (σ : Int) (n k : Nat), Sign sg σ ∧ Digits d n k ∧ s = sg ++ d ∧ z = σ * n := by
  simp only [readInt_signed]
  rw [signed_iff (by
    intro c t hc
    exact Selector.parseNat_bad (c := c) (by simp) (by rcases hc with rfl | rfl <;> decide))]
  constructor
  · rintro ⟨sg, r, u, n, hu, hn, rfl, h⟩
    obtain ⟨k, hk⟩ := digits_iff_parseNat.2 ⟨u, hu, hn⟩
    rcases h with ⟨rfl, rfl⟩ | ⟨rfl, rfl⟩ | ⟨rfl, rfl⟩
    · exact ⟨_, r, 1, n, k, .inl ⟨rfl, rfl⟩, hk, rfl, by simp⟩
    · exact ⟨_, r, 1, n, k, .inr (.inl ⟨rfl, rfl⟩), hk, rfl, by simp⟩
    · exact ⟨_, r, -1, n, k, .inr (.inr ⟨rfl, rfl⟩), hk, rfl, by simp⟩
  · rintro ⟨sg, d, σ, n, k, hs, hd, rfl, rfl⟩
    obtain ⟨u, hu, hn⟩ := digits_iff_parseNat.1 ⟨k, hd⟩
    refine ⟨sg, d, u, n, hu, hn, rfl, ?_⟩
    rcases hs with ⟨rfl, rfl⟩ | ⟨rfl, rfl⟩ | ⟨rfl, rfl⟩ <;> simp

/-! ### blanks around -/

theorem isBlank_iff {c : Char} : isBlank c = true ↔ c = ' ' ∨ c = '\t' ∨ c = '\n' ∨ c = '\x0b' ∨ c = '\x0c' ∨ c = '\r' := by
  simp [isBlank]

theorem blanks_iff {t : Str} : Blanks t ↔ ∀ c ∈ t, isBlank c = true := by
  simp only [Blanks, isBlank_iff]

theorem mem_takeWhile_sat {p : Char → Bool} {l : Str} {c : Char} (h : c ∈ l.takeWhile p) : p c = true := by
  induction l with
  | nil => simp at h
  | cons x xs ih =>
    rw [List.takeWhile_cons] at h
    split at h
    · rcases List.mem_cons.1 h with rfl | h
      · assumption
      · exact ih h
    · simp at h

theorem stripBlank_spec (t : Str) : ∃ b b', Blanks b ∧ Blanks b' ∧ t = b ++ stripBlank t ++ b' := by
  have h1 := List.takeWhile_append_dropWhile (p := isBlank) (l := t)
  have h2 := List.takeWhile_append_dropWhile (p := isBlank) (l := (t.dropWhile isBlank).reverse)
  refine ⟨t.takeWhile isBlank, ((t.dropWhile isBlank).reverse.takeWhile isBlank).reverse, ?_, ?_, ?_⟩
  · exact blanks_iff.2 fun c hc => mem_takeWhile_sat hc
  · exact blanks_iff.2 fun c hc => mem_takeWhile_sat (List.mem_reverse.1 hc)
  · unfold stripBlank
    rw [List.append_assoc, ← List.reverse_append, h2, List.reverse_reverse, h1]

theorem stripBlank_around {b s b' : Str} (hb : Blanks b) (hb' : Blanks b') (hs : ∀ c ∈ s, isBlank c = false) (hne : s ≠ []) :
    stripBlank (b ++ s ++ b') = s := by
  unfold stripBlank
  have dw : ∀ {p : Char → Bool} {l r : Str}, (∀ c ∈ l, p c = true) → (l ++ r).dropWhile p = r.dropWhile p := by
    intro p l r h
    induction l with
    | nil => rfl
    | cons x xs ih => rw [List.cons_append, List.dropWhile_cons, if_pos (h x (by simp)), ih (fun c hc => h c (by simp [hc]))]
  have d0 : ∀ {l r : Str}, l ≠ [] → (∀ c ∈ l, isBlank c = false) → (l ++ r).dropWhile isBlank = l ++ r := by
    intro l r hl h
    cases l with
    | nil => exact absurd rfl hl
    | cons x xs => rw [List.cons_append, List.dropWhile_cons, if_neg (by simp [h x (by simp)])]
  rw [List.append_assoc, dw (blanks_iff.1 hb), d0 hne hs, List.reverse_append,
    dw (fun c hc => blanks_iff.1 hb' c (List.mem_reverse.1 hc)), ← List.append_nil s.reverse, d0 (by simpa using hne) (by simpa using hs)]
  simp

theorem digits_chars {s : Str} {n k : Nat} (h : Digits s n k) : ∀ c ∈ s, IsDigit c ∨ c = '_' := by
  induction h with
  | @one d hd => intro c hc; simp at hc; exact .inl ⟨d, hd, hc⟩
  | @more t n k d _ hd ih =>
    intro c hc
    simp only [List.mem_append, List.mem_singleton] at hc
    rcases hc with hc | rfl
    · exact ih c hc
    · exact .inl ⟨d, hd, rfl⟩
  | @underscore t n k d _ hd ih =>
    intro c hc
    simp only [List.mem_append, List.mem_cons, List.not_mem_nil, or_false] at hc
    rcases hc with hc | rfl | rfl
    · exact ih c hc
    · exact .inr rfl
    · exact .inl ⟨d, hd, rfl⟩

theorem digits_nonblank {s : Str} {n k : Nat} (h : Digits s n k) : ∀ c ∈ s, isBlank c = false := by
  intro c hc
  rcases digits_chars h c hc with h | rfl
  · exact h.plain.2.1
  · decide

theorem digits_ne_nil {s : Str} {n k : Nat} (h : Digits s n k) : s ≠ [] := by
  obtain ⟨r, d, _, rfl⟩ := digits_last h; simp

theorem sign_nonblank {s : Str} {σ : Int} (h : Sign s σ) : ∀ c ∈ s, isBlank c = false := by
  rcases h with ⟨rfl, _⟩ | ⟨rfl, _⟩ | ⟨rfl, _⟩ <;> decide

/-! ### characters beyond ASCII -/

theorem countsAs_eq {c d : Char} (h : CountsAs c d) : d = asciiChar c := by
  cases h with
  | ascii h => exact (asciiChar_ascii h).symm
  | blank h =>
    have hb : ∀ b ∈ unicodeBlanks, ¬ b < 128 := by decide +kernel
    unfold asciiChar
    rw [if_neg (hb _ h), if_pos h]
  | @digit z k hz hk hc =>
    have h1 : ∀ z ∈ unicodeZeros, 128 ≤ z := by decide +kernel
    have h2 : ∀ z ∈ unicodeZeros, ∀ b ∈ unicodeBlanks, b < z ∨ z + 10 ≤ b := by decide +kernel
    have h3 : ∀ z ∈ unicodeZeros, ∀ y ∈ unicodeZeros, z = y ∨ z + 10 ≤ y ∨ y + 10 ≤ z := by decide +kernel
    have hz1 := h1 z hz
    unfold asciiChar
    rw [if_neg (by omega), if_neg (fun hb => by rcases h2 z hz _ hb with h | h <;> omega)]
    cases hf : unicodeZeros.find? (fun z => z ≤ c.toNat && c.toNat < z + 10) with
    | none =>
      have := List.find?_eq_none.1 hf z hz
      exact absurd (by simp; omega) this
    | some y =>
      have hy := List.mem_of_find?_eq_some hf
      have hp := List.find?_some hf
      simp only [Bool.and_eq_true, decide_eq_true_eq] at hp
      have : y = z := by rcases h3 z hz y hy with h | h | h <;> omega
      subst this
      simp only
      rw [hc, Nat.add_sub_cancel_left]

theorem asciiChar_counts {c : Char} (h : asciiChar c ≠ '?') : CountsAs c (asciiChar c) := by
  by_cases h1 : c.toNat < 128
  · rw [asciiChar_ascii h1]; exact .ascii h1
  · unfold asciiChar at h ⊢
    rw [if_neg h1] at h ⊢
    by_cases h2 : c.toNat ∈ unicodeBlanks
    · rw [if_pos h2]; exact .blank h2
    · rw [if_neg h2] at h ⊢
      cases hf : unicodeZeros.find? (fun z => z ≤ c.toNat && c.toNat < z + 10) with
      | none => rw [hf] at h; exact absurd rfl h
      | some z =>
        have hp := List.find?_some hf
        simp only [Bool.and_eq_true, decide_eq_true_eq] at hp
        exact .digit (List.mem_of_find?_eq_some hf) (by omega) (by omega)

/-- the text that counts is unique -/
theorem counts_eq {t u : Str} (h : List.Forall₂ CountsAs t u) : u = t.map asciiChar := by
  induction h with
  | nil => rfl
  | cons h _ ih => rw [List.map_cons, ← ih, ← countsAs_eq h]

theorem counts_map {t : Str} (h : ∀ d ∈ t.map asciiChar, d ≠ '?') : List.Forall₂ CountsAs t (t.map asciiChar) := by
  induction t with
  | nil => exact .nil
  | cons c t ih =>
    rw [List.map_cons] at h ⊢
    exact .cons (asciiChar_counts (h _ List.mem_cons_self)) (ih (fun d hd => h d (List.mem_cons_of_mem _ hd)))

/-- a predicate on the ASCII form of a text without question marks -/
theorem counts_iff {P : Str → Prop} (hP : ∀ u, P u → ∀ d ∈ u, d ≠ '?') (t : Str) : P (t.map asciiChar) ↔ ∃ u, List.Forall₂ CountsAs t u ∧ P u :=
  ⟨fun h => ⟨_, counts_map (hP _ h), h⟩, fun ⟨_, h1, h2⟩ => counts_eq h1 ▸ h2⟩

theorem digitChar_ne_q {d : Nat} (h : d < 10) : digitChar d ≠ '?' := by
  have : ∀ d : Fin 10, digitChar d.val ≠ '?' := by decide
  exact this ⟨d, h⟩

theorem digits_no_q {t : Str} {n k : Nat} (h : Digits t n k) : ∀ c ∈ t, c ≠ '?' := by
  induction h with
  | one h => intro c hc; rw [List.mem_singleton.1 hc]; exact digitChar_ne_q h
  | more _ h ih =>
    intro c hc
    rcases List.mem_append.1 hc with hc | hc
    · exact ih c hc
    · rw [List.mem_singleton.1 hc]; exact digitChar_ne_q h
  | underscore _ h ih =>
    intro c hc
    rcases List.mem_append.1 hc with hc | hc
    · exact ih c hc
    · rcases List.mem_cons.1 hc with rfl | hc
      · decide
      · rw [List.mem_singleton.1 hc]; exact digitChar_ne_q h

theorem sign_no_q {t : Str} {σ : Int} (h : Sign t σ) : ∀ c ∈ t, c ≠ '?' := by
  rcases h with ⟨rfl, _⟩ | ⟨rfl, _⟩ | ⟨rfl, _⟩ <;> decide

theorem blanks_no_q {t : Str} (h : Blanks t) : ∀ c ∈ t, c ≠ '?' := by
  intro c hc
  rcases h c hc with rfl | rfl | rfl | rfl | rfl | rfl <;> decide

theorem asciiInt_no_q {u : Str} {z : Int} (h : AsciiInt u z) : ∀ c ∈ u, c ≠ '?' := by
  obtain ⟨b, sg, d, b', σ, n, k, hb, hb', h1, h2, rfl, _⟩ := h
  intro c hc
  simp only [List.mem_append] at hc
  rcases hc with ((hc | hc) | hc) | hc
  · exact blanks_no_q hb c hc
  · exact sign_no_q h1 c hc
  · exact digits_no_q h2 c hc
  · exact blanks_no_q hb' c hc

theorem mantissa_no_q {t : Str} {v : Rat} (h : Mantissa t v) : ∀ c ∈ t, c ≠ '?' := by
  intro c hc
  cases h with
  | whole h => exact digits_no_q h c hc
  | point h =>
    rcases List.mem_append.1 hc with hc | hc
    · exact digits_no_q h c hc
    · rw [List.mem_singleton.1 hc]; decide
  | both h h' =>
    rcases List.mem_append.1 hc with hc | hc
    · exact digits_no_q h c hc
    · rcases List.mem_cons.1 hc with rfl | hc
      · decide
      · exact digits_no_q h' c hc
  | frac h =>
    rcases List.mem_cons.1 hc with rfl | hc
    · decide
    · exact digits_no_q h c hc

theorem exponent_no_q {t : Str} {e : Int} (h : Exponent t e) : ∀ c ∈ t, c ≠ '?' := by
  intro c hc
  cases h with
  | none => cases hc
  | some h1 h2 h3 =>
    rcases List.mem_append.1 hc with hc | hc
    · rcases List.mem_cons.1 hc with rfl | hc
      · rcases h1 with rfl | rfl <;> decide
      · exact sign_no_q h2 c hc
    · exact digits_no_q h3 c hc

theorem asciiFloat_no_q {u : Str} {q : Rat} (h : AsciiFloat u q) : ∀ c ∈ u, c ≠ '?' := by
  obtain ⟨b, sg, mant, ex, b', σ, v, e, hb, hb', hσ, h1, h2, rfl, _⟩ := h
  intro c hc
  simp only [List.mem_append] at hc
  rcases hc with (((hc | hc) | hc) | hc) | hc
  · exact blanks_no_q hb c hc
  · exact sign_no_q hσ c hc
  · exact mantissa_no_q h1 c hc
  · exact exponent_no_q h2 c hc
  · exact blanks_no_q hb' c hc

theorem asciiInt_iff (t : Str) (z : Int) : (∃ u, dropUnderscores false (stripBlank t) = some u ∧ readInt u = some z) ↔ AsciiInt t z := by
  show (∃ u, dropUnderscores false (stripBlank t) = some u ∧ readInt u = some z) ↔ _
  rw [readInt_iff]
  constructor
  · rintro ⟨sg, d, σ, n, k, h1, h2, h3, h4⟩
    obtain ⟨b, b', hb, hb', ht⟩ := stripBlank_spec t
    exact ⟨b, sg, d, b', σ, n, k, hb, hb', h1, h2, by rw [h3] at ht; simpa using ht, h4⟩
  · rintro ⟨b, sg, d, b', σ, n, k, hb, hb', h1, h2, rfl, h4⟩
    refine ⟨sg, d, σ, n, k, h1, h2, ?_, h4⟩
    rw [List.append_assoc b, stripBlank_around hb hb']
    · intro c hc
      rcases List.mem_append.1 hc with hc | hc
      · exact sign_nonblank h1 c hc
      · exact digits_nonblank h2 c hc
    · simp [digits_ne_nil h2]

/-- `int(t) == z` -/
theorem parseInt_iff (t : Str) (z : Int) : parseInt t = some z ↔ IntText t z := by
  unfold parseInt literal
  rw [Option.bind_eq_some_iff]
  exact (asciiInt_iff _ z).trans (counts_iff (P := fun u => AsciiInt u z) (fun _ h => asciiInt_no_q h) t)

/-! ### decimal literals -/

theorem splitFirst_eq_none {p : Char → Bool} {s a : Str} (h : splitFirst p s = (a, none)) : a = s ∧ ∀ c ∈ s, p c = false := by
  induction s generalizing a with
  | nil => simp [splitFirst] at h; simp [h]
  | cons x xs ih =>
    rw [splitFirst] at h
    split at h
    · cases h
    · rename_i hx
      cases hs : splitFirst p xs with
      | mk a' o =>
        rw [hs] at h
        simp only [Prod.mk.injEq] at h
        obtain ⟨rfl, rfl⟩ := h
        obtain ⟨rfl, h2⟩ := ih hs
        refine ⟨rfl, ?_⟩
        intro c hc
        rcases List.mem_cons.1 hc with rfl | hc
        · simpa using hx
        · exact h2 c hc

theorem splitFirst_eq_some {p : Char → Bool} {s a x : Str} (h : splitFirst p s = (a, some x)) :
    ∃ c, p c = true ∧ s = a ++ c :: x ∧ ∀ c ∈ a, p c = false := by
  induction s generalizing a with
  | nil => simp [splitFirst] at h
  | cons y ys ih =>
    rw [splitFirst] at h
    split at h
    · rename_i hy
      cases h
      exact ⟨y, hy, rfl, by simp⟩
    · rename_i hy
      cases hs : splitFirst p ys with
      | mk a' o =>
        rw [hs] at h
        simp only [Prod.mk.injEq] at h
        obtain ⟨rfl, rfl⟩ := h
        obtain ⟨c, hc, rfl, h2⟩ := ih hs
        refine ⟨c, hc, rfl, ?_⟩
        intro c hc
        rcases List.mem_cons.1 hc with rfl | hc
        · simpa using hy
        · exact h2 c hc

theorem digits_acc {w : Str} {m : Nat} (acc : Nat) (h : parseDigitsAux 0 w = some m) : parseDigitsAux acc w = some (acc * 10 ^ w.length + m) := by
  induction w using List.reverseRecOn generalizing m with
  | nil => simp [parseDigitsAux] at h ⊢; omega
  | append_singleton w c ih =>
    rw [parseDigitsAux_append] at h ⊢
    rcases Option.bind_eq_some_iff.1 h with ⟨m', hm', hc⟩
    rw [ih hm', Option.bind_some]
    rw [parseDigitsAux] at hc ⊢
    cases hcd : digitVal? c with
    | none => rw [hcd] at hc; simp at hc
    | some d =>
      rw [hcd] at hc
      simp only [parseDigitsAux, Option.some.injEq] at hc ⊢
      rw [List.length_append, List.length_singleton, pow_succ, ← hc]; ring

theorem digits_value {w : Str} (hw : ∀ c ∈ w, IsDigit c) : ∃ m, parseDigitsAux 0 w = some m := by
  induction w using List.reverseRecOn with
  | nil => exact ⟨0, rfl⟩
  | append_singleton w c ih =>
    obtain ⟨m, h1⟩ := ih (fun c hc => hw c (by simp [hc]))
    obtain ⟨d, hd⟩ := isDigit_iff.1 (hw c (by simp))
    exact ⟨m * 10 + d, by rw [parseDigitsAux_append, h1]; simp [parseDigitsAux, hd]⟩

/-- the mantissa of a literal: value `n / 10^j` -/
theorem mantissa_iff (s : Str) (v : Rat) :
    Mantissa s v ↔ ∃ u n j, dropUnderscores false s = some u ∧ parseMantissa u = some (n, j) ∧ v = n / 10 ^ j := by
  have nodot : ∀ {u : Str}, (∀ c ∈ u, IsDigit c) → ∀ c ∈ u, (c == '.') = false := fun h c hc => by
    simpa using (h c hc).ne.1
  constructor
  · intro h
    cases h with
    | @whole _ n k h =>
      obtain ⟨u, h1, h2, _, h4⟩ := digits_iff.1 h
      refine ⟨u, n, 0, h1, ?_, by simp⟩
      rw [parseMantissa, splitFirst_none (nodot (parseDigitsAux_digits h2))]
      simp [parseNat_eq h4, h2]
    | @point i n k h =>
      obtain ⟨u, h1, h2, _, h4⟩ := digits_iff.1 h
      refine ⟨u ++ ['.'], n, 0, ?_, ?_, by simp⟩
      · rw [dropU_snoc (by decide) (by decide), h1]; rfl
      · rw [parseMantissa, splitFirst_append (nodot (parseDigitsAux_digits h2)) (by decide) []]
        simp [parseNat_eq h4, h2]
    | @both i f n k m j h h' =>
      obtain ⟨u, h1, h2, _, h4⟩ := digits_iff.1 h
      obtain ⟨w, g1, g2, g3, g4⟩ := digits_iff.1 h'
      refine ⟨u ++ '.' :: w, n * 10 ^ j + m, j, ?_, ?_, ?_⟩
      · rw [dropU_split (by decide) (by decide), h1, Option.bind_some, g1]; rfl
      · rw [parseMantissa, splitFirst_append (nodot (parseDigitsAux_digits h2)) (by decide) w]
        simp only
        rw [parseNat_eq (by simp [h4]), parseDigitsAux_append, h2, Option.bind_some, digits_acc n g2, g3]
        rfl
      · push_cast
        rw [add_div, mul_div_assoc, div_self (by positivity), mul_one]
    | @frac f m j h' =>
      obtain ⟨w, g1, g2, g3, g4⟩ := digits_iff.1 h'
      refine ⟨'.' :: w, m, j, ?_, ?_, rfl⟩
      · rw [dropU_cons (by decide), show (digitVal? '.').isSome = false by decide, g1]; rfl
      · rw [parseMantissa, show splitFirst (fun x => x == '.') ('.' :: w) = ([], some w) by simp [splitFirst]]
        simp only [List.nil_append]
        rw [parseNat_eq g4, g2, g3]
        rfl
  · rintro ⟨u, n, j, hu, hm, rfl⟩
    rw [parseMantissa] at hm
    cases hs : splitFirst (fun x => x == '.') s with
    | mk i o =>
      cases o with
      | none =>
        obtain ⟨rfl, h2⟩ := splitFirst_eq_none hs
        rw [splitFirst_none (fun c hc => h2 c (dropU_mem hu c hc))] at hm
        rcases Option.map_eq_some_iff.1 hm with ⟨n', hn', he⟩
        cases he
        obtain ⟨h3, h4⟩ := parseNat_some.1 hn'
        simpa using Mantissa.whole (digits_of_drop hu h4 h3)
      | some f =>
        obtain ⟨c, hc, rfl, h2⟩ := splitFirst_eq_some hs
        simp only [beq_iff_eq] at hc
        subst hc
        rw [dropU_split (by decide) (by decide)] at hu
        rcases Option.bind_eq_some_iff.1 hu with ⟨ui, hui, hu⟩
        rcases Option.map_eq_some_iff.1 hu with ⟨uf, huf, rfl⟩
        rw [splitFirst_append (fun c hc => h2 c (dropU_mem hui c hc)) (by decide) uf] at hm
        rcases Option.map_eq_some_iff.1 hm with ⟨n', hn', he⟩
        cases he
        obtain ⟨h3, h4⟩ := parseNat_some.1 hn'
        by_cases hi : ui = []
        · subst hi
          have := dropU_nil hui
          subst this
          simp only [List.nil_append] at h3 h4
          exact Mantissa.frac (digits_of_drop huf h4 h3)
        · rw [parseDigitsAux_append] at h4
          rcases Option.bind_eq_some_iff.1 h4 with ⟨a, ha, hb⟩
          have hdi := digits_of_drop hui ha hi
          by_cases hf : uf = []
          · subst hf
            have := dropU_nil huf
            subst this
            simp only [parseDigitsAux, Option.some.injEq] at hb
            subst hb
            simpa using Mantissa.point hdi
          · have hdig := parseDigitsAux_digits hb
            obtain ⟨m, hm1⟩ := digits_value hdig
            have hm2 := digits_acc a hm1
            rw [hm2] at hb
            simp only [Option.some.injEq] at hb
            subst hb
            have := Mantissa.both hdi (digits_of_drop huf hm1 hf)
            refine cast ?_ this
            congr 1
            push_cast
            rw [add_div, mul_div_assoc, div_self (by positivity), mul_one]

theorem toRat_mkFlt (m e : Int) : (mkFlt m e).toRat = (m : Rat) * (10 : Rat) ^ e := by
  have key : ∀ m e : Int, ((stripZeros m e).1 : Rat) * (10 : Rat) ^ (stripZeros m e).2 = (m : Rat) * (10 : Rat) ^ e := by
    intro m e
    fun_induction stripZeros m e with
    | case1 => simp
    | case2 m e h1 h2 ih =>
      rw [ih]
      obtain ⟨k, rfl⟩ := h2
      rw [Int.mul_ediv_cancel_left _ (by decide), zpow_add₀ (by norm_num)]
      push_cast; ring
    | case3 m e h1 h2 => rfl
  rw [← key m e]
  show Flt.toRat ⟨(stripZeros m e).1, (stripZeros m e).2, _⟩ = _
  unfold Flt.toRat
  simp only
  split
  · rename_i h
    rw [← zpow_natCast, Int.toNat_of_nonneg h]
  · rename_i h
    rw [← zpow_natCast, Int.toNat_of_nonneg (by omega), zpow_neg, div_eq_mul_inv, inv_inv]

theorem mantissa_chars {s : Str} {v : Rat} (h : Mantissa s v) : ∀ c ∈ s, IsDigit c ∨ c = '_' ∨ c = '.' := by
  intro c hc
  cases h with
  | whole h => rcases digits_chars h c hc with h | h <;> simp [h]
  | point h =>
    simp only [List.mem_append, List.mem_singleton] at hc
    rcases hc with hc | rfl
    · rcases digits_chars h c hc with h | h <;> simp [h]
    · simp
  | both h h' =>
    simp only [List.mem_append, List.mem_cons] at hc
    rcases hc with hc | rfl | hc
    · rcases digits_chars h c hc with h | h <;> simp [h]
    · simp
    · rcases digits_chars h' c hc with h | h <;> simp [h]
  | frac h' =>
    simp only [List.mem_cons] at hc
    rcases hc with rfl | hc
    · simp
    · rcases digits_chars h' c hc with h | h <;> simp [h]

theorem mantissa_ne_nil {s : Str} {v : Rat} (h : Mantissa s v) : s ≠ [] := by
  cases h with
  | whole h => exact digits_ne_nil h
  | point h => simp
  | both h h' => simp
  | frac h' => simp

/-- an unsigned literal: mantissa and exponent, value `n * 10^j` -/
theorem ufloat_iff (s : Str) (q : Rat) :
    (∃ u n j, dropUnderscores false s = some u ∧ parseUFloat u = some (n, j) ∧ q = (n : Rat) * (10 : Rat) ^ (j : Int)) ↔
    ∃ mant ex v e, Mantissa mant v ∧ Exponent ex e ∧ s = mant ++ ex ∧ q = v * (10 : Rat) ^ (e : Int) := by
  have val : ∀ (n : Nat) (j : Nat) (e : Int), (n : Rat) * (10 : Rat) ^ (e - (j : Int)) = (n / 10 ^ j : Rat) * (10 : Rat) ^ e := by
    intro n j e
    rw [zpow_sub₀ (by norm_num), zpow_natCast]; ring
  have noE : ∀ {u : Str}, (∀ c ∈ u, IsDigit c ∨ c = '_' ∨ c = '.') → ∀ c ∈ u, (c == 'e' || c == 'E') = false := by
    intro u h c hc
    rcases h c hc with h | rfl | rfl
    · simp [h.ne.2.1, h.ne.2.2.1]
    · decide
    · decide
  constructor
  · rintro ⟨u, n, j, hu, hp, rfl⟩
    rw [parseUFloat] at hp
    cases hs : splitFirst (fun c => c == 'e' || c == 'E') s with
    | mk a o =>
      cases o with
      | none =>
        obtain ⟨rfl, h2⟩ := splitFirst_eq_none hs
        rw [splitFirst_none (fun c hc => h2 c (dropU_mem hu c hc))] at hp
        rcases Option.map_eq_some_iff.1 hp with ⟨⟨n', j'⟩, hn', he⟩
        cases he
        refine ⟨a, [], _, 0, (mantissa_iff _ _).2 ⟨u, n', j', hu, hn', rfl⟩, .none, by simp, ?_⟩
        rw [← val]; simp
      | some x =>
        obtain ⟨c, hc, rfl, h2⟩ := splitFirst_eq_some hs
        have hc' : c = 'e' ∨ c = 'E' := by simpa using hc
        have hcu : c ≠ '_' := by rcases hc' with rfl | rfl <;> decide
        have hcd : digitVal? c = none := by rcases hc' with rfl | rfl <;> decide
        rw [dropU_split hcu hcd] at hu
        rcases Option.bind_eq_some_iff.1 hu with ⟨ua, hua, hu⟩
        rcases Option.map_eq_some_iff.1 hu with ⟨ux, hux, rfl⟩
        rw [splitFirst_append (fun c hc => h2 c (dropU_mem hua c hc)) hc ux] at hp
        simp only at hp
        cases hm : parseMantissa ua with
        | none => rw [hm] at hp; simp at hp
        | some p =>
          cases hr : readInt ux with
          | none => rw [hm, hr] at hp; simp at hp
          | some k =>
            rw [hm, hr] at hp
            simp only [Option.some.injEq, Prod.mk.injEq] at hp
            obtain ⟨rfl, rfl⟩ := hp
            obtain ⟨sg, d, σ, n, kk, h3, h4, rfl, rfl⟩ := (readInt_iff x k).1 ⟨ux, hux, hr⟩
            exact ⟨a, c :: sg ++ d, _, σ * n, (mantissa_iff _ _).2 ⟨ua, p.1, p.2, hua, hm, rfl⟩, .some hc' h3 h4, by simp, val _ _ _⟩
  · rintro ⟨mant, ex, v, e, hm, he, rfl, rfl⟩
    obtain ⟨ua, n, j, hua, hn, rfl⟩ := (mantissa_iff _ _).1 hm
    have hno : ∀ c ∈ ua, (c == 'e' || c == 'E') = false := fun c hc => noE (mantissa_chars hm) c (dropU_mem hua c hc)
    cases he with
    | none =>
      refine ⟨ua, n, -(j : Int), by simpa using hua, ?_, ?_⟩
      · rw [parseUFloat, splitFirst_none hno]
        simp [hn]
      · rw [← val]; simp
    | @some c sg d σ m k hc hsg hd =>
      have hcu : c ≠ '_' := by rcases hc with rfl | rfl <;> decide
      have hcd : digitVal? c = none := by rcases hc with rfl | rfl <;> decide
      obtain ⟨ux, hux, hr⟩ := (readInt_iff (sg ++ d) (σ * m)).2 ⟨sg, d, σ, m, k, hsg, hd, rfl, rfl⟩
      refine ⟨ua ++ c :: ux, n, σ * m - (j : Int), ?_, ?_, ?_⟩
      · rw [List.cons_append, dropU_split hcu hcd, hua, hux]; rfl
      · rw [parseUFloat, splitFirst_append hno (by rcases hc with rfl | rfl <;> decide) ux]
        simp only [hn, hr]
      · rw [← val]

theorem exponent_chars {s : Str} {e : Int} (h : Exponent s e) : ∀ c ∈ s, isBlank c = false := by
  intro c hc
  cases h with
  | none => simp at hc
  | some h1 h2 h3 =>
    simp only [List.cons_append, List.mem_cons, List.mem_append] at hc
    rcases hc with rfl | hc | hc
    · rcases h1 with rfl | rfl <;> decide
    · exact sign_nonblank h2 c hc
    · exact digits_nonblank h3 c hc

theorem mantissa_nonblank {s : Str} {v : Rat} (h : Mantissa s v) : ∀ c ∈ s, isBlank c = false := by
  intro c hc
  rcases mantissa_chars h c hc with h | rfl | rfl
  · exact h.plain.2.1
  · decide
  · decide

theorem parseUFloat_sign (c : Char) (t : Str) (hc : c = '-' ∨ c = '+') : parseUFloat (c :: t) = none := by
  have hd : digitVal? c = none := by rcases hc with rfl | rfl <;> decide
  have h1 : (c == 'e' || c == 'E') = false := by rcases hc with rfl | rfl <;> decide
  have h2 : (c == '.') = false := by rcases hc with rfl | rfl <;> decide
  have hm : ∀ a : Str, parseMantissa (c :: a) = none := by
    intro a
    rw [parseMantissa, splitFirst, h2]
    cases hs : splitFirst (fun x => x == '.') a with
    | mk i o =>
      cases o with
      | none => simp [parseNat, parseDigitsAux, hd]
      | some f => simp [parseNat, parseDigitsAux, hd]
  rw [parseUFloat, splitFirst, h1]
  cases hs : splitFirst (fun c => c == 'e' || c == 'E') t with
  | mk a o =>
    cases o with
    | none => simp [hm]
    | some x => simp [hm]

theorem asciiFloat_iff (t : Str) (f : Flt) : (∃ u, dropUnderscores false (stripBlank t) = some u ∧ readFloat u = some f) ↔ AsciiFloat t f.toRat := by
  show (∃ u, dropUnderscores false (stripBlank t) = some u ∧ readFloat u = some f) ↔ _
  simp only [readFloat_signed]
  rw [signed_iff parseUFloat_sign]
  have eqv : ∀ (n : Nat) (j : Int) (σ : Int), mkFlt (σ * n) j = f ↔ f.toRat = σ * ((n : Rat) * (10 : Rat) ^ j) := by
    intro n j σ
    constructor
    · rintro rfl; rw [toRat_mkFlt]; push_cast; ring
    · intro h
      apply Flt.toRat_inj
      rw [toRat_mkFlt, h]; push_cast; ring
  constructor
  · rintro ⟨sg, r, u, ⟨n, j⟩, hu, ha, hs, h⟩
    obtain ⟨mant, ex, v, e, h1, h2, rfl, h4⟩ := (ufloat_iff r _).1 ⟨u, n, j, hu, ha, rfl⟩
    obtain ⟨b, b', hb, hb', ht⟩ := stripBlank_spec t
    obtain ⟨σ, hσ, hf⟩ : ∃ σ, Sign sg σ ∧ mkFlt (σ * n) j = f := by
      rcases h with ⟨rfl, rfl⟩ | ⟨rfl, rfl⟩ | ⟨rfl, rfl⟩
      · exact ⟨1, .inl ⟨rfl, rfl⟩, by simp⟩
      · exact ⟨1, .inr (.inl ⟨rfl, rfl⟩), by simp⟩
      · exact ⟨-1, .inr (.inr ⟨rfl, rfl⟩), by simp⟩
    refine ⟨b, sg, mant, ex, b', σ, v, e, hb, hb', hσ, h1, h2, ?_, ?_⟩
    · rw [hs] at ht; simpa using ht
    · rw [(eqv n j σ).1 hf, h4]; ring
  · rintro ⟨b, sg, mant, ex, b', σ, v, e, hb, hb', hσ, h1, h2, rfl, hq⟩
    obtain ⟨u, n, j, hu, ha, h4⟩ := (ufloat_iff (mant ++ ex) _).2 ⟨mant, ex, v, e, h1, h2, rfl, rfl⟩
    refine ⟨sg, mant ++ ex, u, (n, j), hu, ha, ?_, ?_⟩
    · rw [show b ++ sg ++ mant ++ ex ++ b' = b ++ (sg ++ (mant ++ ex)) ++ b' by simp, stripBlank_around hb hb']
      · intro c hc
        simp only [List.mem_append] at hc
        rcases hc with hc | hc | hc
        · exact sign_nonblank hσ c hc
        · exact mantissa_nonblank h1 c hc
        · exact exponent_chars h2 c hc
      · simp [mantissa_ne_nil h1]
    · have hf : mkFlt (σ * n) j = f := (eqv n j σ).2 (by rw [hq, ← h4]; ring)
      rcases hσ with ⟨rfl, rfl⟩ | ⟨rfl, rfl⟩ | ⟨rfl, rfl⟩
      · left; refine ⟨rfl, ?_⟩; rw [← hf]; simp
      · right; left; refine ⟨rfl, ?_⟩; rw [← hf]; simp
      · right; right; refine ⟨rfl, ?_⟩; rw [← hf]; simp

/-- `float(t) == q` -/
theorem parseFloat_iff (t : Str) (f : Flt) : parseFloat t = some f ↔ FloatText t f.toRat := by
  unfold parseFloat literal
  rw [Option.bind_eq_some_iff]
  exact (asciiFloat_iff _ f).trans (counts_iff (P := fun u => AsciiFloat u f.toRat) (fun _ h => asciiFloat_no_q h) t)

end Verif
