import Verif.Spec.DigitLimit
import Verif.Props.Reading
import Verif.Props.Selector
/-! Property C113: the limit on the number of digits of integers in texts. -/
namespace Verif.DigitLimit
open Verif.Spec

theorem tooMany_iff (limit k : Nat) : tooMany limit k = true ↔ limit ≠ 0 ∧ limit < k := by
  unfold tooMany; simp

theorem digitCount_append (s t : Str) : digitCount (s ++ t) = digitCount s + digitCount t := by
  unfold digitCount; rw [List.filter_append, List.length_append]

theorem digitCount_one {c : Char} (h : (digitVal? c).isSome = false) : digitCount [c] = 0 := by
  unfold digitCount; rw [List.filter_cons_of_neg (by simp [h])]; rfl

theorem digitCount_digit {d : Nat} (h : d < 10) : digitCount [digitChar d] = 1 := by
  unfold digitCount; rw [List.filter_cons_of_pos (by rw [digitVal_digitChar h]; rfl)]; rfl

/-- underscores are no digits -/
theorem dropUnderscores_count {b : Bool} {s u : Str} (h : dropUnderscores b s = some u) : digitCount u = digitCount s := by
  induction s generalizing b u with
  | nil => cases h; rfl
  | cons c cs ih =>
    rw [dropUnderscores] at h
    by_cases hc : c = '_'
    · rw [if_pos hc] at h
      have h0 : digitCount (c :: cs) = digitCount cs := by
        rw [show c :: cs = [c] ++ cs from rfl, digitCount_append, digitCount_one (by rw [hc]; decide), Nat.zero_add]
      rw [h0]
      split at h
      · exact ih h
      · cases h
    · rw [if_neg hc] at h
      cases h1 : dropUnderscores (digitVal? c).isSome cs with
      | none => rw [h1] at h; cases h
      | some v =>
        rw [h1] at h
        cases h
        show digitCount ([c] ++ v) = digitCount ([c] ++ cs)
        rw [digitCount_append, digitCount_append, ih h1]

theorem digits_count {t : Str} {n k : Nat} (h : Digits t n k) : digitCount t = k := by
  induction h with
  | one h => exact digitCount_digit h
  | more _ h ih => rw [digitCount_append, ih, digitCount_digit h]
  | underscore _ h ih =>
    rw [digitCount_append, ih, show ['_', _] = ['_'] ++ [_] from rfl, digitCount_append, digitCount_digit h, digitCount_one (by decide)]

theorem sign_count {t : Str} {σ : Int} (h : Sign t σ) : digitCount t = 0 := by
  rcases h with ⟨rfl, _⟩ | ⟨rfl, _⟩ | ⟨rfl, _⟩ <;> decide

theorem digits_lt {t : Str} {n k : Nat} (h : Digits t n k) : n < 10 ^ k := by
  induction h with
  | one h => simpa using h
  | more _ h ih => rw [pow_succ]; omega
  | underscore _ h ih => rw [pow_succ]; omega

theorem intDigits_text {t : Str} {z : Int} {k : Nat} (h : IntDigits t z k) : IntText t z := by
  obtain ⟨u, h1, b, sg, d, b', σ, n, h2, h3, h4, h5, h6, h7⟩ := h
  exact ⟨u, h1, b, sg, d, b', σ, n, k, h2, h3, h4, h5, h6, h7⟩

theorem intText_digits {t : Str} {z : Int} (h : IntText t z) : ∃ k, IntDigits t z k := by
  obtain ⟨u, h1, b, sg, d, b', σ, n, k, h2, h3, h4, h5, h6, h7⟩ := h
  exact ⟨k, u, h1, b, sg, d, b', σ, n, h2, h3, h4, h5, h6, h7⟩

/-- the reading of a literal and its digits -/
theorem literal_digits {t : Str} {z : Int} {k : Nat} (h : IntDigits t z k) : ∃ u, literal t = some u ∧ readInt u = some z ∧ digitCount u = k := by
  obtain ⟨u, h1, b, sg, d, b', σ, n, hb, hb', h4, h5, h6, h7⟩ := h
  have hs : stripBlank (t.map asciiChar) = sg ++ d := by
    rw [← counts_eq h1, h6, List.append_assoc b, stripBlank_around hb hb']
    · intro c hc
      rcases List.mem_append.1 hc with hc | hc
      · exact sign_nonblank h4 c hc
      · exact digits_nonblank h5 c hc
    · simp [digits_ne_nil h5]
  obtain ⟨w, hw, hr⟩ := (readInt_iff (sg ++ d) z).2 ⟨sg, d, σ, n, k, h4, h5, rfl, h7⟩
  refine ⟨w, by unfold literal; rw [hs, hw], hr, ?_⟩
  rw [dropUnderscores_count hw, digitCount_append, sign_count h4, digits_count h5, Nat.zero_add]

theorem intDigits_unique {t : Str} {z z' : Int} {k k' : Nat} (h : IntDigits t z k) (h' : IntDigits t z' k') : z = z' ∧ k = k' := by
  obtain ⟨u, h1, h2, h3⟩ := literal_digits h
  obtain ⟨u', h1', h2', h3'⟩ := literal_digits h'
  rw [h1] at h1'
  cases h1'
  rw [h2] at h2'
  exact ⟨Option.some.inj h2', h3.symm.trans h3'⟩

theorem parseInt_limit (limit : Nat) {t : Str} {z : Int} {k : Nat} (h : IntDigits t z k) :
    parseInt limit t = if limit ≠ 0 ∧ limit < k then none else some z := by
  obtain ⟨u, h1, h2, h3⟩ := literal_digits h
  unfold parseInt
  rw [h1, Option.bind_some, h3, h2]
  by_cases hk : limit ≠ 0 ∧ limit < k
  · rw [if_pos hk, if_pos ((tooMany_iff _ _).2 hk)]
  · rw [if_neg hk, if_neg (fun h => hk ((tooMany_iff _ _).1 h))]

theorem parseInt_none (limit : Nat) {t : Str} (h : ∀ z, ¬ IntText t z) : parseInt limit t = none ∧ Verif.parseInt t = none := by
  have h2 : Verif.parseInt t = none := by
    cases h1 : Verif.parseInt t with
    | none => rfl
    | some z => exact absurd ((parseInt_iff t z).1 h1) (h z)
  refine ⟨?_, h2⟩
  unfold Verif.parseInt at h2
  unfold parseInt
  cases h1 : literal t with
  | none => rfl
  | some u =>
    rw [h1] at h2
    rw [Option.bind_some] at h2 ⊢
    split
    · rfl
    · exact h2

theorem natStr_digits_prop (n : Nat) : Digits (natStr n) n (natStr n).length := by
  induction n using Nat.strongRecOn with
  | _ n ih =>
    rw [natStr]
    by_cases h : n < 10
    · rw [if_pos h]; exact .one h
    · rw [if_neg h, List.length_append]
      have h1 := Digits.more (d := n % 10) (ih (n / 10) (by omega)) (by omega)
      have h2 : 10 * (n / 10) + n % 10 = n := by omega
      rw [h2] at h1
      exact h1

theorem natStr_ge {n : Nat} (h : n ≠ 0) : 10 ^ ((natStr n).length - 1) ≤ n := by
  induction n using Nat.strongRecOn with
  | _ n ih =>
    rw [natStr]
    by_cases h10 : n < 10
    · rw [if_pos h10]; simp; omega
    · rw [if_neg h10, List.length_append]
      have h1 := ih (n / 10) (by omega) (by omega)
      have h2 : 1 ≤ (natStr (n / 10)).length := List.length_pos_iff.2 (natStr_ne_nil _)
      simp only [List.length_cons, List.length_nil]
      have h3 : (natStr (n / 10)).length + (0 + 1) - 1 = ((natStr (n / 10)).length - 1) + 1 := by omega
      rw [h3, pow_succ]
      omega

/-- the printed form has more than `limit` digits from `10 ^ limit` on -/
theorem natStr_long {limit : Nat} (hl : limit ≠ 0) (n : Nat) : limit < (natStr n).length ↔ 10 ^ limit ≤ n := by
  constructor
  · intro h
    by_cases hn : n = 0
    · subst hn
      have : (natStr 0).length = 1 := by rw [natStr]; rfl
      omega
    · exact (Nat.pow_le_pow_right (by norm_num) (by omega)).trans (natStr_ge hn)
  · intro h
    by_contra hc
    have h1 := digits_lt (natStr_digits_prop n)
    have h2 : 10 ^ (natStr n).length ≤ 10 ^ limit := Nat.pow_le_pow_right (by norm_num) (by omega)
    omega

theorem strFails_iff (limit : Nat) (v : Val) : strFails limit v = true ↔ limit ≠ 0 ∧ ∃ z, v = .int z ∧ 10 ^ limit ≤ z.natAbs := by
  cases v with
  | str s => simp [strFails]
  | flt f => simp [strFails]
  | int z =>
    unfold strFails
    rw [tooMany_iff]
    constructor
    · rintro ⟨h1, h2⟩; exact ⟨h1, z, rfl, (natStr_long h1 _).1 h2⟩
    · rintro ⟨h1, y, h2, h3⟩; cases h2; exact ⟨h1, (natStr_long h1 _).2 h3⟩

/-- **C113.** The constructor refuses, with `ValueError`, texts to be compared by order and, if there is a limit, integers with more than `limit` digits; it makes all other selectors. -/
theorem C113_new (limit : Nat) (a : Str) (op : Op) (v : Val) :
    (((∃ y, v = .str y ∧ op ≠ .equal ∧ op ≠ .notEqual) ∨ (limit ≠ 0 ∧ ∃ z, v = .int z ∧ 10 ^ limit ≤ z.natAbs)) → new? limit a op v = .error .valueError) ∧
    (¬ ((∃ y, v = .str y ∧ op ≠ .equal ∧ op ≠ .notEqual) ∨ (limit ≠ 0 ∧ ∃ z, v = .int z ∧ 10 ^ limit ≤ z.natAbs)) → new? limit a op v = .ok ⟨a, op, v⟩) := by
  have hl : ¬ Selector.legal op v = true ↔ ∃ y, v = .str y ∧ op ≠ .equal ∧ op ≠ .notEqual := by
    rw [legal_iff]; push Not; rfl
  rw [← hl, ← strFails_iff]
  unfold new?
  constructor
  · rintro (h | h)
    · rw [if_pos (by simpa using h)]
    · by_cases h1 : (!Selector.legal op v) = true
      · rw [if_pos h1]
      · rw [if_neg h1, if_pos h]
  · intro h
    push Not at h
    rw [if_neg (by simpa using h.1), if_neg h.2]

theorem new_mk {limit : Nat} {a : Str} {op : Op} {v : Val} (h : strFails limit v = false) : new? limit a op v = Selector.mk? a op v := by
  unfold new? Selector.mk?
  rw [h]
  rfl

theorem mk_num {a : Str} {op : Op} {v : Val} (h : v.isStr = false) : Selector.mk? a op v = .ok ⟨a, op, v⟩ := by
  unfold Selector.mk?
  have : Selector.legal op v = true := by cases v <;> simp_all [Selector.legal, Val.isStr]
  rw [this]; rfl

/-- the value part without too long a literal is that of the code without a limit -/
theorem build_same {limit : Nat} {a : Str} {op : Op} {t : Str} (h : ∀ z k, IntDigits t z k → Quoted t ∨ limit = 0 ∨ k ≤ limit) :
    build limit a op t = (match Selector.parseVal t with
      | .error e => .error e
      | .ok v => Selector.mk? a op v) := by
  cases ht : t with
  | nil => rfl
  | cons x xs =>
    rw [← ht]
    obtain ⟨p, hp⟩ : ∃ p, t.head? = some p := by rw [ht]; exact ⟨x, rfl⟩
    obtain ⟨q, hq⟩ : ∃ q, t.getLast? = some q := ⟨_, List.getLast?_eq_some_getLast (by rw [ht]; simp)⟩
    unfold build Selector.parseVal
    rw [hp, hq]
    simp only
    by_cases h1 : (p = '\'' ∧ q = '\'') ∨ (p = '"' ∧ q = '"')
    · rw [if_pos h1, if_pos h1]
      exact new_mk rfl
    · rw [if_neg h1, if_neg h1]
      have hnq : ¬ Quoted t := fun h => h1 ((quoted_iff hp hq).1 h)
      unfold number
      by_cases hd : '.' ∈ t
      · rw [if_pos hd, if_pos hd]
        cases hf : parseFloat t with
        | none =>
          simp only [Except.bind]
          exact new_mk rfl
        | some f =>
          simp only [Except.bind]
          rw [new_mk (v := .flt f) rfl, mk_num (v := .flt f) rfl]
      · rw [if_neg hd, if_neg hd]
        by_cases hi : ∃ z, IntText t z
        · obtain ⟨z, hz⟩ := hi
          obtain ⟨k, hk⟩ := intText_digits hz
          have hlim : ¬ (limit ≠ 0 ∧ limit < k) := by
            rcases h z k hk with h | h | h
            · exact absurd h hnq
            · exact fun hc => hc.1 h
            · omega
          rw [parseInt_limit limit hk, if_neg hlim, (parseInt_iff t z).2 hz]
          simp only [Except.bind]
          have hs : strFails limit (.int z) = false := by
            cases hc : strFails limit (.int z) with
            | false => rfl
            | true =>
              exfalso
              obtain ⟨h0, y, hy, hy'⟩ := (strFails_iff _ _).1 hc
              cases hy
              obtain ⟨u, _, b, sg, d, b', σ, n, _, _, h4, h5, _, h7⟩ := hk
              have h8 := digits_lt h5
              have h9 : z.natAbs = n := by
                rw [h7]
                rcases h4 with ⟨_, rfl⟩ | ⟨_, rfl⟩ | ⟨_, rfl⟩ <;> simp
              have h10 : 10 ^ k ≤ 10 ^ limit := Nat.pow_le_pow_right (by norm_num) (by omega)
              omega
          rw [new_mk hs, mk_num (v := .int z) rfl]
        · have hi' : ∀ z, ¬ IntText t z := fun z hz => hi ⟨z, hz⟩
          obtain ⟨e1, e2⟩ := parseInt_none limit hi'
          rw [e1, e2]
          simp only [Except.bind]
          exact new_mk rfl

theorem intText_ne_nil {z : Int} : ¬ IntText [] z := by
  rintro ⟨u, h1, b, sg, d, b', σ, n, k, _, _, _, h5, h6, _⟩
  cases h1
  have := digits_ne_nil h5
  simp at h6
  exact this h6.2.2.1

theorem generate_parts (limit : Nat) (a : Str) (op : Op) (t : Str) (ha : ' ' ∉ a) :
    generateFromStr limit (a ++ c!" " ++ op.str ++ c!" " ++ t) = build limit a op t := by
  unfold generateFromStr
  rw [Selector.split_str ha]
  simp only [Selector.split_op, Op.roundtrip]

/-- an integer literal is not in quotes -/
theorem intText_not_quoted {t : Str} {z : Int} (h : IntText t z) : ¬ Quoted t := by
  rintro ⟨q, hq, hh, _⟩
  have hm : q ∈ t := by
    cases t with
    | nil => cases hh
    | cons c cs => simp only [List.head?_cons, Option.some.injEq] at hh; rw [hh]; exact List.mem_cons_self
  have h1 := (parseInt_iff t z).2 h
  rw [Selector.parseInt_bad hm (by rcases hq with rfl | rfl <;> decide) (by rcases hq with rfl | rfl <;> decide) (by rcases hq with rfl | rfl <;> decide)
    ⟨by rcases hq with rfl | rfl <;> decide, by rcases hq with rfl | rfl <;> decide⟩] at h1
  cases h1

/-- **C113.** Reading a selector: a text whose value is an integer literal with more than `limit` digits stands for a selector with that text as value (which needs `=` or `!=`, else `ValueError`);
every other text is read as without a limit. -/
theorem C113_read (limit : Nat) (x : Str) :
    (∀ a op t, TooLong limit x a op t →
      generateFromStr limit x = if op = .equal ∨ op = .notEqual then .ok ⟨a, op, .str t⟩ else .error .valueError) ∧
    ((∀ a op t, ¬ TooLong limit x a op t) → generateFromStr limit x = Selector.generateFromStr x) := by
  constructor
  · rintro a op t ⟨ha, rfl, h0, z, k, hk, hlt⟩
    rw [generate_parts limit a op t ha]
    have hz := intDigits_text hk
    have hne : t ≠ [] := by rintro rfl; exact intText_ne_nil hz
    obtain ⟨p, hp⟩ : ∃ p, t.head? = some p := by cases t; exact absurd rfl hne; exact ⟨_, rfl⟩
    obtain ⟨q, hq⟩ : ∃ q, t.getLast? = some q := ⟨_, List.getLast?_eq_some_getLast hne⟩
    have h1 : ¬ ((p = '\'' ∧ q = '\'') ∨ (p = '"' ∧ q = '"')) := fun h => intText_not_quoted hz ((quoted_iff hp hq).2 h)
    unfold build
    rw [hp, hq]
    simp only
    rw [if_neg h1]
    unfold number
    rw [if_neg (intText_no_point hz), parseInt_limit limit hk, if_pos ⟨h0, hlt⟩]
    simp only [Except.bind]
    rw [new_mk (v := .str t) rfl]
    unfold Selector.mk?
    cases op <;> rfl
  · intro h
    unfold generateFromStr Selector.generateFromStr
    cases h1 : splitFirst (· == ' ') x with
    | mk a o =>
      cases o with
      | none => rfl
      | some rest =>
        simp only
        cases h2 : splitFirst (· == ' ') rest with
        | mk o third =>
          simp only
          cases h3 : Op.generateFromStr o with
          | error e => rfl
          | ok op =>
            simp only
            cases third with
            | none => rfl
            | some t =>
              simp only
              rw [build_same]
              · rfl
              · intro z k hk
                right
                by_contra hc
                push Not at hc
                obtain ⟨c, hc1, hx, hfa⟩ := splitFirst_eq_some h1
                obtain ⟨c', hc2, hr, _⟩ := splitFirst_eq_some h2
                simp only [beq_iff_eq] at hc1 hc2
                subst hc1; subst hc2
                refine h a op t ⟨fun hb => by simpa using hfa _ hb, ?_, hc.1, z, k, hk, hc.2⟩
                rw [hx, hr, Op.generateFromStr_ok h3]; simp

/-- **C113.** Every selector that the constructor makes can be printed, and its text is read as without a limit (so by C05 it is read back as the same selector). -/
theorem C113_roundtrip (limit : Nat) (a : Str) (op : Op) (v : Val) (s : Selector) (h : new? limit a op v = .ok s) (hb : ' ' ∉ s.attr) :
    strFails limit s.val = false ∧ generateFromStr limit s.str = Selector.generateFromStr s.str := by
  have hs : s = ⟨a, op, v⟩ ∧ strFails limit v = false := by
    unfold new? at h
    split at h
    · cases h
    · split at h
      · cases h
      · rename_i h2
        cases h
        exact ⟨rfl, by simpa using h2⟩
  have hv : strFails limit s.val = false := by rw [hs.1]; exact hs.2
  refine ⟨hv, (C113_read limit s.str).2 ?_⟩
  rintro a' op' t ⟨ha', hx, h0, z, k, hk, hlt⟩
  have hsplit : s.attr = a' ∧ s.op.str ++ ' ' :: Selector.valText s.val = op'.str ++ ' ' :: t := by
    have e1 := Selector.split_str hb s.op (Selector.valText s.val)
    have e2 := Selector.split_str ha' op' t
    have hx' : s.attr ++ c!" " ++ s.op.str ++ c!" " ++ Selector.valText s.val = a' ++ c!" " ++ op'.str ++ c!" " ++ t := hx
    rw [hx', e2] at e1
    simp only [Prod.mk.injEq, Option.some.injEq] at e1
    exact ⟨e1.1.symm, e1.2.symm⟩
  have ht : Selector.valText s.val = t := by
    have e1 := Selector.split_op s.op (Selector.valText s.val)
    rw [hsplit.2, Selector.split_op] at e1
    simp only [Prod.mk.injEq, Option.some.injEq] at e1
    exact e1.2.symm
  have hz := intDigits_text hk
  cases hval : s.val with
  | str y =>
    rw [hval] at ht
    refine intText_not_quoted hz ⟨'\'', .inl rfl, ?_, ?_⟩
    · rw [← ht]; rfl
    · rw [← ht]
      unfold Selector.valText
      rw [List.getLast?_eq_some_iff]
      exact ⟨_, rfl⟩
  | flt f =>
    rw [hval] at ht
    have h1 := (parseInt_iff t z).2 hz
    rw [← ht] at h1
    have h2 : Verif.parseInt f.str = some z := h1
    rw [Selector.parseInt_fltStr] at h2
    cases h2
  | int y =>
    rw [hval] at ht hv
    obtain ⟨u, h1, h2, h3⟩ := literal_digits hk
    have ht' : intStr y = t := ht
    rw [← ht', literal_plain (intStr_plain y)] at h1
    cases h1
    have hcount : digitCount (intStr y) = (natStr y.natAbs).length := by
      cases y with
      | ofNat n => exact digits_count (natStr_digits_prop n)
      | negSucc n =>
        show digitCount ('-' :: natStr (n + 1)) = _
        rw [show '-' :: natStr (n + 1) = ['-'] ++ natStr (n + 1) from rfl, digitCount_append, digitCount_one (by decide), digits_count (natStr_digits_prop _), Nat.zero_add]
        rfl
    rw [hcount] at h3
    have : strFails limit (.int y) = true := (tooMany_iff _ _).2 ⟨h0, by rw [h3]; exact hlt⟩
    rw [this] at hv
    cases hv

/-- **C113.** Without a limit nothing changes. -/
theorem C113_none (a : Str) (op : Op) (v : Val) (x : Str) : new? 0 a op v = Selector.mk? a op v ∧ generateFromStr 0 x = Selector.generateFromStr x := by
  refine ⟨new_mk ?_, (C113_read 0 x).2 (fun _ _ _ h => h.2.2.1 rfl)⟩
  cases h : strFails 0 v with
  | false => rfl
  | true => exact absurd rfl ((strFails_iff _ _).1 h).1

/-- with a limit of three digits: 1000 is refused, its text is read as a text; zeros in front count, underscores do not -/
example : new? 3 c!"x" .less (.int 1000) = .error .valueError ∧ new? 3 c!"x" .less (.int (-999)) = .ok ⟨c!"x", .less, .int (-999)⟩ ∧
    generateFromStr 3 c!"x = 0001" = .ok ⟨c!"x", .equal, .str c!"0001"⟩ ∧ generateFromStr 3 c!"x < 0001" = .error .valueError ∧
    generateFromStr 3 c!"x < 9_99" = .ok ⟨c!"x", .less, .int 999⟩ ∧ generateFromStr 3 c!"x < 1000.5" = .ok ⟨c!"x", .less, .flt (mkFlt 10005 (-1))⟩ := by decide +kernel

end Verif.DigitLimit
