import Verif.Spec.Files
import Verif.Lemmas.Regex
import Verif.Props.Subgroup
/-! Lemmas on the file formats. -/
namespace Verif
open Spec Rgx

/-! ### lines -/

theorem fileLinesAux_line {l : Str} (hl : '\n' ∉ l) (acc rest : Str) :
    fileLinesAux acc (l ++ '\n' :: rest) = (acc.reverse ++ l) :: fileLinesAux [] rest := by
  induction l generalizing acc with
  | nil => simp [fileLinesAux]
  | cons c l ih =>
    have hc : c ≠ '\n' := by rintro rfl; simp at hl
    rw [List.cons_append, fileLinesAux, if_neg hc, ih (by simp at hl; exact hl.2)]
    simp

theorem splitLines_text (lines : List Str) (h : ∀ l ∈ lines, '\n' ∉ l) : fileLinesAux [] (fileText lines) = lines := by
  unfold fileText
  induction lines with
  | nil => rfl
  | cons l ls ih =>
    have : (l :: ls).flatMap (· ++ c!"\n") = l ++ '\n' :: ls.flatMap (· ++ c!"\n") := by simp
    rw [this, fileLinesAux_line (h l (by simp)), ih (fun x hx => h x (by simp [hx]))]
    rfl

theorem universal_other {c : Char} (hc : c ≠ '\r') (s : Str) : universal (c :: s) = c :: universal s := by
  rw [universal.eq_def]
  split
  · rename_i h; cases h
  · rename_i h; cases h; exact absurd rfl hc
  · rename_i h; cases h; exact absurd rfl hc
  · rename_i h; cases h; rfl

theorem universal_append {l : Str} (h : '\r' ∉ l) (s : Str) : universal (l ++ s) = l ++ universal s := by
  induction l with
  | nil => rfl
  | cons c l ih =>
    simp only [List.mem_cons, not_or] at h
    rw [List.cons_append, universal_other (fun hc => h.1 hc.symm), ih h.2]
    rfl

theorem universal_id {s : Str} (h : '\r' ∉ s) : universal s = s := by
  have := universal_append h []
  simpa [universal] using this

theorem universal_chars {s : Str} {c : Char} (h : c ∈ universal s) : c ≠ '\r' ∧ (c = '\n' ∨ c ∈ s) := by
  induction s using universal.induct with
  | case1 => cases h
  | case2 s ih =>
    rw [universal] at h
    rcases List.mem_cons.1 h with rfl | h
    · exact ⟨by decide, Or.inl rfl⟩
    · obtain ⟨h1, h2⟩ := ih h
      refine ⟨h1, ?_⟩
      rcases h2 with h2 | h2
      · exact Or.inl h2
      · exact Or.inr (by simp [h2])
  | case3 s hs ih =>
    rw [universal] at h
    · rcases List.mem_cons.1 h with rfl | h
      · exact ⟨by decide, Or.inl rfl⟩
      · obtain ⟨h1, h2⟩ := ih h
        refine ⟨h1, ?_⟩
        rcases h2 with h2 | h2
        · exact Or.inl h2
        · exact Or.inr (by simp [h2])
    · exact hs
  | case4 a s h1 h2 ih =>
    have ha : a ≠ '\r' := fun ha => h2 ha
    rw [universal_other ha] at h
    rcases List.mem_cons.1 h with rfl | h
    · exact ⟨ha, Or.inr (by simp)⟩
    · obtain ⟨h1, h2⟩ := ih h
      refine ⟨h1, ?_⟩
      rcases h2 with h2 | h2
      · exact Or.inl h2
      · exact Or.inr (by simp [h2])

theorem fileLines_text (lines : List Str) (h : ∀ l ∈ lines, OneLine l) : fileLines (fileText lines) = lines := by
  unfold fileLines
  rw [universal_id, splitLines_text _ (fun l hl => (h l hl).1)]
  unfold fileText
  intro hm
  obtain ⟨l, hl, hm⟩ := List.mem_flatMap.1 hm
  rcases List.mem_append.1 hm with hm | hm
  · exact (h l hl).2 hm
  · simp at hm

theorem fileLinesAux_mem {s acc l : Str} (ha : '\n' ∉ acc) (h : l ∈ fileLinesAux acc s) : '\n' ∉ l := by
  induction s generalizing acc with
  | nil =>
    unfold fileLinesAux at h
    split at h
    · simp at h
    · simp at h; rw [h]; simpa using ha
  | cons c s ih =>
    unfold fileLinesAux at h
    split at h
    · rcases List.mem_cons.1 h with h | h
      · rw [h]; simpa using ha
      · exact ih (by simp) h
    · rename_i hc
      exact ih (by simp; exact ⟨fun h => hc h.symm, ha⟩) h

theorem fileLinesAux_chars {s acc l : Str} (h : l ∈ fileLinesAux acc s) {c : Char} (hc : c ∈ l) : c ∈ acc ∨ c ∈ s := by
  induction s generalizing acc with
  | nil =>
    unfold fileLinesAux at h
    split at h
    · cases h
    · rw [List.mem_singleton] at h
      subst h
      exact Or.inl (List.mem_reverse.1 hc)
  | cons a s ih =>
    unfold fileLinesAux at h
    split at h
    · rcases List.mem_cons.1 h with rfl | h
      · exact Or.inl (List.mem_reverse.1 hc)
      · rcases ih h with h | h
        · cases h
        · exact Or.inr (by simp [h])
    · rcases ih h with h | h
      · rcases List.mem_cons.1 h with rfl | h
        · exact Or.inr (by simp)
        · exact Or.inl h
      · exact Or.inr (by simp [h])

theorem fileLines_mem {s l : Str} (h : l ∈ fileLines s) : '\n' ∉ l := fileLinesAux_mem (by simp) h

theorem fileLines_one {s l : Str} (h : l ∈ fileLines s) : OneLine l := by
  refine ⟨fileLines_mem h, fun hc => ?_⟩
  rcases fileLinesAux_chars h hc with h | h
  · cases h
  · exact (universal_chars h).1 rfl

theorem fileLines_chars {s l : Str} (h : l ∈ fileLines s) {c : Char} (hc : c ∈ l) : c ∈ s := by
  have hn := fileLines_mem h
  rcases fileLinesAux_chars h hc with h | h
  · cases h
  · rcases (universal_chars h).2 with rfl | h
    · exact absurd hc hn
    · exact h

/-- the lines of a file do not depend on how they are ended -/
theorem fileLines_written {ls : List Str} {s : Str} (h : WrittenLines ls s) (ho : ∀ l ∈ ls, OneLine l) : fileLines s = ls := by
  unfold fileLines
  induction h with
  | nil => rfl
  | last l hl =>
    obtain ⟨h1, h2⟩ := ho l (by simp)
    rw [universal_id h2]
    have : ∀ (l acc : Str), '\n' ∉ l → acc.reverse ++ l ≠ [] → fileLinesAux acc l = [acc.reverse ++ l] := by
      intro l
      induction l with
      | nil =>
        intro acc _ h
        rw [List.append_nil] at h
        have : acc ≠ [] := fun ha => h (by rw [ha]; rfl)
        simp [fileLinesAux, this]
      | cons c l ih =>
        intro acc h1 h
        simp only [List.mem_cons, not_or] at h1
        rw [fileLinesAux, if_neg (fun hc => h1.1 hc.symm), ih (c :: acc) h1.2 (by simp)]
        simp
    simpa using this l [] h1 (by simpa using hl)
  | unix l ls s _ ih =>
    obtain ⟨h1, h2⟩ := ho l (by simp)
    have e : universal (l ++ c!"\n" ++ s) = l ++ '\n' :: universal s := by
      rw [List.append_assoc, universal_append h2]; rfl
    rw [e, fileLinesAux_line h1, ih (fun x hx => ho x (by simp [hx]))]
    rfl
  | dos l ls s _ ih =>
    obtain ⟨h1, h2⟩ := ho l (by simp)
    have e : universal (l ++ c!"\r\n" ++ s) = l ++ '\n' :: universal s := by
      rw [List.append_assoc, universal_append h2]; rfl
    rw [e, fileLinesAux_line h1, ih (fun x hx => ho x (by simp [hx]))]
    rfl
  | mac l ls s _ hs ih =>
    obtain ⟨h1, h2⟩ := ho l (by simp)
    have e : universal (l ++ c!"\r" ++ s) = l ++ '\n' :: universal s := by
      rw [List.append_assoc, universal_append h2]
      show l ++ universal ('\r' :: s) = _
      rw [universal]
      intro t ht
      exact hs t ht
    rw [e, fileLinesAux_line h1, ih (fun x hx => ho x (by simp [hx]))]
    rfl

/-! ### cutting at a character -/

theorem cut_unique {c : Char} {x y x' y' : Str} (h : x ++ c :: y = x' ++ c :: y') (hx : c ∉ x) (hx' : c ∉ x') : x = x' ∧ y = y' := by
  induction x generalizing x' with
  | nil =>
    cases x' with
    | nil => simp at h; exact ⟨rfl, h⟩
    | cons d x' => simp at h hx'; exact absurd h.1 hx'.1
  | cons e x ih =>
    cases x' with
    | nil => simp at h hx; exact absurd h.1.symm hx.1
    | cons d x' =>
      simp at h hx hx'
      obtain ⟨h1, h2⟩ := ih h.2 hx.2 hx'.2
      exact ⟨by rw [h.1, h1], h2⟩

/-! ### the languages -/

theorem wordChar_iff (c : Char) : wordChar c = true ↔
    c ∈ c!"&,.<>/=_-ABCDEFGHIJKLMNOPQRSTUVWXYZabcdefghijklmnopqrstuvwxyz0123456789" := by
  have hall : ∀ n : Fin 128, (wordChar (Char.ofNat n) = true ↔
      Char.ofNat n ∈ c!"&,.<>/=_-ABCDEFGHIJKLMNOPQRSTUVWXYZabcdefghijklmnopqrstuvwxyz0123456789") := by decide +kernel
  by_cases h : c.toNat < 128
  · have := hall ⟨c.toNat, h⟩
    simpa using this
  · constructor
    · intro hw
      exfalso
      apply h
      have hle : ∀ d : Char, c ≤ d → d.toNat < 128 → c.toNat < 128 := by
        intro d hd hd2
        have : c.val ≤ d.val := hd
        have : c.toNat ≤ d.toNat := this
        omega
      unfold wordChar at hw
      simp only [Bool.or_eq_true, Bool.and_eq_true, decide_eq_true_eq] at hw
      rcases hw with ((hw | hw) | hw) | hw
      · simp at hw
        rcases hw with rfl | rfl | rfl | rfl | rfl | rfl | rfl | rfl | rfl <;> decide
      · exact hle _ hw.2 (by decide)
      · exact hle _ hw.2 (by decide)
      · exact hle _ hw.2 (by decide)
    · intro hm
      exfalso
      apply h
      have : ∀ d ∈ c!"&,.<>/=_-ABCDEFGHIJKLMNOPQRSTUVWXYZabcdefghijklmnopqrstuvwxyz0123456789", d.toNat < 128 := by decide +kernel
      exact this c hm

theorem lang_word (s : Str) : Lang wordRegex s ↔ WordText s := by
  unfold wordRegex WordText
  rw [lang_plus_cls]
  simp only [wordChar_iff]

theorem lang_bits (s : Str) : Lang bits s ↔ DigitText s := by
  unfold bits DigitText
  rw [lang_plus_cls]
  simp

theorem lang_seq_lit (t : Str) (b : Rgx) (s : Str) : Lang (.seq (lit t) b) s ↔ ∃ y, s = t ++ y ∧ Lang b y := by
  simp only [Lang, lang_lit]
  constructor
  · rintro ⟨x, y, rfl, rfl, h⟩; exact ⟨y, rfl, h⟩
  · rintro ⟨y, rfl, h⟩; exact ⟨t, y, rfl, rfl, h⟩

theorem lang_selector (s : Str) : Lang selectorRegex s ↔ ∃ t : SelTxt, t.Valid ∧ s = t.text := by
  have hq : ∀ y, Lang (.alt wordRegex (.seq (lit c!"'") (.seq wordRegex (lit c!"'")))) y ↔
      WordText y ∨ ∃ v, WordText v ∧ y = c!"'" ++ v ++ c!"'" := by
    intro y
    rw [Lang, lang_word, lang_seq_lit]
    refine or_congr Iff.rfl ⟨?_, ?_⟩
    · rintro ⟨z, rfl, v, w, rfl, hv, hw⟩
      rw [lang_lit] at hw
      rw [lang_word] at hv
      exact ⟨v, hv, by rw [hw, List.append_assoc]⟩
    · rintro ⟨v, hv, rfl⟩
      exact ⟨v ++ c!"'", by simp, v, _, rfl, (lang_word v).2 hv, (lang_lit _ _).2 rfl⟩
  unfold selectorRegex
  rw [Lang]
  constructor
  · rintro ⟨a, y, rfl, ha, hy⟩
    rw [lang_seq_lit] at hy
    obtain ⟨z, rfl, hz⟩ := hy
    rw [lang_word] at ha
    rcases (hq z).1 hz with h | ⟨v, hv, rfl⟩
    · exact ⟨⟨a, z, false⟩, ⟨ha, h⟩, by simp [SelTxt.text]⟩
    · exact ⟨⟨a, v, true⟩, ⟨ha, hv⟩, by simp [SelTxt.text]⟩
  · rintro ⟨⟨a, v, q⟩, ⟨ha, hv⟩, rfl⟩
    refine ⟨a, c!" = " ++ (if q then c!"'" ++ v ++ c!"'" else v), by simp [SelTxt.text], (lang_word a).2 ha, ?_⟩
    rw [lang_seq_lit]
    refine ⟨_, rfl, (hq _).2 ?_⟩
    cases q with
    | true => exact .inr ⟨v, hv, by simp⟩
    | false => exact .inl hv

theorem intercalate_cons (sep a : Str) (l : List Str) : sep.intercalate (a :: l) = a ++ (l.map (sep ++ ·)).flatten := by
  induction l generalizing a with
  | nil => simp [List.intercalate]
  | cons b l ih =>
    have : sep.intercalate (a :: b :: l) = a ++ sep ++ sep.intercalate (b :: l) := by simp [List.intercalate]
    rw [this, ih]
    simp

theorem lang_pattern (s : Str) : Lang patternRegex s ↔
    ∃ ts : List SelTxt, ts ≠ [] ∧ (∀ t ∈ ts, t.Valid) ∧ s = c!"[" ++ c!", ".intercalate (ts.map SelTxt.text) ++ c!"]" := by
  unfold patternRegex
  rw [lang_seq_lit]
  constructor
  · rintro ⟨y, rfl, x, z, rfl, hx, u, w, rfl, hu, hw⟩
    rw [lang_lit] at hw
    obtain ⟨t, ht, rfl⟩ := (lang_selector x).1 hx
    obtain ⟨l, rfl, hl⟩ := hu
    have : ∃ ts : List SelTxt, (∀ t ∈ ts, t.Valid) ∧ l = (ts.map SelTxt.text).map (c!", " ++ ·) := by
      clear hw hx
      induction l with
      | nil => exact ⟨[], by simp, rfl⟩
      | cons a l ih =>
        obtain ⟨ts, h1, h2⟩ := ih (fun x hx => hl x (by simp [hx]))
        have ha := hl a (by simp)
        rw [lang_seq_lit] at ha
        obtain ⟨b, rfl, hb⟩ := ha
        obtain ⟨t', ht', rfl⟩ := (lang_selector b).1 hb
        exact ⟨t' :: ts, by simp; exact ⟨ht', h1⟩, by rw [h2]; simp⟩
    obtain ⟨ts, h1, h2⟩ := this
    refine ⟨t :: ts, by simp, by simp; exact ⟨ht, h1⟩, ?_⟩
    rw [List.map_cons, intercalate_cons, h2, hw]
    simp
  · rintro ⟨ts, hne, hv, rfl⟩
    cases ts with
    | nil => exact absurd rfl hne
    | cons t ts =>
      rw [List.map_cons, intercalate_cons]
      refine ⟨t.text ++ (((ts.map SelTxt.text).map (c!", " ++ ·)).flatten ++ c!"]"), by simp, _, _, rfl,
        (lang_selector _).2 ⟨t, hv t (by simp), rfl⟩, _, _, rfl, ⟨_, rfl, ?_⟩, (lang_lit _ _).2 rfl⟩
      intro x hx
      simp only [List.mem_map] at hx
      obtain ⟨a, ⟨t', ht', rfl⟩, rfl⟩ := hx
      rw [lang_seq_lit]
      exact ⟨_, rfl, (lang_selector _).2 ⟨t', hv t' (by simp [ht']), rfl⟩⟩

/-! ### the groups of a line of the input file -/

theorem word_no {c : Char} (hc : wordChar c = false) {s : Str} (h : WordText s) : c ∉ s := by
  intro hm
  have := (wordChar_iff c).2 (h.2 c hm)
  rw [hc] at this; cases this

theorem digit_no {c : Char} (h0 : c ≠ '0') (h1 : c ≠ '1') {s : Str} (h : DigitText s) : c ∉ s := by
  intro hm
  rcases h.2 c hm with h | h
  · exact h0 h
  · exact h1 h

theorem selText_no {c : Char} (hc : wordChar c = false) (h1 : c ≠ ' ') (h2 : c ≠ '\'') {t : SelTxt} (h : t.Valid) : c ∉ t.text := by
  have ha := word_no hc h.1
  have hv := word_no hc h.2
  have h3 : c ≠ '=' := by rintro rfl; revert hc; decide
  unfold SelTxt.text
  cases t.quoted <;> simp [ha, hv, h1, h2, h3]

theorem subText_no {c : Char} (hc : wordChar c = false) (h : c ∉ c!"Description: [], Target: '") {t : LineTxt} (ht : t.Valid) : c ∉ t.subText := by
  have h1 : c ≠ ' ' := by rintro rfl; simp at h
  have h2 : c ≠ '\'' := by rintro rfl; simp at h
  have hs : ∀ ts : List SelTxt, (∀ s ∈ ts, s.Valid) → c ∉ c!", ".intercalate (ts.map SelTxt.text) := by
    intro ts hts
    cases ts with
    | nil => simp
    | cons a ts =>
      rw [List.map_cons, intercalate_cons]
      rw [List.mem_append, not_or]
      refine ⟨selText_no hc h1 h2 (hts a (by simp)), ?_⟩
      intro hm
      obtain ⟨x, hx, hcx⟩ := List.mem_flatten.1 hm
      obtain ⟨z, hz, rfl⟩ := List.mem_map.1 hx
      obtain ⟨w, hw, rfl⟩ := List.mem_map.1 hz
      rcases List.mem_append.1 hcx with h3 | h3
      · simp only [List.mem_cons, not_or] at h h3
        rcases h3 with h3 | h3 | h3
        · exact h.2.2.2.2.2.2.2.2.2.2.2.2.2.2.2.1 h3
        · exact h1 h3
        · cases h3
      · exact selText_no hc h1 h2 (hts w (by simp [hw])) h3
  unfold LineTxt.subText
  simp only [List.mem_append, not_or]
  simp only [List.mem_cons, not_or] at h
  refine ⟨⟨⟨?_, hs _ ht.sels⟩, ?_⟩, selText_no hc h1 h2 ht.target⟩ <;> simp only [List.mem_cons, not_or] <;> tauto

theorem lang_subText (s : Str) : Lang (.seq (lit c!"Description: ") (.seq patternRegex (.seq (lit c!", Target: ") selectorRegex))) s ↔
    ∃ ts t, ts ≠ [] ∧ (∀ t ∈ ts, SelTxt.Valid t) ∧ SelTxt.Valid t ∧ s = (⟨ts, t, [], []⟩ : LineTxt).subText := by
  rw [lang_seq_lit]
  constructor
  · rintro ⟨y, rfl, x, z, rfl, hx, hz⟩
    obtain ⟨ts, h1, h2, rfl⟩ := (lang_pattern x).1 hx
    rw [lang_seq_lit] at hz
    obtain ⟨w, rfl, hw⟩ := hz
    obtain ⟨t, h3, rfl⟩ := (lang_selector w).1 hw
    exact ⟨ts, t, h1, h2, h3, by simp [LineTxt.subText]⟩
  · rintro ⟨ts, t, h1, h2, h3, rfl⟩
    refine ⟨_, ?_, _, _, rfl, (lang_pattern _).2 ⟨ts, h1, h2, rfl⟩, (lang_seq_lit _ _ _).2 ⟨_, rfl, (lang_selector _).2 ⟨t, h3, rfl⟩⟩⟩
    simp [LineTxt.subText]

theorem decomp_input (line : Str) (parts : List Str) : Decomp inputLineRegex parts line ↔
    ∃ t : LineTxt, t.Valid ∧ line = t.text ∧ parts = [t.subText, c!" ; ", t.pos, c!" ; ", t.neg] := by
  unfold inputLineRegex Decomp
  constructor
  · rintro ⟨h, rfl⟩
    cases h with | cons h1 h =>
    cases h with | cons h2 h =>
    cases h with | cons h3 h =>
    cases h with | cons h4 h =>
    cases h with | cons h5 h =>
    cases h
    rw [lang_lit] at h2 h4
    rw [lang_bits] at h3 h5
    obtain ⟨ts, t, g1, g2, g3, rfl⟩ := (lang_subText _).1 h1
    subst h2 h4
    exact ⟨⟨ts, t, _, _⟩, ⟨g1, g2, g3, h3, h5⟩, by simp [LineTxt.text, LineTxt.subText], rfl⟩
  · rintro ⟨t, ht, rfl, rfl⟩
    refine ⟨.cons ((lang_subText _).2 ⟨t.sels, t.target, ht.nonempty, ht.sels, ht.target, rfl⟩) (.cons ((lang_lit _ _).2 rfl)
      (.cons ((lang_bits _).2 ht.pos) (.cons ((lang_lit _ _).2 rfl) (.cons ((lang_bits _).2 ht.neg) .nil)))), ?_⟩
    simp [LineTxt.text]

theorem input_parts_unique {t u : LineTxt} (ht : t.Valid) (hu : u.Valid) (h : t.text = u.text) :
    t.subText = u.subText ∧ t.pos = u.pos ∧ t.neg = u.neg := by
  have hn : ∀ {t : LineTxt}, t.Valid → ';' ∉ t.subText ++ c!" " := by
    intro t ht
    have := subText_no (c := ';') (by decide) (by decide) ht
    simp [this]
  have hd : ∀ {s : Str}, DigitText s → ' ' ∉ s := fun hs => digit_no (by decide) (by decide) hs
  have e : ∀ t : LineTxt, t.text = (t.subText ++ c!" ") ++ ';' :: (' ' :: (t.pos ++ ' ' :: (';' :: ' ' :: t.neg))) := by
    intro t; simp [LineTxt.text]
  rw [e, e] at h
  obtain ⟨h1, h2⟩ := cut_unique h (hn ht) (hn hu)
  simp only [List.cons.injEq, true_and] at h2
  obtain ⟨h3, h4⟩ := cut_unique h2 (hd ht.pos) (hd hu.pos)
  simp only [List.cons.injEq, true_and] at h4
  exact ⟨List.append_cancel_right h1, h3, h4⟩

theorem groups_valid {t : LineTxt} (ht : t.Valid) : inputLineGroups t.text = some (t.subText, t.pos, t.neg) := by
  unfold inputLineGroups
  rw [fullmatch_unique ((decomp_input _ _).2 ⟨t, ht, rfl, rfl⟩)]
  intro parts hp
  obtain ⟨u, hu, h1, rfl⟩ := (decomp_input _ _).1 hp
  obtain ⟨h2, h3, h4⟩ := input_parts_unique ht hu h1
  rw [h2, h3, h4]

theorem groups_none {line : Str} (h : ¬ ∃ t : LineTxt, t.Valid ∧ line = t.text) : inputLineGroups line = Option.none := by
  unfold inputLineGroups
  have : fullmatch inputLineRegex line = Option.none := by
    rw [fullmatch_none]
    rintro ⟨parts, hp⟩
    obtain ⟨t, ht, h1, -⟩ := (decomp_input _ _).1 hp
    exact h ⟨t, ht, h1⟩
  rw [this]

/-! ### reading the subgroup -/

theorem word_noBlank {s : Str} (h : WordText s) : ∀ c ∈ s, (c == ' ') = false := by
  intro c hc
  have := word_no (c := ' ') (by decide) h
  simp only [beq_eq_false_iff_ne, ne_eq]
  rintro rfl; exact this hc

theorem parseVal_text {t : SelTxt} (ht : t.Valid) :
    Selector.parseVal (if t.quoted then c!"'" ++ t.val ++ c!"'" else t.val) = .ok t.selector.val := by
  obtain ⟨a, v, q⟩ := t
  cases q with
  | true =>
    simp only [SelTxt.selector, if_true]
    unfold Selector.parseVal
    have : (c!"'" ++ v ++ c!"'").getLast? = some '\'' := List.getLast?_concat
    rw [this]
    simp
  | false =>
    simp only [SelTxt.selector, Bool.false_eq_true, if_false]
    have hv : WordText v := ht.2
    have h1 := word_no (c := '\'') (by decide) hv
    have h2 := word_no (c := '"') (by decide) hv
    unfold Selector.parseVal
    cases hh : v.head? with
    | none => rw [List.head?_eq_none_iff] at hh; exact absurd hh hv.1
    | some x =>
      cases hl : v.getLast? with
      | none => rw [List.getLast?_eq_none_iff] at hl; exact absurd hl hv.1
      | some y =>
        have hx : x ∈ v := List.mem_of_head? hh
        simp only
        have hno : ¬ ((x = '\'' ∧ y = '\'') ∨ (x = '"' ∧ y = '"')) := by
          rintro (⟨rfl, -⟩ | ⟨rfl, -⟩)
          · exact h1 hx
          · exact h2 hx
        rw [if_neg hno]
        split
        · cases parseFloat v <;> rfl
        · cases parseInt v <;> rfl

theorem selText_read {t : SelTxt} (ht : t.Valid) : Selector.generateFromStr t.text = .ok t.selector := by
  have hp := parseVal_text ht
  unfold Selector.generateFromStr SelTxt.text
  have e1 : t.attr ++ c!" = " ++ (if t.quoted then c!"'" ++ t.val ++ c!"'" else t.val) =
      t.attr ++ ' ' :: (c!"=" ++ ' ' :: (if t.quoted then c!"'" ++ t.val ++ c!"'" else t.val)) := by simp
  rw [e1, splitFirst_append (word_noBlank ht.1) (by decide)]
  simp only
  rw [splitFirst_append (by decide) (by decide)]
  simp only
  have hop : Op.generateFromStr c!"=" = .ok .equal := by decide
  rw [hop]
  simp only [hp]
  unfold Selector.mk?
  have hl : Selector.legal .equal t.selector.val = true := by
    unfold Selector.legal
    have : (Op.equal != Op.equal) = false := by decide
    rw [this]; simp
  rw [hl]
  rfl

theorem occurs_blank {a b : Str} (ha : ' ' ∉ a) (h : Occurs c!", " (a ++ ' ' :: b)) : (∃ a', a = a' ++ c!",") ∨ Occurs c!", " b := by
  obtain ⟨x, y, h⟩ := h
  have h' : a ++ ' ' :: b = x ++ (',' :: ' ' :: y) := by simpa using h
  rcases List.append_eq_append_iff.1 h' with ⟨w, h1, h2⟩ | ⟨w, h1, h2⟩
  · cases w with
    | nil => simp at h2
    | cons d w =>
      simp at h2
      exact .inr ⟨w, y, by rw [h2.2]; simp⟩
  · cases w with
    | nil => simp at h2
    | cons d w =>
      cases w with
      | nil => simp at h2; rw [← h2.1] at h1; exact .inl ⟨x, h1⟩
      | cons e w =>
        simp at h2
        rw [h1, ← h2.2.1] at ha
        simp at ha

theorem no_occurs_blank {a : Str} (ha : ' ' ∉ a) : ¬ Occurs c!", " a := by
  rintro ⟨x, y, rfl⟩; simp at ha

theorem noSep_selText {t : SelTxt} (ht : t.Valid) (hc : ∀ a, t.attr ≠ a ++ c!",") : ¬ Occurs c!", " t.text := by
  have hb := word_no (c := ' ') (by decide) ht.1
  have hv := word_no (c := ' ') (by decide) ht.2
  have e1 : t.text = t.attr ++ ' ' :: (c!"=" ++ ' ' :: (if t.quoted then c!"'" ++ t.val ++ c!"'" else t.val)) := by
    simp [SelTxt.text]
  rw [e1]
  intro h
  rcases occurs_blank hb h with ⟨a, ha⟩ | h
  · exact hc a ha
  · rcases occurs_blank (by decide) h with ⟨a, ha⟩ | h
    · cases a <;> simp at ha
    · refine no_occurs_blank ?_ h
      cases t.quoted <;> simp [hv]

/-- the pieces between the separators -/
theorem splitOn_intercalate (s : SelTxt) (ts : List SelTxt) (h : ∀ t ∈ s :: ts, ¬ Occurs c!", " t.text) :
    splitOn c!", " (c!", ".intercalate ((s :: ts).map SelTxt.text)) = (s :: ts).map SelTxt.text := by
  induction ts generalizing s with
  | nil =>
    have : c!", ".intercalate ([s].map SelTxt.text) = s.text := by simp [List.intercalate]
    rw [this, splitOn_none (h s (by simp))]; rfl
  | cons t ts ih =>
    have e : c!", ".intercalate ((s :: t :: ts).map SelTxt.text) = s.text ++ c!", " ++ c!", ".intercalate ((t :: ts).map SelTxt.text) := by
      simp [List.intercalate]
    rw [e, splitOn_first (c := ',') (sep' := c!" ") (by decide) _ _ (h s (by simp)), ih t (fun u hu => h u (by simp at hu ⊢; tauto))]
    rfl

theorem mapM_selText (ts : List SelTxt) (h : ∀ t ∈ ts, t.Valid) :
    (ts.map SelTxt.text).mapM Selector.generateFromStr = .ok (ts.map SelTxt.selector) := by
  induction ts with
  | nil => rfl
  | cons s l ih =>
    rw [List.map_cons, mapM_cons_eq, selText_read (h s (by simp)), ih (fun t ht => h t (by simp [ht]))]; rfl

theorem splitOn_ne_nil_head (sep s : Str) (fuel : Nat) (acc : Str) : splitOnAux sep fuel s acc ≠ [] := by
  induction fuel generalizing s acc with
  | zero => simp [splitOnAux]
  | succ n ih =>
    cases s with
    | nil => simp [splitOnAux]
    | cons c cs =>
      rw [splitOnAux]
      split
      · simp
      · exact ih _ _

/-- an attribute name that ends with a comma: some piece is no selector -/
theorem mapM_trap (ts : List SelTxt) (h : ∀ t ∈ ts, t.Valid) (hb : ∃ s ∈ ts, ∃ a, s.attr = a ++ c!",") :
    (splitOn c!", " (c!", ".intercalate (ts.map SelTxt.text))).mapM Selector.generateFromStr = .error .indexError := by
  induction ts with
  | nil => simp at hb
  | cons s ts ih =>
    by_cases hs : ∃ a, s.attr = a ++ c!","
    · obtain ⟨a, ha⟩ := hs
      have hblank := word_no (c := ' ') (by decide) (h s (by simp)).1
      have hna : ' ' ∉ a := by rw [ha] at hblank; simp at hblank; exact hblank
      obtain ⟨r, hr⟩ : ∃ r, c!", ".intercalate ((s :: ts).map SelTxt.text) = a ++ c!", " ++ r := by
        rw [List.map_cons, intercalate_cons]
        unfold SelTxt.text
        rw [ha]
        exact ⟨_, by simp; rfl⟩
      rw [hr, splitOn_first (c := ',') (sep' := c!" ") (by decide) _ _ (no_occurs_blank hna), mapM_cons_eq]
      have : Selector.generateFromStr a = .error .indexError := by
        unfold Selector.generateFromStr
        rw [splitFirst_none]
        intro c hc
        simp only [beq_eq_false_iff_ne, ne_eq]
        rintro rfl; exact hna hc
      rw [this]
    · obtain ⟨b, hbm, hb2⟩ := hb
      have hbt : b ∈ ts := by
        rcases List.mem_cons.1 hbm with rfl | h
        · exact absurd hb2 hs
        · exact h
      cases ts with
      | nil => cases hbt
      | cons t ts =>
        have e : c!", ".intercalate ((s :: t :: ts).map SelTxt.text) = s.text ++ c!", " ++ c!", ".intercalate ((t :: ts).map SelTxt.text) := by
          simp [List.intercalate]
        have hns : ¬ Occurs c!", " s.text := noSep_selText (h s (by simp)) (fun a ha => hs ⟨a, ha⟩)
        rw [e, splitOn_first (c := ',') (sep' := c!" ") (by decide) _ _ hns, mapM_cons_eq, selText_read (h s (by simp)),
          ih (fun u hu => h u (by simp at hu ⊢; tauto)) ⟨b, hbt, hb2⟩]

theorem subText_split {t : LineTxt} (ht : t.Valid) :
    splitOn c!", Target: " t.subText = [c!"Description: [" ++ c!", ".intercalate (t.sels.map SelTxt.text) ++ c!"]", t.target.text] := by
  have hcolon : ∀ x : Str, ':' ∉ x → ¬ Occurs c!", Target: " x := by
    rintro x hx ⟨a, b, rfl⟩; simp at hx
  have hi : ':' ∉ c!", ".intercalate (t.sels.map SelTxt.text) ++ c!"]" := by
    cases hts : t.sels with
    | nil => exact absurd hts ht.nonempty
    | cons a ts =>
      have hv := ht.sels
      rw [hts] at hv
      rw [List.map_cons, intercalate_cons]
      simp only [List.mem_append, not_or]
      refine ⟨⟨selText_no (by decide) (by decide) (by decide) (hv a (by simp)), ?_⟩, by decide⟩
      intro hm
      obtain ⟨x, hx, hcx⟩ := List.mem_flatten.1 hm
      obtain ⟨z, hz, rfl⟩ := List.mem_map.1 hx
      obtain ⟨w, hw, rfl⟩ := List.mem_map.1 hz
      rcases List.mem_append.1 hcx with h3 | h3
      · revert h3; decide
      · exact selText_no (by decide) (by decide) (by decide) (hv w (by simp [hw])) h3
  have hd : ¬ Occurs c!", Target: " (c!"Description: [" ++ c!", ".intercalate (t.sels.map SelTxt.text) ++ c!"]") := by
    rintro ⟨a, b, h⟩
    -- the colon of the separator is after the colon of `Description:`
    have h1 : c!"Description" ++ ':' :: (c!" [" ++ (c!", ".intercalate (t.sels.map SelTxt.text) ++ c!"]")) = (a ++ c!", Target") ++ ':' :: (c!" " ++ b) := by
      simpa using h
    by_cases ha : ':' ∈ a ++ c!", Target"
    · rcases List.append_eq_append_iff.1 h1 with ⟨w, e1, e2⟩ | ⟨w, e1, e2⟩
      · cases w with
        | nil => rw [e1] at ha; revert ha; decide
        | cons d w =>
          simp only [List.cons_append, List.cons.injEq] at e2
          have : ':' ∈ c!" [" ++ (c!", ".intercalate (t.sels.map SelTxt.text) ++ c!"]") := by
            have e3 : c!" [" ++ (c!", ".intercalate (t.sels.map SelTxt.text) ++ c!"]") = w ++ ':' :: ' ' :: b := e2.2
            rw [e3]; simp
          rcases List.mem_append.1 this with h2 | h2
          · revert h2; decide
          · exact hi h2
      · have : ':' ∈ c!"Description" := by rw [e1]; simp only [List.mem_append]; simp only [List.mem_append] at ha; tauto
        revert this; decide
    · obtain ⟨e1, -⟩ := cut_unique h1 (by decide) ha
      have e3 : (a ++ c!", Target").getLast? = some 't' := by simp
      rw [← e1] at e3
      revert e3; decide
  have e : t.subText = (c!"Description: [" ++ c!", ".intercalate (t.sels.map SelTxt.text) ++ c!"]") ++ c!", Target: " ++ t.target.text := by
    simp [LineTxt.subText]
  rw [e, splitOn_first (c := ',') (sep' := c!" Target: ") (by decide) _ _ hd,
    splitOn_none (hcolon _ (selText_no (by decide) (by decide) (by decide) ht.target))]

theorem bits_read (t : Str) : readBits t = t.map (fun c => decide (c = '1')) := by
  unfold readBits
  refine List.map_congr_left (fun c _ => ?_)
  by_cases h : c = '1' <;> simp [h]

theorem dropDescription (x : Str) : (c!"Description: [" ++ x ++ c!"]").drop 13 = '[' :: (x ++ c!"]") := by
  simp

theorem intercalate_ne_nil {t : LineTxt} (ht : t.Valid) : c!", ".intercalate (t.sels.map SelTxt.text) ≠ [] := by
  cases hts : t.sels with
  | nil => exact absurd hts ht.nonempty
  | cons a ts =>
    rw [List.map_cons, intercalate_cons]
    have := ht.sels a (by simp [hts])
    unfold SelTxt.text
    simp

theorem subText_generate {t : LineTxt} (ht : t.Valid) (hc : ∀ s ∈ t.sels, ∀ a, s.attr ≠ a ++ c!",") :
    Subgroup.generateFromStr t.subText = .ok t.cand.sub := by
  unfold Subgroup.generateFromStr
  rw [subText_split ht]
  simp only [selText_read ht.target, dropDescription]
  have hp : Pattern.generateFromStr ('[' :: (c!", ".intercalate (t.sels.map SelTxt.text) ++ c!"]")) = .ok (Pattern.new (t.sels.map SelTxt.selector)) := by
    unfold Pattern.generateFromStr
    have hne : '[' :: (c!", ".intercalate (t.sels.map SelTxt.text) ++ c!"]") ≠ c!"[]" := by
      intro h
      simp only [List.cons.injEq, true_and] at h
      exact intercalate_ne_nil ht (List.append_left_eq_self.1 h)
    rw [if_neg hne, List.tail_cons, List.dropLast_concat]
    have hs : splitOn c!", " (c!", ".intercalate (t.sels.map SelTxt.text)) = t.sels.map SelTxt.text := by
      cases hts : t.sels with
      | nil => exact absurd hts ht.nonempty
      | cons a ts =>
        refine splitOn_intercalate a ts ?_
        intro u hu
        rw [← hts] at hu
        exact noSep_selText (ht.sels u hu) (hc u hu)
    rw [hs, mapM_selText _ ht.sels]
  rw [hp]
  rfl

theorem subText_trap {t : LineTxt} (ht : t.Valid) (hb : ∃ s ∈ t.sels, ∃ a, s.attr = a ++ c!",") :
    Subgroup.generateFromStr t.subText = .error .indexError := by
  unfold Subgroup.generateFromStr
  rw [subText_split ht]
  simp only [selText_read ht.target, dropDescription]
  unfold Pattern.generateFromStr
  have hne : '[' :: (c!", ".intercalate (t.sels.map SelTxt.text) ++ c!"]") ≠ c!"[]" := by
    intro h
    simp only [List.cons.injEq, true_and] at h
    exact intercalate_ne_nil ht (List.append_left_eq_self.1 h)
  rw [if_neg hne, List.tail_cons, List.dropLast_concat, mapM_trap _ ht.sels hb]

/-! ### loading -/

theorem loadLine_trap {n k : Nat} {line : Str} (h : Trap line) : loadLine n k line = .error .indexError := by
  obtain ⟨t, ht, rfl, hb⟩ := h
  unfold loadLine
  rw [groups_valid ht]
  simp only [subText_trap ht hb]

theorem loadLine_ok {n k : Nat} {line : Str} (h : ¬ Trap line) :
    ∃ o, IsOutcome n line o ∧ loadLine n k line = .ok (o.cand?, o.report k) := by
  by_cases hv : ∃ t : LineTxt, t.Valid ∧ line = t.text
  · obtain ⟨t, ht, rfl⟩ := hv
    have hc : ∀ s ∈ t.sels, ∀ a, s.attr ≠ a ++ c!"," := fun s hs a ha => h ⟨t, ht, rfl, s, hs, a, ha⟩
    have key : loadLine n k t.text = (if t.pos.length ≠ n ∨ t.neg.length ≠ n then
        .ok (none, (if t.pos.length ≠ n then notLoaded k ++ c!"\t- The length of the positive bitarray is not equal to 'number_of_dataset_instances'.\n" else []) ++
          (if t.neg.length ≠ n then notLoaded k ++ c!"\t- The length of the negative bitarray is not equal to 'number_of_dataset_instances'.\n" else []))
        else .ok (some t.cand, [])) := by
      unfold loadLine
      rw [groups_valid ht]
      simp only [subText_generate ht hc]
      have e1 : (readBits t.pos).length = t.pos.length := by simp [readBits]
      have e2 : (readBits t.neg).length = t.neg.length := by simp [readBits]
      rw [e1, e2]
      have e3 : (⟨t.cand.sub, readBits t.pos, readBits t.neg⟩ : Cand) = t.cand := by
        unfold LineTxt.cand
        rw [bits_read, bits_read]
      rw [e3]
    rw [key]
    by_cases h1 : t.pos.length = n <;> by_cases h2 : t.neg.length = n
    · exact ⟨.loaded t.cand, ⟨t, ht, rfl, h1, h2, rfl⟩, by simp [h1, h2, Outcome.cand?, Outcome.report]⟩
    · exact ⟨.badLength false true, ⟨t, ht, rfl, by simp [h1], by simp [h2], rfl⟩, by simp [h1, h2, Outcome.cand?, Outcome.report, notLoaded]⟩
    · exact ⟨.badLength true false, ⟨t, ht, rfl, by simp [h1], by simp [h2], rfl⟩, by simp [h1, h2, Outcome.cand?, Outcome.report, notLoaded]⟩
    · exact ⟨.badLength true true, ⟨t, ht, rfl, by simp [h1], by simp [h2], rfl⟩, by simp [h1, h2, Outcome.cand?, Outcome.report, notLoaded]⟩
  · refine ⟨.badFormat, hv, ?_⟩
    unfold loadLine
    rw [groups_none hv]
    simp [Outcome.cand?, Outcome.report, notLoaded]

theorem loadLoop_ok {n : Nat} (lines : List Str) (h : ∀ l ∈ lines, ¬ Trap l) (st : LoadState) :
    ∃ os, List.Forall₂ (IsOutcome n) lines os ∧ loadLoop n lines st =
      .ok ⟨st.cands ++ os.filterMap Outcome.cand?, st.log ++ (os.mapIdx (fun i o => o.report (st.lineNumber + i))).flatten,
        st.lineNumber + lines.length, st.read + (os.filterMap Outcome.cand?).length⟩ := by
  induction lines generalizing st with
  | nil => exact ⟨[], .nil, by simp [loadLoop]⟩
  | cons l ls ih =>
    obtain ⟨o, h1, h2⟩ := loadLine_ok (n := n) (k := st.lineNumber) (h l (by simp))
    have key : ∀ st1 : LoadState, st1.lineNumber = st.lineNumber + 1 → ∃ os, List.Forall₂ (IsOutcome n) (l :: ls) (o :: os) ∧ loadLoop n ls st1 =
        .ok ⟨st1.cands ++ os.filterMap Outcome.cand?, st1.log ++ (os.mapIdx (fun i o => o.report (st.lineNumber + (i + 1)))).flatten,
        st.lineNumber + (ls.length + 1), st1.read + (os.filterMap Outcome.cand?).length⟩ := by
      intro st1 he
      obtain ⟨os, h3, h4⟩ := ih (fun x hx => h x (by simp [hx])) st1
      refine ⟨os, .cons h1 h3, ?_⟩
      rw [h4, he]
      simp only [Nat.add_assoc, Nat.add_comm 1]
    unfold loadLoop
    rw [h2]
    cases hc : o.cand? with
    | some c =>
      simp only
      obtain ⟨os, h3, h4⟩ := key ⟨st.cands ++ [c], st.log ++ o.report st.lineNumber, st.lineNumber + 1, st.read + 1⟩ rfl
      refine ⟨o :: os, h3, ?_⟩
      rw [h4]
      simp [hc, List.mapIdx_cons]; omega
    | none =>
      simp only
      obtain ⟨os, h3, h4⟩ := key ⟨st.cands, st.log ++ o.report st.lineNumber, st.lineNumber + 1, st.read⟩ rfl
      refine ⟨o :: os, h3, ?_⟩
      rw [h4]
      simp [hc, List.mapIdx_cons]

theorem loadLoop_trap {n : Nat} (lines : List Str) (h : ∃ l ∈ lines, Trap l) (st : LoadState) : loadLoop n lines st = .error .indexError := by
  induction lines generalizing st with
  | nil => simp at h
  | cons l ls ih =>
    unfold loadLoop
    by_cases hl : Trap l
    · rw [loadLine_trap hl]
    · obtain ⟨o, h1, h2⟩ := loadLine_ok (n := n) (k := st.lineNumber) hl
      have hls : ∃ x ∈ ls, Trap x := by
        obtain ⟨x, hx, ht⟩ := h
        rcases List.mem_cons.1 hx with rfl | hx
        · exact absurd ht hl
        · exact ⟨x, hx, ht⟩
      rw [h2]
      cases o.cand? with
      | some c => exact ih hls _
      | none => exact ih hls _

end Verif
