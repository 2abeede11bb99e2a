import Verif.Lemmas.Files
/-! Lemmas on the transformation of result files. -/
namespace Verif
open Spec Rgx

theorem lang_any (s : Str) : Lang (plus any) s ↔ s ≠ [] ∧ '\n' ∉ s := by
  unfold any
  rw [lang_plus_cls]
  simp only [decide_eq_true_eq]
  constructor
  · rintro ⟨h1, h2⟩; exact ⟨h1, fun h => h2 _ h rfl⟩
  · rintro ⟨h1, h2⟩; exact ⟨h1, fun c hc h => h2 (h ▸ hc)⟩

theorem decomp_transform {line : Str} (hl : '\n' ∉ line) (parts : List Str) : Decomp transformRegex parts line ↔
    ∃ sub pos neg rest, DigitText pos ∧ DigitText neg ∧ sub ≠ [] ∧ rest ≠ [] ∧
      line = sub ++ tpSep ++ pos ++ fpSep ++ neg ++ endSep ++ rest ∧ parts = [sub, tpSep, pos, fpSep, neg, endSep ++ rest] := by
  unfold transformRegex Decomp
  constructor
  · rintro ⟨h, rfl⟩
    cases h with | cons h1 h =>
    cases h with | cons h2 h =>
    cases h with | cons h3 h =>
    cases h with | cons h4 h =>
    cases h with | cons h5 h =>
    cases h with | cons h6 h =>
    cases h
    rw [lang_lit] at h2 h4
    rw [lang_bits] at h3 h5
    rw [lang_any] at h1
    rw [lang_seq_lit] at h6
    obtain ⟨rest, rfl, h7⟩ := h6
    rw [lang_any] at h7
    subst h2 h4
    exact ⟨_, _, _, rest, h3, h5, h1.1, h7.1, by simp [tpSep, fpSep, endSep], rfl⟩
  · rintro ⟨sub, pos, neg, rest, h1, h2, h3, h4, rfl, rfl⟩
    simp only [List.mem_append, not_or] at hl
    refine ⟨.cons ((lang_any _).2 ⟨h3, by tauto⟩) (.cons ((lang_lit _ _).2 rfl) (.cons ((lang_bits _).2 h1) (.cons ((lang_lit _ _).2 rfl)
      (.cons ((lang_bits _).2 h2) (.cons ((lang_seq_lit _ _ _).2 ⟨rest, rfl, (lang_any _).2 ⟨h4, by tauto⟩⟩) .nil))))), ?_⟩
    simp

theorem bitsetLine_iff {line : Str} (hl : '\n' ∉ line) (sub pos neg : Str) : BitsetLine line sub pos neg ↔
    ∃ rest, Decomp transformRegex [sub, tpSep, pos, fpSep, neg, endSep ++ rest] line := by
  constructor
  · rintro ⟨h1, h2, h3, rest, h4, h5⟩
    exact ⟨rest, (decomp_transform hl _).2 ⟨sub, pos, neg, rest, h1, h2, h3, h4, h5, rfl⟩⟩
  · rintro ⟨rest, h⟩
    obtain ⟨s, p, n, r, h1, h2, h3, h4, h5, h6⟩ := (decomp_transform hl _).1 h
    simp only [List.cons.injEq, List.append_cancel_left_eq, and_true, true_and] at h6
    obtain ⟨rfl, rfl, rfl, rfl⟩ := h6
    exact ⟨h1, h2, h3, rest, h4, h5⟩

theorem transformGroups_some {line sub pos neg : Str} (hl : '\n' ∉ line) (h : transformGroups line = some (sub, pos, neg)) :
    BitsetLine line sub pos neg ∧ LastSplit line sub := by
  unfold transformGroups at h
  cases hf : fullmatch transformRegex line with
  | none => rw [hf] at h; cases h
  | some parts =>
    obtain ⟨s, p, n, r, h1, h2, h3, h4, h5, rfl⟩ := (decomp_transform hl _).1 (fullmatch_sound hf)
    rw [hf] at h
    simp only [Option.some.injEq, Prod.mk.injEq] at h
    obtain ⟨rfl, rfl, rfl⟩ := h
    refine ⟨⟨h1, h2, h3, r, h4, h5⟩, ?_⟩
    intro s' p' n' h'
    obtain ⟨r', hd⟩ := (bitsetLine_iff hl _ _ _).1 h'
    exact fullmatch_longest hf hd

theorem transformGroups_none {line : Str} (hl : '\n' ∉ line) (h : transformGroups line = none) : ¬ ∃ sub pos neg, BitsetLine line sub pos neg := by
  rintro ⟨sub, pos, neg, hr⟩
  obtain ⟨rest, hd⟩ := (bitsetLine_iff hl _ _ _).1 hr
  obtain ⟨parts, hp⟩ := fullmatch_complete hd
  obtain ⟨s, p, n, r, h1, h2, h3, h4, h5, rfl⟩ := (decomp_transform hl _).1 (fullmatch_sound hp)
  unfold transformGroups at h
  rw [hp] at h
  cases h

/-- the loop: one output line per input line -/
theorem transformLoop_spec (lines : List Str) (hl : ∀ l ∈ lines, '\n' ∉ l) (out : Str) (k e : Nat) :
    ∃ outs : List Str, outs.length = lines.length ∧ (∀ (i : Nat) (line o : Str), lines[i]? = some line → outs[i]? = some o → IsTransformed (k + i) line o) ∧
      transformLoop lines out k e = (out ++ fileText outs, k + lines.length, e + (lines.countP (fun l => (transformGroups l).isNone))) := by
  induction lines generalizing out k e with
  | nil => exact ⟨[], rfl, by simp, by simp [transformLoop, fileText]⟩
  | cons l ls ih =>
    have hcons : ∀ (o : Str) (outs : List Str), IsTransformed k l o →
        (∀ (i : Nat) (line o : Str), ls[i]? = some line → outs[i]? = some o → IsTransformed (k + 1 + i) line o) →
        ∀ (i : Nat) (line o' : Str), (l :: ls)[i]? = some line → (o :: outs)[i]? = some o' → IsTransformed (k + i) line o' := by
      intro o outs h1 h2 i line o' hi ho
      cases i with
      | zero => simp at hi ho; rw [← hi, ← ho]; exact h1
      | succ i => simp at hi ho; have := h2 i line o' hi ho; rwa [Nat.add_assoc, Nat.add_comm 1] at this
    unfold transformLoop
    cases hg : transformGroups l with
    | some g =>
      obtain ⟨sub, pos, neg⟩ := g
      simp only
      obtain ⟨outs, h1, h2, h3⟩ := ih (fun x hx => hl x (by simp [hx])) (out ++ (sub ++ c!" ; " ++ pos ++ c!" ; " ++ neg ++ c!"\n")) (k + 1) e
      refine ⟨(sub ++ c!" ; " ++ pos ++ c!" ; " ++ neg) :: outs, by simp [h1], hcons _ _ ?_ h2, ?_⟩
      · obtain ⟨g1, g2⟩ := transformGroups_some (hl l (by simp)) hg
        exact .inl ⟨sub, pos, neg, g1, g2, rfl⟩
      · rw [h3, List.countP_cons, hg]
        simp [fileText]; omega
    | none =>
      simp only
      obtain ⟨outs, h1, h2, h3⟩ := ih (fun x hx => hl x (by simp [hx]))
        (out ++ (c!"ERROR: subgroup in line " ++ natStr k ++ c!" was not correctly read.\n")) (k + 1) (e + 1)
      refine ⟨(c!"ERROR: subgroup in line " ++ natStr k ++ c!" was not correctly read.") :: outs, by simp [h1], hcons _ _ ?_ h2, ?_⟩
      · exact .inr ⟨transformGroups_none (hl l (by simp)) hg, rfl⟩
      · rw [h3, List.countP_cons, hg]
        simp [fileText]; omega

theorem isNone_iff {line : Str} (hl : '\n' ∉ line) : (transformGroups line).isNone = true ↔ ¬ ∃ sub pos neg, BitsetLine line sub pos neg := by
  rw [Option.isNone_iff_eq_none]
  constructor
  · exact transformGroups_none hl
  · intro h
    cases hg : transformGroups line with
    | none => rfl
    | some g => exact absurd ⟨_, _, _, (transformGroups_some hl hg).1⟩ h

/-- the two bit texts are determined by the subgroup text -/
theorem bitsetLine_bits {line sub pos neg pos' neg' : Str} (h : BitsetLine line sub pos neg) (h' : BitsetLine line sub pos' neg') :
    pos = pos' ∧ neg = neg' := by
  obtain ⟨h1, h2, -, r, -, e⟩ := h
  obtain ⟨h1', h2', -, r', -, e'⟩ := h'
  rw [e] at e'
  have hd : ∀ {s : Str}, DigitText s → '\'' ∉ s := fun hs => digit_no (by decide) (by decide) hs
  simp only [List.append_assoc, List.append_cancel_left_eq] at e'
  obtain ⟨g1, g2⟩ := cut_unique (c := '\'') e' (hd h1) (hd h1')
  have g3 : neg ++ (endSep ++ r) = neg' ++ (endSep ++ r') := by simpa using g2
  obtain ⟨g4, -⟩ := cut_unique (c := '\'') g3 (hd h2) (hd h2')
  exact ⟨g1, g4⟩

/-! ### the lines of VLSD -/

/-- `;` followed by `u` in a text cut at its first `;` -/
theorem infix_semi {u A B : Str} (hA : ';' ∉ A) (h : (';' :: u) <:+: A ++ ';' :: B) : u <+: B ∨ (';' :: u) <:+: B := by
  induction A with
  | nil =>
    rw [List.nil_append, List.infix_cons_iff] at h
    rcases h with h | h
    · rw [List.cons_prefix_cons] at h; exact .inl h.2
    · exact .inr h
  | cons a A ih =>
    rw [List.cons_append, List.infix_cons_iff] at h
    rcases h with h | h
    · rw [List.cons_prefix_cons] at h
      rw [← h.1] at hA
      simp at hA
    · exact ih (by simp at hA; exact hA.2) h

theorem infix_no_semi {u A : Str} (hA : ';' ∉ A) : ¬ (';' :: u) <:+: A := by
  rintro ⟨x, y, rfl⟩; simp at hA

/-- exactness: the only way to read a result line with a longer subgroup text is a later separator -/
theorem transformGroups_exact {line sub pos neg : Str} (hl : '\n' ∉ line) (h1 : DigitText pos) (h2 : DigitText neg) (h3 : sub ≠ []) {rest : Str} (h4 : rest ≠ [])
    (e : line = sub ++ tpSep ++ pos ++ fpSep ++ neg ++ endSep ++ rest)
    (hno : ¬ c!"; Sequence of instances tp = bitarray('" <:+: rest) : transformGroups line = some (sub, pos, neg) := by
  have hr : BitsetLine line sub pos neg := ⟨h1, h2, h3, rest, h4, e⟩
  cases hg : transformGroups line with
  | none => exact absurd ⟨_, _, _, hr⟩ (transformGroups_none hl hg)
  | some g =>
    obtain ⟨sub', pos', neg'⟩ := g
    obtain ⟨hr', hlast⟩ := transformGroups_some hl hg
    have hle := hlast sub pos neg hr
    have hsub : sub' = sub := by
      obtain ⟨g1, g2, g3, rest', g4, e'⟩ := hr'
      have e0 := e
      rw [e'] at e
      simp only [List.append_assoc] at e
      rcases List.append_eq_append_iff.1 e with ⟨w, e1, e2⟩ | ⟨w, e1, e2⟩
      · have hw : w = [] := by
          rw [e1] at hle
          simp at hle
          exact hle
        rw [hw] at e1; simpa using e1.symm
      · cases w with
        | nil => simpa using e1
        | cons d w =>
          exfalso
          -- the separator occurs later
          simp only [tpSep, List.cons_append, List.cons.injEq] at e2
          obtain ⟨-, e2⟩ := e2
          have hinf : c!" ; Sequence of instances tp = bitarray('" <:+: c!"; Sequence of instances tp = bitarray('" ++ (pos ++ (fpSep ++ (neg ++ (endSep ++ rest)))) := by
            refine ⟨w, pos' ++ (fpSep ++ (neg' ++ (endSep ++ rest'))), ?_⟩
            have e5 : c!"; Sequence of instances tp = bitarray('" ++ (pos ++ (fpSep ++ (neg ++ (endSep ++ rest)))) =
              w ++ (c!" ; Sequence of instances tp = bitarray('" ++ (pos' ++ (fpSep ++ (neg' ++ (endSep ++ rest'))))) := e2
            rw [e5, List.append_assoc]
          have hd : ∀ {s : Str}, DigitText s → ';' ∉ s := fun hs => digit_no (by decide) (by decide) hs
          -- the first character of the separator is a blank
          have hinf2 : c!"; Sequence of instances tp = bitarray('" <:+: c!" Sequence of instances tp = bitarray('" ++ (pos ++ (fpSep ++ (neg ++ (endSep ++ rest)))) := by
            have h0 : c!" ; Sequence of instances tp = bitarray('" <:+: ';' :: (c!" Sequence of instances tp = bitarray('" ++ (pos ++ (fpSep ++ (neg ++ (endSep ++ rest))))) := hinf
            rw [List.infix_cons_iff] at h0
            rcases h0 with h0 | h0
            · rw [List.cons_prefix_cons] at h0; exact absurd h0.1 (by decide)
            · exact List.IsInfix.trans ⟨c!" ", [], by simp⟩ h0
          have e6 : c!" Sequence of instances tp = bitarray('" ++ (pos ++ (fpSep ++ (neg ++ (endSep ++ rest)))) =
              (c!" Sequence of instances tp = bitarray('" ++ pos ++ c!"') ") ++ ';' ::
                ((c!" Sequence of instances fp = bitarray('" ++ neg ++ c!"') ") ++ ';' :: (c!" Quality Measure" ++ rest)) := by
            simp [fpSep, endSep]
          rw [e6] at hinf2
          rcases infix_semi (by simp [hd h1]) hinf2 with h5 | h5
          · simp only [List.cons_append, List.append_assoc, List.cons_prefix_cons] at h5
            revert h5
            simp
          · rcases infix_semi (by simp [hd h2]) h5 with h5 | h5
            · simp only [List.cons_append, List.cons_prefix_cons] at h5
              revert h5
              simp
            · have : c!"; Sequence of instances tp = bitarray('" <:+: rest := by
                have h6 : c!"; Sequence of instances tp = bitarray('" <:+: c!" Quality Measure" ++ rest := h5
                clear h5 hinf hinf2 e6 e2 e
                simp only [List.cons_append, List.nil_append, List.infix_cons_iff, List.cons_prefix_cons] at h6
                revert h6
                simp
              exact hno this
    rw [hsub] at hr' ⊢
    obtain ⟨g1, g2⟩ := bitsetLine_bits hr hr'
    rw [g1, g2]

end Verif
