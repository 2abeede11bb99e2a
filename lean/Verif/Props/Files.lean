import Verif.Lemmas.Transform
import Verif.Props.VLSD
import Verif.Props.ListMiner
import Verif.Lemmas.IDSD
/-! Properties C49 (transformation of result files) and C61 (loading of candidates), and the way from VLSD to the subgroup lists. -/
namespace Verif
open Spec

/-! ## C49 -/

section
open Classical
/-- **C49.** For every input file: one output line per input line, in order, each one the subgroup text and the two bit texts of a result line
with bitsets or an error message with the number of the line; the two numbers returned count the lines of either kind. -/
theorem C49_transform (input : Str) :
    ∃ outs : List Str, (transformFile input).1 = fileText outs ∧ fileLines (transformFile input).1 = outs ∧
      outs.length = (fileLines input).length ∧
      (∀ (i : Nat) (line out : Str), (fileLines input)[i]? = some line → outs[i]? = some out → IsTransformed (i + 1) line out) ∧
      (transformFile input).2.1 = ((fileLines input).countP (fun l => decide (∃ sub pos neg, BitsetLine l sub pos neg)) : Nat) ∧
      (transformFile input).2.2 = ((fileLines input).countP (fun l => decide (¬ ∃ sub pos neg, BitsetLine l sub pos neg)) : Nat) := by
  have hl : ∀ l ∈ fileLines input, '\n' ∉ l := fun l h => fileLines_mem h
  obtain ⟨outs, h1, h2, h3⟩ := transformLoop_spec (fileLines input) hl [] 1 0
  have hout : ∀ o ∈ outs, OneLine o := by
    intro o ho
    obtain ⟨i, hi⟩ := List.mem_iff_getElem?.1 ho
    have hlt : i < (fileLines input).length := by
      rw [← h1]; exact (List.getElem?_eq_some_iff.1 hi).1
    rcases h2 i _ o (List.getElem?_eq_getElem hlt) hi with ⟨sub, pos, neg, hb, -, rfl⟩ | ⟨-, rfl⟩
    · obtain ⟨g1, g2, g3, r, g4, e⟩ := hb
      have := fileLines_one (List.getElem_mem hlt)
      rw [e] at this
      unfold OneLine at this ⊢
      simp only [List.mem_append, not_or] at this ⊢
      refine ⟨⟨⟨⟨⟨?_, by decide⟩, ?_⟩, by decide⟩, ?_⟩, ⟨⟨⟨?_, by decide⟩, ?_⟩, by decide⟩, ?_⟩ <;> tauto
    · unfold OneLine
      simp only [List.mem_append, not_or]
      have hd : ∀ n, '\n' ∉ natStr n ∧ '\r' ∉ natStr n := by
        intro n
        constructor
        all_goals
          intro h
          obtain ⟨d, hd, hx⟩ := natStr_digits _ _ h
          revert hx
        · have : ∀ d : Fin 10, '\n' ≠ digitChar d := by decide
          exact fun hx => this ⟨d, hd⟩ hx
        · have : ∀ d : Fin 10, '\r' ≠ digitChar d := by decide
          exact fun hx => this ⟨d, hd⟩ hx
      exact ⟨⟨⟨by decide, (hd _).1⟩, by decide⟩, ⟨by decide, (hd _).2⟩, by decide⟩
  have e : transformFile input = (fileText outs, ((1 + (fileLines input).length : Nat) : Int) - 1 - ((0 + (fileLines input).countP (fun l => (transformGroups l).isNone) : Nat) : Int),
      ((0 + (fileLines input).countP (fun l => (transformGroups l).isNone) : Nat) : Int)) := by
    unfold transformFile
    rw [h3]
    simp
  have hc : (fileLines input).countP (fun l => (transformGroups l).isNone) = (fileLines input).countP (fun l => decide (¬ ∃ sub pos neg, BitsetLine l sub pos neg)) := by
    refine List.countP_congr (fun l hm => ?_)
    rw [isNone_iff (hl l hm)]
    simp
  refine ⟨outs, by rw [e], ?_, h1, ?_, ?_, ?_⟩
  · rw [e]; exact fileLines_text outs hout
  · intro i line out hi ho
    have := h2 i line out hi ho
    rwa [Nat.add_comm] at this
  · rw [e, hc]
    simp only
    have h4 : (fileLines input).length = (fileLines input).countP (fun l => decide (∃ sub pos neg, BitsetLine l sub pos neg)) +
        (fileLines input).countP (fun l => decide (¬ ∃ sub pos neg, BitsetLine l sub pos neg)) := by
      rw [List.length_eq_countP_add_countP (fun l => decide (∃ sub pos neg, BitsetLine l sub pos neg))]
      congr 1
      refine List.countP_congr (fun l _ => ?_)
      simp
    omega
  · rw [e, hc]; simp
end

/-- **C49.** The bit texts of a transformed line are determined by the line and the subgroup text, and so is the subgroup text by the last separator: a line has
one transformed form only. -/
theorem C49_deterministic (k : Nat) (line out out' : Str) (h : IsTransformed k line out) (h' : IsTransformed k line out') : out = out' := by
  rcases h with ⟨s, p, n, h1, h2, rfl⟩ | ⟨h1, rfl⟩ <;> rcases h' with ⟨s', p', n', h1', h2', rfl⟩ | ⟨h1', rfl⟩
  · have hlen : s.length = s'.length := le_antisymm (h2' _ _ _ h1) (h2 _ _ _ h1')
    have hs : s = s' := by
      obtain ⟨-, -, -, r, -, e⟩ := h1
      obtain ⟨-, -, -, r', -, e'⟩ := h1'
      rw [e] at e'
      simp only [List.append_assoc] at e'
      exact (List.append_inj e' hlen).1
    rw [hs] at h1 ⊢
    obtain ⟨rfl, rfl⟩ := bitsetLine_bits h1 h1'
    rfl
  · exact absurd ⟨_, _, _, h1⟩ h1'
  · exact absurd ⟨_, _, _, h1'⟩ h1
  · rfl

/-- a text without semicolons and line ends -/
def Spec.PlainText (s : Str) : Prop := ';' ∉ s ∧ OneLine s

theorem digits_plain (n : Nat) : PlainText (natStr n) := by
  have key : ∀ c : Char, (∀ d : Fin 10, c ≠ digitChar d) → c ∉ natStr n := by
    intro c hc h
    obtain ⟨d, hd, hx⟩ := natStr_digits _ _ h
    exact hc ⟨d, hd⟩ hx
  exact ⟨key _ (by decide), key _ (by decide), key _ (by decide)⟩

theorem bitText_digit {b : Bits} (hb : b ≠ []) : DigitText (bitText b) := by
  refine ⟨by simpa [bitText] using hb, ?_⟩
  intro c hc
  obtain ⟨x, -, rfl⟩ := List.mem_map.1 hc
  cases x <;> simp

/-- what VLSD writes after `Quality Measure` -/
def vlineRest (mn en : Str) (fs : Rat → Str) (l : VLine Bits) : Str :=
  (c!" " ++ mn ++ c!" = " ++ fs l.quality ++ c!" ") ++ ';' :: ((c!" Optimistic Estimate " ++ en ++ c!" = " ++ fs l.estimate ++ c!" ") ++ ';' ::
    ((c!" tp = " ++ natStr l.tp ++ c!" ") ++ ';' :: ((c!" fp = " ++ natStr l.fp ++ c!" ") ++ ';' ::
      ((c!" TP = " ++ natStr l.TP ++ c!" ") ++ ';' :: (c!" FP = " ++ natStr l.FP)))))

set_option maxRecDepth 20000 in
theorem vline_groups (mn en : Str) (fs : Rat → Str) (hm : PlainText mn) (he : PlainText en) (hfs : ∀ q, PlainText (fs q)) (l : VLine Bits)
    (hsub : OneLine l.subgroup.str) (hp : l.tpSeq ≠ []) (hn : l.fpSeq ≠ []) :
    OneLine (l.text mn en fs) ∧ transformGroups (l.text mn en fs) = some (l.subgroup.str, bitText l.tpSeq, bitText l.fpSeq) := by
  have hdp := bitText_digit hp
  have hdn := bitText_digit hn
  have e : l.text mn en fs = l.subgroup.str ++ tpSep ++ bitText l.tpSeq ++ fpSep ++ bitText l.fpSeq ++ endSep ++ vlineRest mn en fs l := by
    unfold VLine.text bitarrayStr
    rw [if_neg hp, if_neg hn]
    simp [tpSep, fpSep, endSep, vlineRest]
  have hnl : OneLine (l.text mn en fs) := by
    have d1 := (digits_plain l.tp).2
    have d2 := (digits_plain l.fp).2
    have d3 := (digits_plain l.TP).2
    have d4 := (digits_plain l.FP).2
    have b1 : '\n' ∉ bitText l.tpSeq := digit_no (by decide) (by decide) hdp
    have b2 : '\n' ∉ bitText l.fpSeq := digit_no (by decide) (by decide) hdn
    have b3 : '\r' ∉ bitText l.tpSeq := digit_no (by decide) (by decide) hdp
    have b4 : '\r' ∉ bitText l.fpSeq := digit_no (by decide) (by decide) hdn
    rw [e]
    constructor
    · simp [tpSep, fpSep, endSep, vlineRest, hsub.1, d1.1, d2.1, d3.1, d4.1, b1, b2, hm.2.1, he.2.1, (hfs _).2.1]
    · simp [tpSep, fpSep, endSep, vlineRest, hsub.2, d1.2, d2.2, d3.2, d4.2, b3, b4, hm.2.2, he.2.2, (hfs _).2.2]
  refine ⟨hnl, transformGroups_exact hnl.1 hdp hdn ?_ ?_ e ?_⟩
  · simp [Subgroup.str]
  · simp [vlineRest]
  · intro h
    have h0 : (';' :: c!" Sequence of instances tp = bitarray('") <:+: vlineRest mn en fs l := h
    unfold vlineRest at h0
    have step : ∀ {A : Str} {c : Char} {B : Str}, ';' ∉ A → c ≠ 'S' →
        (';' :: c!" Sequence of instances tp = bitarray('") <:+: A ++ ';' :: (' ' :: c :: B) →
        (';' :: c!" Sequence of instances tp = bitarray('") <:+: (' ' :: c :: B) := by
      intro A c B hA hc hi
      rcases infix_semi hA hi with h | h
      · rw [List.cons_prefix_cons, List.cons_prefix_cons] at h
        exact absurd h.2.1.symm hc
      · exact h
    have d1 := (digits_plain l.tp).1
    have d2 := (digits_plain l.fp).1
    have d3 := (digits_plain l.TP).1
    have d4 := (digits_plain l.FP).1
    have h1 := step (by simp [hm.1, (hfs _).1]) (by decide) h0
    have h2 := step (A := c!" Optimistic Estimate " ++ en ++ c!" = " ++ fs l.estimate ++ c!" ") (c := 't') (by simp [he.1, (hfs _).1]) (by decide) h1
    have h3 := step (A := c!" tp = " ++ natStr l.tp ++ c!" ") (c := 'f') (by simp [d1]) (by decide) h2
    have h4 := step (A := c!" fp = " ++ natStr l.fp ++ c!" ") (c := 'T') (by simp [d2]) (by decide) h3
    have h5 := step (A := c!" TP = " ++ natStr l.TP ++ c!" ") (c := 'F') (by simp [d3]) (by decide) h4
    exact infix_no_semi (A := c!" FP = " ++ natStr l.FP) (by simp [d4]) h5

/-- **C49.** A file of VLSD with bitsets (whatever the descriptions are, as long as no text contains a line end, and the names and numbers
no semicolon) is transformed line by line without errors: subgroup, ` ; `, bits of the positives, ` ; `, bits of the negatives. -/
theorem C49_vlsd (mn en : Str) (fs : Rat → Str) (hm : PlainText mn) (he : PlainText en) (hfs : ∀ q, PlainText (fs q)) (ls : List (VLine Bits))
    (hsub : ∀ l ∈ ls, OneLine l.subgroup.str) (hp : ∀ l ∈ ls, l.tpSeq ≠ [] ∧ l.fpSeq ≠ []) :
    transformFile (fileText (ls.map (VLine.text mn en fs))) =
      (fileText (ls.map (fun l => l.subgroup.str ++ c!" ; " ++ bitText l.tpSeq ++ c!" ; " ++ bitText l.fpSeq)), (ls.length : Int), 0) := by
  have hg := fun l hl => vline_groups mn en fs hm he hfs l (hsub l hl) (hp l hl).1 (hp l hl).2
  unfold transformFile
  rw [fileLines_text _ (by
    intro x hx
    obtain ⟨l, hl, rfl⟩ := List.mem_map.1 hx
    exact (hg l hl).1)]
  have key : ∀ (ls : List (VLine Bits)) (out : Str) (k e : Nat), (∀ l ∈ ls, transformGroups (l.text mn en fs) = some (l.subgroup.str, bitText l.tpSeq, bitText l.fpSeq)) →
      transformLoop (ls.map (VLine.text mn en fs)) out k e =
        (out ++ fileText (ls.map (fun l => l.subgroup.str ++ c!" ; " ++ bitText l.tpSeq ++ c!" ; " ++ bitText l.fpSeq)), k + ls.length, e) := by
    intro ls
    induction ls with
    | nil => intro out k e _; simp [transformLoop, fileText]
    | cons l ls ih =>
      intro out k e h
      rw [List.map_cons, transformLoop, h l (by simp)]
      simp only
      rw [ih _ _ _ (fun x hx => h x (by simp [hx]))]
      simp [fileText]; omega
  rw [key ls [] 1 0 (fun l hl => (hg l hl).2)]
  simp

/-- **C49.** Lines without bitsets (the other algorithms, or VLSD with sets) give errors only. -/
theorem C49_without_bitsets (input : Str) (h : ∀ l ∈ fileLines input, ¬ tpSep <:+: l) :
    (transformFile input).2 = (0, ((fileLines input).length : Int)) := by
  obtain ⟨outs, -, -, -, -, h1, h2⟩ := C49_transform input
  have hno : ∀ l ∈ fileLines input, ¬ ∃ sub pos neg, BitsetLine l sub pos neg := by
    rintro l hl ⟨sub, pos, neg, -, -, -, r, -, e⟩
    exact h l hl ⟨sub, pos ++ fpSep ++ neg ++ endSep ++ r, by rw [e]; simp⟩
  refine Prod.ext ?_ ?_
  · rw [h1, List.countP_eq_zero.2 (fun l hl => by simpa using hno l hl)]; rfl
  · rw [h2, List.countP_eq_length.2 (fun l hl => by simpa using hno l hl)]

/-- **C49.** The way the lines of a file are ended does not matter, neither for the transformation nor for the loading of candidates (C61): line feeds, carriage returns and both, mixed, and
with or without the last one. -/
theorem C49_newlines (n : Nat) (ls : List Str) (s : Str) (h : WrittenLines ls s) (ho : ∀ l ∈ ls, OneLine l) :
    transformFile s = transformFile (fileText ls) ∧ loadCandidates n s = loadCandidates n (fileText ls) := by
  have e : fileLines s = fileLines (fileText ls) := by rw [fileLines_written h ho, fileLines_text ls ho]
  unfold transformFile loadCandidates
  rw [e]
  exact ⟨rfl, rfl⟩

example : WrittenLines [c!"a", [], c!"b"] c!"a\r\n\rb" ∧ ∀ l ∈ [c!"a", [], c!"b"], OneLine l := by
  refine ⟨.dos c!"a" _ c!"\rb" (.mac [] _ c!"b" (.last c!"b" (by decide)) (fun t => by simp)), by unfold OneLine; decide⟩

set_option maxRecDepth 20000 in
/-- **C49**, without the condition on line ends it fails: a value with a carriage return splits the line of VLSD in two, and the subgroup is lost -/
theorem C49_line_end_fails : ∃ l : VLine Bits, '\n' ∉ l.text c!"WRAcc" c!"OE" (fun _ => c!"0.5") ∧ l.tpSeq ≠ [] ∧ l.fpSeq ≠ [] ∧
    (transformFile (fileText [l.text c!"WRAcc" c!"OE" (fun _ => c!"0.5")])).2 ≠ (1, 0) := by
  refine ⟨⟨⟨Pattern.new [⟨c!"a", .equal, .str c!"x\ry"⟩], ⟨c!"t", .equal, .str c!"y"⟩⟩, [true, false], [false, true], 0, 0, 1, 1, 1, 1⟩, by decide +kernel, by decide, by decide, ?_⟩
  decide +kernel

/-! ## C61 -/

/-- **C61.** Loading, for every file in which no line of the right format has an attribute name that ends with a comma: every line is loaded (in order) or
reported with its number and its defects; the number of candidates is reported. -/
theorem C61_load (n : Nat) (input : Str) (h : ∀ l ∈ fileLines input, ¬ Trap l) :
    ∃ os : List Outcome, List.Forall₂ (IsOutcome n) (fileLines input) os ∧
      loadCandidates n input = .ok (os.filterMap Outcome.cand?,
        c!"Reading input file.\n" ++ (os.mapIdx (fun i o => o.report (i + 1))).flatten ++
          c!"Read subgroups: " ++ natStr (os.filterMap Outcome.cand?).length ++ c!".\nInput file read.\n\n\n") := by
  obtain ⟨os, h1, h2⟩ := loadLoop_ok (n := n) (fileLines input) h ⟨[], c!"Reading input file.\n", 1, 0⟩
  refine ⟨os, h1, ?_⟩
  unfold loadCandidates
  rw [h2]
  simp [Nat.add_comm 1]

/-- **C61.** Otherwise loading raises `IndexError`, whatever the other lines are. -/
theorem C61_trap (n : Nat) (input : Str) (h : ∃ l ∈ fileLines input, Trap l) : loadCandidates n input = .error .indexError := by
  unfold loadCandidates
  rw [loadLoop_trap _ h]

/-- **C61.** What a line means is determined by the line: it has at most one outcome. -/
theorem C61_deterministic (n : Nat) (line : Str) (hl : ¬ Trap line) (o o' : Outcome) (h : IsOutcome n line o) (h' : IsOutcome n line o') : o = o' := by
  have hu : ∀ {t u : LineTxt}, t.Valid → u.Valid → line = t.text → line = u.text → t.cand = u.cand ∧ t.pos = u.pos ∧ t.neg = u.neg := by
    intro t u ht hu e e'
    obtain ⟨h1, h2, h3⟩ := input_parts_unique ht hu (e.symm.trans e')
    have c1 := subText_generate ht (fun s hs a ha => hl ⟨t, ht, e, s, hs, a, ha⟩)
    have c2 := subText_generate hu (fun s hs a ha => hl ⟨u, hu, e', s, hs, a, ha⟩)
    rw [h1, c2] at c1
    simp only [Except.ok.injEq] at c1
    refine ⟨?_, h2, h3⟩
    have e1 : t.cand = ⟨t.cand.sub, t.pos.map (· = '1'), t.neg.map (· = '1')⟩ := rfl
    have e2 : u.cand = ⟨u.cand.sub, u.pos.map (· = '1'), u.neg.map (· = '1')⟩ := rfl
    rw [e1, e2, c1, h2, h3]
  cases o with
  | loaded c =>
    obtain ⟨t, ht, e, l1, l2, rfl⟩ := h
    cases o' with
    | loaded c' =>
      obtain ⟨u, hu', e', l1', l2', rfl⟩ := h'
      rw [(hu ht hu' e e').1]
    | badFormat => exact absurd ⟨t, ht, e⟩ h'
    | badLength p q =>
      obtain ⟨u, hu', e', b1, b2, b3⟩ := h'
      obtain ⟨-, h2, h3⟩ := hu ht hu' e e'
      rw [← h2] at b1; rw [← h3] at b2
      rcases Bool.or_eq_true _ _ ▸ b3 with hb | hb
      · exact absurd l1 (b1.2 hb)
      · exact absurd l2 (b2.2 hb)
  | badFormat =>
    cases o' with
    | badFormat => rfl
    | loaded c => obtain ⟨t, ht, e, -⟩ := h'; exact absurd ⟨t, ht, e⟩ h
    | badLength p q => obtain ⟨t, ht, e, -⟩ := h'; exact absurd ⟨t, ht, e⟩ h
  | badLength p q =>
    obtain ⟨u, hu', e', b1, b2, b3⟩ := h
    cases o' with
    | badFormat => exact absurd ⟨u, hu', e'⟩ h'
    | loaded c =>
      obtain ⟨t, ht, e, l1, l2, rfl⟩ := h'
      obtain ⟨-, h2, h3⟩ := hu ht hu' e e'
      rw [← h2] at b1; rw [← h3] at b2
      rcases Bool.or_eq_true _ _ ▸ b3 with hb | hb
      · exact absurd l1 (b1.2 hb)
      · exact absurd l2 (b2.2 hb)
    | badLength p' q' =>
      obtain ⟨t, ht, e, c1, c2, c3⟩ := h'
      obtain ⟨-, h2, h3⟩ := hu ht hu' e e'
      rw [← h2] at b1; rw [← h3] at b2
      have hp : p = p' := by rw [Bool.eq_iff_iff, ← b1, ← c1]
      have hq : q = q' := by rw [Bool.eq_iff_iff, ← b2, ← c2]
      rw [hp, hq]

/-- **C61.** Every candidate loaded has one bit per row in both bitarrays. -/
theorem C61_lengths (n : Nat) (input : Str) (cs : List Cand) (log : Str) (h : loadCandidates n input = .ok (cs, log)) :
    ∀ c ∈ cs, c.pos.length = n ∧ c.neg.length = n := by
  by_cases ht : ∃ l ∈ fileLines input, Trap l
  · rw [C61_trap n input ht] at h; cases h
  · push Not at ht
    obtain ⟨os, h1, h2⟩ := C61_load n input ht
    rw [h2] at h
    simp only [Except.ok.injEq, Prod.mk.injEq] at h
    rw [← h.1]
    intro c hc
    obtain ⟨o, ho, hoc⟩ := List.mem_filterMap.1 hc
    cases o with
    | loaded c' =>
      simp only [Outcome.cand?, Option.some.injEq] at hoc
      subst hoc
      obtain ⟨i, hi⟩ := List.mem_iff_getElem?.1 ho
      have hlen := h1.length_eq
      have hlt : i < (fileLines input).length := by rw [hlen]; exact (List.getElem?_eq_some_iff.1 hi).1
      have := List.forall₂_iff_get.1 h1
      have hg := this.2 i hlt (by omega)
      rw [List.get_eq_getElem, List.get_eq_getElem] at hg
      rw [List.getElem?_eq_some_iff] at hi
      obtain ⟨_, hi⟩ := hi
      rw [hi] at hg
      obtain ⟨t, -, -, l1, l2, rfl⟩ := hg
      simp [LineTxt.cand, l1, l2]
    | badFormat => cases hoc
    | badLength p q => cases hoc

/-- **C61.** The condition is needed: an attribute may be called `a,`, VLSD writes it, the format admits it, and loading fails. -/
theorem C61_comma_fails : ∃ input, (fileLines input).length = 1 ∧ loadCandidates 2 input = .error .indexError := by
  refine ⟨fileText [(⟨[⟨c!"a,", c!"x", true⟩], ⟨c!"t", c!"y", true⟩, c!"10", c!"01"⟩ : LineTxt).text], by decide +kernel, C61_trap _ _ ?_⟩
  rw [fileLines_text _ (by unfold OneLine; decide +kernel)]
  refine ⟨_, List.mem_singleton.2 rfl, _, ⟨by simp, ?_, ⟨?_, ?_⟩, ?_, ?_⟩, rfl, _, List.mem_singleton.2 rfl, c!"a", rfl⟩
  · intro s hs
    rw [List.mem_singleton.1 hs]
    exact ⟨⟨by decide, by decide +kernel⟩, ⟨by decide, by decide +kernel⟩⟩
  all_goals exact ⟨by decide, by decide +kernel⟩

deriving instance DecidableEq for Cand

/-- a file with a line that is loaded, one with too few bits, and one of another format -/
example : loadCandidates 2 (c!"Description: [b = 'x', a = 2], Target: t = 'y' ; 10 ; 01\n" ++
    c!"Description: [a = 'x'], Target: t = 'y' ; 1 ; 01\nno\n") = .ok
    ([⟨⟨⟨[⟨c!"a", .equal, .int 2⟩, ⟨c!"b", .equal, .str c!"x"⟩]⟩, ⟨c!"t", .equal, .str c!"y"⟩⟩, [true, false], [false, true]⟩],
      c!"Reading input file.\nERROR: subgroup in line 2 from input file was not loaded.\n\t- The length of the positive bitarray " ++
      c!"is not equal to 'number_of_dataset_instances'.\nERROR: subgroup in line 3 from input file was not loaded.\n\t- Format not valid.\n" ++
      c!"Read subgroups: 1.\nInput file read.\n\n\n") := by decide +kernel

/-! ## from VLSD to the subgroup lists -/

theorem bitText_map (b : Bits) : (bitText b).map (fun c => decide (c = '1')) = b := by
  unfold bitText
  rw [List.map_map]
  conv_rhs => rw [← List.map_id b]
  refine List.map_congr_left (fun x _ => ?_)
  cases x <;> decide

/-- the printed form of a description of texts -/
theorem str_intercalate (s : Selector) (rest : List Selector) :
    Pattern.strLoop (s :: rest) = c!", ".intercalate ((s :: rest).map Selector.str) ++ c!"]" := by
  induction rest generalizing s with
  | nil => simp [Pattern.strLoop, List.intercalate]
  | cons t rest ih =>
    rw [Pattern.strLoop, ih t]
    simp [List.intercalate]

/-- what the line of a description of texts looks like -/
def lineTxtOf (target : Str × Str) (X : List Selector) (P N : Bits) : LineTxt :=
  ⟨X.map (fun s => ⟨s.attr, match s.val with | .str v => v | _ => [], true⟩), ⟨target.1, target.2, true⟩, bitText P, bitText N⟩

theorem lineTxtOf_text {target : Str × Str} {X : List Selector} (hX : Describes target X) (P N : Bits) :
    (⟨⟨X⟩, targetSel target⟩ : Subgroup).str ++ c!" ; " ++ bitText P ++ c!" ; " ++ bitText N = (lineTxtOf target X P N).text := by
  have hsel : ∀ s ∈ X, (⟨s.attr, match s.val with | .str v => v | _ => [], true⟩ : SelTxt).text = s.str := by
    intro s hs
    obtain ⟨-, h1, v, h2⟩ := hX.2 s hs
    simp [SelTxt.text, Selector.str, h1, h2, Op.str, Selector.valText]
  have hmap : (lineTxtOf target X P N).sels.map SelTxt.text = X.map Selector.str := by
    unfold lineTxtOf
    simp only [List.map_map]
    exact List.map_congr_left (fun s hs => hsel s hs)
  unfold LineTxt.text LineTxt.subText
  rw [hmap]
  have ht : (lineTxtOf target X P N).target.text = (targetSel target).str := by
    simp [lineTxtOf, SelTxt.text, targetSel, Selector.str, Op.str, Selector.valText]
  rw [ht]
  unfold Subgroup.str Pattern.str
  obtain ⟨s, rest, rfl⟩ := List.exists_cons_of_ne_nil hX.1
  simp [str_intercalate, lineTxtOf]

theorem lineTxtOf_cand {target : Str × Str} {X : List Selector} (hX : Describes target X) (hs : X.Pairwise (fun a b => a.lt b = true)) (P N : Bits) :
    (lineTxtOf target X P N).cand = ⟨⟨⟨X⟩, targetSel target⟩, P, N⟩ := by
  have hmap : (lineTxtOf target X P N).sels.map SelTxt.selector = X := by
    unfold lineTxtOf
    simp only [List.map_map]
    conv_rhs => rw [← List.map_id X]
    refine List.map_congr_left (fun s hs => ?_)
    obtain ⟨-, h1, v, h2⟩ := hX.2 s hs
    obtain ⟨a, o, w⟩ := s
    simp only at h1 h2
    subst h1 h2
    rfl
  unfold LineTxt.cand
  rw [hmap]
  have hnew : Pattern.new X = ⟨X⟩ := by
    have ht := textEq_of_describes hX
    have h1 := IDSD.new_sels_eq (p := ⟨X⟩) ht ((sorted_iff_lt ht).1 hs) (fun s => Iff.rfl)
    rw [← h1]
  rw [hnew]
  have e1 : (lineTxtOf target X P N).pos.map (fun c => decide (c = '1')) = P := bitText_map P
  have e2 : (lineTxtOf target X P N).neg.map (fun c => decide (c = '1')) = N := bitText_map N
  rw [e1, e2]
  rfl

theorem lineTxtOf_valid {df : Frame} {target : Str × Str} (hf : NominalFrame df target) (hw : WordFrame df target) {X : List Selector}
    (hX : Describes target X) (ho : OccursIn df X) {P N : Bits} (hP : P ≠ []) (hN : N ≠ []) :
    (lineTxtOf target X P N).Valid ∧ ∀ s ∈ (lineTxtOf target X P N).sels, ∀ a, s.attr ≠ a ++ c!"," := by
  obtain ⟨i, -, hc⟩ := ho
  have hsel : ∀ s ∈ X, WordText s.attr ∧ (∀ a, s.attr ≠ a ++ c!",") ∧ ∃ v, s.val = .str v ∧ WordText v := by
    intro s hs
    obtain ⟨h0, h1, v, h2⟩ := hX.2 s hs
    obtain ⟨col, w, e1, e2, e3⟩ := hc s hs
    have hmem : (s.attr, col) ∈ df.cols := mem_of_lookup e1
    refine ⟨hw.names _ hmem, hw.comma _ hmem h0, v, h2, ?_⟩
    have hwm : w ∈ col := List.mem_of_getElem? e2
    obtain ⟨u, rfl⟩ := hf.texts _ hmem w hwm
    rw [h1, h2] at e3
    simp only [Op.evaluate, Val.eq, Except.ok.injEq] at e3
    have : u = v := by simpa using e3
    rw [← this]
    exact hw.values _ hmem u hwm
  refine ⟨⟨?_, ?_, ?_, bitText_digit hP, bitText_digit hN⟩, ?_⟩
  · simpa [lineTxtOf] using hX.1
  · intro t ht
    obtain ⟨s, hs, rfl⟩ := List.mem_map.1 ht
    obtain ⟨g1, -, v, g2, g3⟩ := hsel s hs
    exact ⟨g1, by simp only [g2]; exact g3⟩
  · obtain ⟨c, hc, he⟩ := List.mem_map.1 hf.target
    refine ⟨?_, hw.target⟩
    have := hw.names c hc
    rw [he] at this
    exact this
  · intro t ht
    obtain ⟨s, hs, rfl⟩ := List.mem_map.1 ht
    exact (hsel s hs).2.1

/-- **C29.** The bitarrays in the file of VLSD have one bit per row. -/
theorem C29_bitset_lengths (measure : Params → Except PyErr Rat) (minQ : Rat) (estimate : Params → Except PyErr Rat) (minE : Rat) (x xo : Params)
    (s1 s2 : SortCriterion) (he : LookupOnly estimate) (df : Frame) (target : Str × Str) (hf : NominalFrame df target)
    (st st' : VLState Bits)
    (h : (VLSDConfig.new measure minQ estimate minE x xo s1 s2).fit .bitsets st df target = .ok st') :
    ∀ l ∈ st'.file, l.tpSeq.length = df.nrows ∧ l.fpSeq.length = df.nrows := by
  obtain ⟨calls, hr⟩ := vlsd_run lawsBits (fun s i => s.get i = true ∨ s.length ≠ df.nrows)
    (fun s A hd i => by rw [← hd.2 i]; simp [hd.1]) (cfgOK_new measure minQ estimate minE x xo s1 s2 he) hf h
  intro l hl
  obtain ⟨X, e⟩ := hr.lines l hl
  constructor
  · by_contra hne
    have := (e.tpRows df.nrows).1 (.inr hne)
    omega
  · by_contra hne
    have := (e.fpRows df.nrows).1 (.inr hne)
    omega

/-- **C61.** The way from VLSD to the candidates: on word-like data the file that VLSD writes with bitsets is transformed without errors, and loading the
transformed file gives exactly the subgroups and bitarrays that VLSD found, in the same order, without error reports. -/
theorem C61_from_vlsd (measure : Params → Except PyErr Rat) (minQ : Rat) (estimate : Params → Except PyErr Rat) (minE : Rat) (x xo : Params)
    (s1 s2 : SortCriterion) (he : LookupOnly estimate) (df : Frame) (target : Str × Str) (hf : NominalFrame df target) (hw : WordFrame df target)
    (st st' : VLState Bits) (h : (VLSDConfig.new measure minQ estimate minE x xo s1 s2).fit .bitsets st df target = .ok st')
    (mn en : Str) (fs : Rat → Str) (hmn : PlainText mn) (hen : PlainText en) (hfs : ∀ q, PlainText (fs q)) :
    (transformFile (fileText (st'.file.map (VLine.text mn en fs)))).2 = ((st'.file.length : Int), 0) ∧
    loadCandidates df.nrows (transformFile (fileText (st'.file.map (VLine.text mn en fs)))).1 =
      .ok (st'.file.map (fun l => ⟨l.subgroup, l.tpSeq, l.fpSeq⟩),
        c!"Reading input file.\nRead subgroups: " ++ natStr st'.file.length ++ c!".\nInput file read.\n\n\n") := by
  obtain ⟨calls, hr⟩ := C29_bitsets measure minQ estimate minE x xo s1 s2 he df target hf st st' h
  have hlen := C29_bitset_lengths measure minQ estimate minE x xo s1 s2 he df target hf st st' h
  -- every line is a line of the input format
  have hline : ∀ l ∈ st'.file, ∃ t : LineTxt, t.Valid ∧ (∀ s ∈ t.sels, ∀ a, s.attr ≠ a ++ c!",") ∧
      l.subgroup.str ++ c!" ; " ++ bitText l.tpSeq ++ c!" ; " ++ bitText l.fpSeq = t.text ∧ t.pos.length = df.nrows ∧ t.neg.length = df.nrows ∧
      t.cand = ⟨l.subgroup, l.tpSeq, l.fpSeq⟩ ∧ l.subgroup.str = t.subText ∧ l.tpSeq ≠ [] ∧ l.fpSeq ≠ [] := by
    intro l hl
    obtain ⟨X, e⟩ := hr.lines l hl
    have hn : 0 < df.nrows := by
      obtain ⟨i, hi, -⟩ := e.occurs
      omega
    have hP : l.tpSeq ≠ [] := by
      intro h0; have := (hlen l hl).1; rw [h0] at this; simp at this; omega
    have hN : l.fpSeq ≠ [] := by
      intro h0; have := (hlen l hl).2; rw [h0] at this; simp at this; omega
    obtain ⟨v1, v2⟩ := lineTxtOf_valid hf hw e.describes e.occurs hP hN
    have ht := lineTxtOf_text e.describes l.tpSeq l.fpSeq
    refine ⟨_, v1, v2, ?_, ?_, ?_, ?_, ?_, hP, hN⟩
    · rw [e.subgroup]; exact ht
    · simp [lineTxtOf, bitText, (hlen l hl).1]
    · simp [lineTxtOf, bitText, (hlen l hl).2]
    · rw [lineTxtOf_cand e.describes e.sorted, e.subgroup]
    · rw [e.subgroup]
      unfold LineTxt.text at ht
      have e1 : (lineTxtOf target X l.tpSeq l.fpSeq).pos = bitText l.tpSeq := rfl
      have e2 : (lineTxtOf target X l.tpSeq l.fpSeq).neg = bitText l.fpSeq := rfl
      rw [e1, e2] at ht
      simp only [List.append_assoc] at ht
      exact List.append_cancel_right ht
  have hnl : ∀ l ∈ st'.file, OneLine l.subgroup.str := by
    intro l hl
    obtain ⟨t, v, -, -, -, -, -, e, -⟩ := hline l hl
    rw [e]
    exact ⟨subText_no (by decide) (by decide) v, subText_no (by decide) (by decide) v⟩
  have htr := C49_vlsd mn en fs hmn hen hfs st'.file hnl (fun l hl => by
    obtain ⟨t, -, -, -, -, -, -, -, g⟩ := hline l hl
    exact g)
  rw [htr]
  refine ⟨rfl, ?_⟩
  have hlines : fileLines (fileText (st'.file.map (fun l => l.subgroup.str ++ c!" ; " ++ bitText l.tpSeq ++ c!" ; " ++ bitText l.fpSeq))) =
      st'.file.map (fun l => l.subgroup.str ++ c!" ; " ++ bitText l.tpSeq ++ c!" ; " ++ bitText l.fpSeq) := by
    refine fileLines_text _ ?_
    intro y hy
    obtain ⟨l, hl, rfl⟩ := List.mem_map.1 hy
    obtain ⟨t, v, -, -, -, -, -, -, g⟩ := hline l hl
    have b1 : '\n' ∉ bitText l.tpSeq := digit_no (by decide) (by decide) (bitText_digit g.1)
    have b2 : '\n' ∉ bitText l.fpSeq := digit_no (by decide) (by decide) (bitText_digit g.2)
    have b3 : '\r' ∉ bitText l.tpSeq := digit_no (by decide) (by decide) (bitText_digit g.1)
    have b4 : '\r' ∉ bitText l.fpSeq := digit_no (by decide) (by decide) (bitText_digit g.2)
    constructor
    · simp [(hnl l hl).1, b1, b2]
    · simp [(hnl l hl).2, b3, b4]
  have key : ∀ (ls : List (VLine Bits)) (st0 : LoadState), (∀ l ∈ ls, l ∈ st'.file) →
      loadLoop df.nrows (ls.map (fun l => l.subgroup.str ++ c!" ; " ++ bitText l.tpSeq ++ c!" ; " ++ bitText l.fpSeq)) st0 =
        .ok ⟨st0.cands ++ ls.map (fun l => ⟨l.subgroup, l.tpSeq, l.fpSeq⟩), st0.log, st0.lineNumber + ls.length, st0.read + ls.length⟩ := by
    intro ls
    induction ls with
    | nil => intro st0 _; simp [loadLoop]
    | cons l ls ih =>
      intro st0 hm
      obtain ⟨t, v, hc, e, l1, l2, hcand, -⟩ := hline l (hm l (by simp))
      have hnt : ¬ Trap t.text := by
        rintro ⟨u, hu, e', s, hs, a, ha⟩
        have g1 := subText_generate v hc
        rw [(input_parts_unique v hu e').1, subText_trap hu ⟨s, hs, a, ha⟩] at g1
        cases g1
      obtain ⟨o, ho, hload⟩ := loadLine_ok (n := df.nrows) (k := st0.lineNumber) hnt
      have : o = .loaded t.cand := C61_deterministic df.nrows t.text hnt o _ ho ⟨t, v, rfl, l1, l2, rfl⟩
      rw [List.map_cons, loadLoop, e, hload, this]
      simp only [Outcome.cand?, Outcome.report]
      rw [ih _ (fun l' hl' => hm l' (by simp [hl'])), hcand]
      simp; omega
  unfold loadCandidates
  simp only
  rw [hlines, key st'.file ⟨[], c!"Reading input file.\n", 1, 0⟩ (fun l hl => hl)]
  simp

/-- **C61.** So the subgroup-list algorithms work on what VLSD found (at most 64 columns, so that the logarithm of the number of attribute combinations
is computed): all three return. -/
theorem C61_from_vlsd_to_lists (measure : Params → Except PyErr Rat) (minQ : Rat) (estimate : Params → Except PyErr Rat) (minE : Rat) (x xo : Params)
    (s1 s2 : SortCriterion) (he : LookupOnly estimate) (df : Frame) (target : Str × Str) (hf : NominalFrame df target) (hw : WordFrame df target)
    (hrows : df.nrows ≠ 0) (hcols : df.cols.length ≤ 64)
    (st st' : VLState Bits) (h : (VLSDConfig.new measure minQ estimate minE x xo s1 s2).fit .bitsets st df target = .ok st')
    (mn en : Str) (fs : Rat → Str) (hmn : PlainText mn) (hen : PlainText en) (hfs : ∀ q, PlainText (fs q))
    (beta : ℝ) (size maxSl : Nat) (maxPos maxNeg : ℝ) :
    ∃ cs log, loadCandidates df.nrows (transformFile (fileText (st'.file.map (VLine.text mn en fs)))).1 = .ok (cs, log) ∧
      (∃ res, listFit (gmsl df beta) maxSl df target (.ok cs) = .ok res) ∧
      (∃ res, listFit (psld df beta size) maxSl df target (.ok cs) = .ok res) ∧
      (∃ res, listFit (dslm df beta size maxPos maxNeg) maxSl df target (.ok cs) = .ok res) := by
  refine ⟨_, _, (C61_from_vlsd measure minQ estimate minE x xo s1 s2 he df target hf hw st st' h mn en fs hmn hen hfs).2, ?_⟩
  refine C40_total hf hrows beta size maxSl maxPos maxNeg _ ?_
  intro c hc
  obtain ⟨l, hl, rfl⟩ := List.mem_map.1 hc
  obtain ⟨calls, hr⟩ := C29_bitsets measure minQ estimate minE x xo s1 s2 he df target hf st st' h
  have hlen := C29_bitset_lengths measure minQ estimate minE x xo s1 s2 he df target hf st st' h l hl
  obtain ⟨X, e⟩ := hr.lines l hl
  refine ⟨hlen.1, hlen.2, ?_, ?_⟩
  · intro s hs
    rw [e.subgroup] at hs
    obtain ⟨i, -, hc⟩ := e.occurs
    obtain ⟨col, w, e1, -⟩ := hc s hs
    exact List.mem_map_of_mem (f := (·.1)) (mem_of_lookup e1)
  · calc (df.cols.length - 1).choose _ ≤ 2 ^ (df.cols.length - 1) := Nat.choose_le_two_pow _ _
      _ < 2 ^ 64 := Nat.pow_lt_pow_right (by decide) (by omega)

/-- the hypotheses hold for a concrete data set, on which VLSD finds three subgroups; the first line it writes -/
example : NominalFrame demoFrame (c!"t", c!"yes") ∧ WordFrame demoFrame (c!"t", c!"yes") ∧ LookupOnly Measure.wraccOE1.compute ∧
    ∃ st' : VLState Bits, (vlCfg (1/100) 0).fit .bitsets freshVL demoFrame (c!"t", c!"yes") = .ok st' ∧ st'.file.length = 3 ∧
      (st'.file.map (VLine.text c!"WRAcc" c!"WRAccOptimisticEstimate1" (fun _ => c!"0.125")))[0]? =
        some (c!"Description: [a = 'y'], Target: t = 'yes' ; Sequence of instances tp = bitarray('0010') ; Sequence of instances fp = bitarray('0000') ; " ++
          c!"Quality Measure WRAcc = 0.125 ; Optimistic Estimate WRAccOptimisticEstimate1 = 0.125 ; tp = 1 ; fp = 0 ; TP = 2 ; FP = 2") := by
  have hf : NominalFrame demoFrame (c!"t", c!"yes") := by
    refine ⟨?_, by decide +kernel, ?_, by decide +kernel⟩
    · intro c hc; simp [demoFrame] at hc; rcases hc with rfl | rfl | rfl <;> rfl
    · intro c hc; simp [demoFrame] at hc
      rcases hc with rfl | rfl | rfl <;> simp
  have hw : ∀ s ∈ [c!"a", c!"b", c!"t", c!"x", c!"y", c!"p", c!"q", c!"yes", c!"no"], WordText s ∧ ∀ a, s ≠ a ++ c!"," := by
    intro s hs
    refine ⟨?_, ?_⟩
    · unfold WordText
      revert s; decide +kernel
    · rintro a rfl
      have : ∀ s ∈ [c!"a", c!"b", c!"t", c!"x", c!"y", c!"p", c!"q", c!"yes", c!"no"], s.getLast? ≠ some ',' := by decide
      exact this _ hs (by simp)
  refine ⟨hf, ⟨?_, ?_, ?_, (hw _ (by decide)).1⟩, lookupOnly_measure _, ?_⟩
  · intro c hc; simp [demoFrame] at hc
    rcases hc with rfl | rfl | rfl <;> exact (hw _ (by decide)).1
  · intro c hc _; simp [demoFrame] at hc
    rcases hc with rfl | rfl | rfl <;> exact (hw _ (by decide)).2
  · intro c hc v hv; simp [demoFrame] at hc
    have : ∀ v, Val.str v ∈ demoFrame.cols.flatMap (·.2) → v ∈ [c!"a", c!"b", c!"t", c!"x", c!"y", c!"p", c!"q", c!"yes", c!"no"] := by
      intro v hv; simp [demoFrame] at hv ⊢; tauto
    refine (hw v (this v ?_)).1
    rcases hc with rfl | rfl | rfl <;> simp [demoFrame] at hv ⊢ <;> tauto
  · have key : (match (vlCfg (1/100) 0).fit .bitsets freshVL demoFrame (c!"t", c!"yes") with
        | .ok st => some (st.file.length, (st.file.map (VLine.text c!"WRAcc" c!"WRAccOptimisticEstimate1" (fun _ => c!"0.125")))[0]?)
        | .error _ => none) = some (3, some (c!"Description: [a = 'y'], Target: t = 'yes' ; Sequence of instances tp = bitarray('0010') ; Sequence of instances fp = bitarray('0000') ; " ++
          c!"Quality Measure WRAcc = 0.125 ; Optimistic Estimate WRAccOptimisticEstimate1 = 0.125 ; tp = 1 ; fp = 0 ; TP = 2 ; FP = 2")) := by decide +kernel
    split at key
    · rename_i st h
      simp only [Option.some.injEq, Prod.mk.injEq] at key
      exact ⟨st, h, key.1, key.2⟩
    · cases key

end Verif
