import Verif.Model.ListFile
import Verif.Spec.ListFile
import Verif.Props.Files
/-! C66, C67: the printed form of subgroup lists and the output files of GMSL, PSLD and DSLM. -/
namespace Verif
open Spec

theorem pos_ones {D dflt : Bits} {pos orig : List Bits} (h : ClassInv D dflt pos orig) {k : Nat} (hk : k < orig.length) :
    (pos.getD k []).ones = newRows D (orig.getD k []) (orig.take k) := by
  unfold newRows
  apply Bits.ones_eq_length
  · exact List.nodup_range.filter _
  · intro i
    have hk' : k < pos.length := by rw [h.lenP]; exact hk
    rw [List.mem_filter, List.mem_range, h.hpos k i hk']
    simp only [Bool.and_eq_true, List.all_eq_true, Bool.not_eq_true']
    unfold Positional
    constructor
    · rintro ⟨-, ⟨h1, h2⟩, h3⟩
      refine ⟨h1, h2, fun j hj => h3 _ ?_⟩
      rw [List.getD_eq_getElem?_getD, List.getElem?_eq_getElem (by omega), Option.getD_some]
      exact List.mem_take_iff_getElem.2 ⟨j, by omega, rfl⟩
    · rintro ⟨h1, h2, h3⟩
      refine ⟨?_, ⟨h1, h2⟩, fun e he => ?_⟩
      · by_contra hc
        rw [Bits.get_ge _ _ (by omega)] at h1; cases h1
      · obtain ⟨j, hj, rfl⟩ := List.mem_take_iff_getElem.1 he
        have := h3 j (by omega)
        rwa [List.getD_eq_getElem?_getD, List.getElem?_eq_getElem (by omega)] at this

theorem def_ones {D dflt : Bits} {pos orig : List Bits} (h : ClassInv D dflt pos orig) : dflt.ones = restRows D orig := by
  unfold restRows
  apply Bits.ones_eq_length
  · exact List.nodup_range.filter _
  · intro i
    rw [List.mem_filter, List.mem_range, h.hdef i]
    simp only [Bool.and_eq_true, List.all_eq_true, Bool.not_eq_true']
    unfold Default
    constructor
    · rintro ⟨-, h1, h3⟩
      refine ⟨h1, fun j hj => h3 _ ?_⟩
      rw [List.getD_eq_getElem?_getD, List.getElem?_eq_getElem hj]
      exact List.getElem_mem hj
    · rintro ⟨h1, h3⟩
      refine ⟨?_, h1, fun e he => ?_⟩
      · by_contra hc
        rw [Bits.get_ge _ _ (by omega)] at h1; cases h1
      · obtain ⟨j, hj, rfl⟩ := List.getElem_of_mem he
        have := h3 j hj
        rwa [List.getD_eq_getElem?_getD, List.getElem?_eq_getElem hj] at this

theorem fileText_append (a b : List Str) : fileText (a ++ b) = fileText a ++ fileText b := by simp [fileText]

theorem fileText_cons (a : Str) (l : List Str) : fileText (a :: l) = a ++ c!"\n" ++ fileText l := by simp [fileText]
theorem fileText_nil : fileText [] = [] := rfl

theorem entries_text {P N : Bits} (f : Nat → Str) : ∀ (rest pre : List Cand),
    (∀ (k : Nat) (c : Cand), rest[k]? = some c → f (pre.length + k) = fileText (entryLines (pre.length + k + 1) (entryOfCand P N (pre ++ rest.take k) c))) →
    ((List.range rest.length).map (pre.length + ·)).flatMap f = fileText (entriesLines (pre.length + 1) (entriesOfCands P N pre rest)) := by
  intro rest
  induction rest with
  | nil => intro pre _; rfl
  | cons c rest ih =>
    intro pre h
    rw [List.length_cons, List.range_succ_eq_map, List.map_cons, List.flatMap_cons, entriesOfCands, entriesLines, fileText_append]
    congr 1
    · have := h 0 c rfl
      simpa using this
    · have := ih (pre ++ [c]) (by
        intro k d hk
        have := h (k + 1) d (by simpa using hk)
        rw [List.length_append, List.length_singleton]
        rw [show pre.length + 1 + k = pre.length + (k + 1) by omega, this]
        simp)
      rw [List.length_append, List.length_singleton] at this
      rw [← this, List.map_map]
      congr 1
      apply List.map_congr_left
      intro k _
      simp only [Function.comp]
      omega

theorem natStr_one : natStr 1 = c!"1" := by decide +kernel

set_option maxRecDepth 20000 in
/-- the printed form of a list that satisfies the invariant -/
theorem str_of_inv {P N : Bits} {es : List Cand} {l : SubgroupList} (hP : ClassInv P l.defPos l.pos (es.map (·.pos)))
    (hN : ClassInv N l.defNeg l.neg (es.map (·.neg))) (hs : l.subs = es.map (·.sub)) (oP : l.origPos = es.map (·.pos)) (oN : l.origNeg = es.map (·.neg)) :
    l.str = fileText (candLines P N es) := by
  have hk : l.subs.length = es.length := by rw [hs, List.length_map]
  have hent : (List.range l.subs.length).flatMap l.entryText = fileText (entriesLines 1 (entriesOfCands P N [] es)) := by
    rw [hk]
    have := entries_text (P := P) (N := N) l.entryText es [] (by
      intro k c hc
      have hlt : k < es.length := (List.getElem?_eq_some_iff.1 hc).1
      have e1 := pos_ones hP (k := k) (by rw [List.length_map]; exact hlt)
      have e2 := pos_ones hN (k := k) (by rw [List.length_map]; exact hlt)
      have d1 : (es.map (·.pos)).getD k [] = c.pos := by rw [List.getD_eq_getElem?_getD, List.getElem?_map, hc]; rfl
      have d2 : (es.map (·.neg)).getD k [] = c.neg := by rw [List.getD_eq_getElem?_getD, List.getElem?_map, hc]; rfl
      have d3 : l.subs[k]? = some c.sub := by rw [hs, List.getElem?_map, hc]; rfl
      rw [d1, ← List.map_take] at e1
      rw [d2, ← List.map_take] at e2
      simp only [List.length_nil, Nat.zero_add, List.nil_append]
      unfold SubgroupList.entryText
      rw [oP, oN, d1, d2, d3, e1, e2]
      simp only [entryLines, entryOfCand, newPos, newNeg, fileText_cons, fileText_nil, List.append_nil, List.append_assoc]
      rfl)
    simpa using this
  unfold SubgroupList.str
  simp only
  rw [hent, def_ones hP, def_ones hN]
  have hlen : (entriesOfCands P N [] es).length = es.length := by
    have : ∀ (cs pre : List Cand), (entriesOfCands P N pre cs).length = cs.length := by
      intro cs
      induction cs with
      | nil => intro _; rfl
      | cons c cs ih => intro pre; simp [entriesOfCands, ih]
    exact this es []
  unfold candLines listLines
  rw [hk, hlen]
  by_cases h1 : es.length = 1
  · rw [if_pos h1, if_pos h1, h1, natStr_one]
    simp only [fileText_append, fileText_cons, fileText_nil, List.append_nil, List.append_assoc]
    rfl
  · rw [if_neg h1, if_neg h1]
    simp only [fileText_append, fileText_cons, fileText_nil, List.append_nil, List.append_assoc]
    rfl

/-- the contents of a list after a history of calls (the abstract stack of C21) -/
def stackCands (rows : Nat) (ops : List SLOp) : List Cand := (slStack rows ops).map (fun t => ⟨t.1, t.2.1, t.2.2⟩)

/-- **C66.** After any history of `add_subgroup` and `delete_last_subgroup` on a new list, the printed form has the lines of the specification: for each subgroup its text,
the rows of each class that it covers and no earlier subgroup does, the rows of each class that it covers; and the rows of each class that none covers. -/
theorem C66_text (P N : Bits) (ops : List SLOp) (l0 : SubgroupList) (h0 : SubgroupList.new P N P.length = .ok l0) :
    (l0.run ops).str = fileText (candLines P N (stackCands P.length ops)) := by
  have h := built_inv h0 (run_built h0 ops)
  obtain ⟨-, -, h3, h4, h5, h6, h7⟩ := h
  rw [h4] at h6
  rw [h5] at h7
  apply str_of_inv
  · simpa [stackCands, Function.comp_def] using h6
  · simpa [stackCands, Function.comp_def] using h7
  · simpa [stackCands, Function.comp_def] using h3
  · simpa [stackCands, Function.comp_def] using h4
  · simpa [stackCands, Function.comp_def] using h5

theorem restRows_nil (D : Bits) : restRows D [] = D.ones := by
  symm
  unfold restRows
  apply Bits.ones_eq_length _ _ (List.nodup_range.filter _)
  intro i
  rw [List.mem_filter, List.mem_range]
  simp only [List.all_nil, Bool.and_true]
  refine ⟨fun h => h.2, fun h => ⟨?_, h⟩⟩
  by_contra hc
  rw [Bits.get_ge _ _ (by omega)] at h; cases h

theorem restRows_step (D b : Bits) (pre : List Bits) : restRows D pre = newRows D b pre + restRows D (pre ++ [b]) := by
  unfold restRows newRows
  generalize List.range D.length = l
  induction l with
  | nil => rfl
  | cons i l ih =>
    simp only [List.filter_cons, List.all_append, List.all_cons, List.all_nil, Bool.and_true] at ih ⊢
    generalize D.get i = x
    generalize b.get i = y
    generalize pre.all (fun e => !e.get i) = z
    cases x <;> cases y <;> cases z <;> simp only [Bool.and_false, Bool.and_true, Bool.and_self, Bool.not_true, Bool.not_false, Bool.false_eq_true, if_false, if_true,
      List.length_cons] <;> omega

/-- **C66.** What is printed adds up: over the subgroups (at their positions) and the default rule, the positives are all the positives of the data, and the negatives
all the negatives. -/
theorem C66_sums (P N : Bits) (cs : List Cand) :
    ((entriesOfCands P N [] cs).map (·.pos)).sum + restRows P (cs.map (·.pos)) = P.ones ∧
    ((entriesOfCands P N [] cs).map (·.neg)).sum + restRows N (cs.map (·.neg)) = N.ones := by
  have key : ∀ (cs pre : List Cand),
      ((entriesOfCands P N pre cs).map (·.pos)).sum + restRows P ((pre ++ cs).map (·.pos)) = restRows P (pre.map (·.pos)) ∧
      ((entriesOfCands P N pre cs).map (·.neg)).sum + restRows N ((pre ++ cs).map (·.neg)) = restRows N (pre.map (·.neg)) := by
    intro cs
    induction cs with
    | nil => intro pre; simp [entriesOfCands]
    | cons c cs ih =>
      intro pre
      have := ih (pre ++ [c])
      rw [List.append_assoc, List.singleton_append] at this
      have h1 := restRows_step P c.pos (pre.map (·.pos))
      have h2 := restRows_step N c.neg (pre.map (·.neg))
      simp only [entriesOfCands, List.map_cons, List.sum_cons, entryOfCand, newPos, newNeg]
      simp only [List.map_append, List.map_cons, List.map_nil] at this ⊢
      omega
  have := key cs []
  rw [List.nil_append, List.map_nil, List.map_nil, restRows_nil, restRows_nil] at this
  exact this

theorem natStr_inj {a b : Nat} (h : natStr a = natStr b) : a = b := by
  have := parseNat_natStr a
  rw [h, parseNat_natStr] at this
  simpa using this.symm

theorem entryLines_length (k : Nat) (e : ListEntry) : (entryLines k e).length = 9 := rfl

theorem entriesLines_length : ∀ (es : List ListEntry) (k : Nat), (entriesLines k es).length = 9 * es.length := by
  intro es
  induction es with
  | nil => intro k; rfl
  | cons e es ih => intro k; rw [entriesLines, List.length_append, ih, entryLines_length, List.length_cons]; omega

theorem entryLines_inj {k : Nat} {e e' : ListEntry} (h : entryLines k e = entryLines k e') : e = e' := by
  unfold entryLines at h
  simp only [List.cons.injEq, List.append_assoc, List.append_cancel_left_eq, and_true, true_and] at h
  obtain ⟨h1, h2, h3, -, h5, h6, -⟩ := h
  cases e; cases e'
  simp only [ListEntry.mk.injEq]
  exact ⟨h1, natStr_inj h2, natStr_inj h3, natStr_inj h5, natStr_inj h6⟩

theorem entriesLines_inj : ∀ (es es' : List ListEntry) (k : Nat), entriesLines k es = entriesLines k es' → es = es' := by
  intro es
  induction es with
  | nil =>
    intro es' k h
    have := congrArg List.length h
    rw [entriesLines_length, entriesLines_length] at this
    simp at this
    exact this.symm
  | cons e es ih =>
    intro es' k h
    cases es' with
    | nil =>
      have := congrArg List.length h
      rw [entriesLines_length, entriesLines_length] at this
      simp at this
    | cons e' es' =>
      rw [entriesLines, entriesLines] at h
      obtain ⟨h1, h2⟩ := List.append_inj h (by rw [entryLines_length, entryLines_length])
      rw [entryLines_inj h1, ih es' _ h2]

theorem listLines_inj {es es' : List ListEntry} {dp dn dp' dn' : Nat} (h : listLines es dp dn = listLines es' dp' dn') :
    es = es' ∧ dp = dp' ∧ dn = dn' := by
  have hl := congrArg List.length h
  unfold listLines at hl h
  simp only [List.length_append, List.length_cons, List.length_nil, entriesLines_length] at hl
  obtain ⟨h1, h2⟩ := List.append_inj h (by simp only [List.length_append, List.length_cons, List.length_nil, entriesLines_length]; omega)
  obtain ⟨-, h3⟩ := List.append_inj h1 rfl
  simp only [List.cons.injEq, List.append_cancel_left_eq, and_true, true_and] at h2
  exact ⟨entriesLines_inj _ _ _ h3, natStr_inj h2.1, natStr_inj h2.2.1⟩

theorem natStr_no_nl (n : Nat) : '\n' ∉ natStr n := by
  intro h
  have := natStr_digits n _ h
  unfold IsDigit at this
  revert this
  decide

theorem listLines_no_nl {es : List ListEntry} (h : ∀ e ∈ es, '\n' ∉ e.text) (dp dn : Nat) : ∀ l ∈ listLines es dp dn, '\n' ∉ l := by
  have hE : ∀ (es : List ListEntry) (k : Nat), (∀ e ∈ es, '\n' ∉ e.text) → ∀ l ∈ entriesLines k es, '\n' ∉ l := by
    intro es
    induction es with
    | nil => intro k _ l hl; simp [entriesLines] at hl
    | cons e es ih =>
      intro k h l hl
      rw [entriesLines, List.mem_append] at hl
      rcases hl with hl | hl
      · unfold entryLines at hl
        simp only [List.mem_cons, List.not_mem_nil, or_false] at hl
        have := h e (by simp)
        rcases hl with rfl | rfl | rfl | rfl | rfl | rfl | rfl | rfl | rfl <;>
          first | decide | simp only [List.mem_append, not_or]
        · exact ⟨⟨⟨by decide, natStr_no_nl _⟩, by decide⟩, this⟩
        all_goals exact ⟨by decide, natStr_no_nl _⟩
      · exact ih _ (fun e he => h e (by simp [he])) l hl
  intro l hl
  unfold listLines at hl
  rw [List.mem_append, List.mem_append] at hl
  rcases hl with (hl | hl) | hl
  · rw [List.mem_singleton] at hl
    subst hl
    simp only [List.mem_append, not_or]
    refine ⟨⟨by decide, natStr_no_nl _⟩, ?_⟩
    split <;> decide
  · exact hE es 1 h l hl
  · simp only [List.mem_cons, List.not_mem_nil, or_false] at hl
    rcases hl with rfl | rfl | rfl | rfl <;> first | decide | simp only [List.mem_append, not_or]
    all_goals exact ⟨by decide, natStr_no_nl _⟩

/-- **C66.** The printed form can be read back: lists that print the same (texts of subgroups without line ends) have the same subgroup texts, and the same numbers of rows
for each subgroup and for the default rule. -/
theorem C66_readable {es es' : List ListEntry} {dp dn dp' dn' : Nat} (h : ∀ e ∈ es, '\n' ∉ e.text) (h' : ∀ e ∈ es', '\n' ∉ e.text)
    (heq : fileText (listLines es dp dn) = fileText (listLines es' dp' dn')) : es = es' ∧ dp = dp' ∧ dn = dn' := by
  apply listLines_inj
  rw [← splitLines_text _ (listLines_no_nl h dp dn), ← splitLines_text _ (listLines_no_nl h' dp' dn'), heq]

/-! ## The output files -/

section
open Classical

variable {df : Frame} {target : Str × Str} {G C : Type}

/-- the number of rows of the data with (without) the target -/
noncomputable def positives (df : Frame) (target : Str × Str) : Nat := ((List.range df.nrows).filter (fun i => decide (MatchesAt df (targetSel target) i))).length
noncomputable def negatives (df : Frame) (target : Str × Str) : Nat := ((List.range df.nrows).filter (fun i => decide (¬ MatchesAt df (targetSel target) i))).length

/-- `txt` is the right output file for the input file `input`: the lines about the data, the report of the loading (C61), and, each followed by an empty line, the lists that
the rule of the algorithm produces from the candidates loaded (C40-C42), printed with their contents -/
def IsOutputFile (R : Bits → Bits → Rule RVal) (maxSl : Nat) (df : Frame) (target : Str × Str) (input txt : Str) : Prop :=
  ∃ (P N : Bits) (cs : List Cand) (log : Str) (res : List SubgroupList), IsClasses df target P N ∧ loadCandidates df.nrows input = .ok (cs, log) ∧
    ListResult (R P N) maxSl P N cs res ∧
    txt = fileText (infoLines df.nrows (positives df target) (negatives df target) df.cols.length) ++ log ++
      fileText (res.flatMap (fun l => candLines P N (entriesOf l) ++ [[]]))

theorem info_text {P : Bits} (hc : IsClasses df target P (Bits.not P)) :
    datasetInfo df P = fileText (infoLines df.nrows (positives df target) (negatives df target) df.cols.length) := by
  have h1 : P.ones = positives df target := by
    unfold positives
    apply Bits.ones_eq_length _ _ (List.nodup_range.filter _)
    intro i
    rw [List.mem_filter, List.mem_range, decide_eq_true_eq, ← hc.pos i]
    refine ⟨fun h => h.2, fun h => ⟨?_, h⟩⟩
    by_contra hn
    rw [Bits.get_ge _ _ (by rw [hc.lenP]; omega)] at h; cases h
  have h2 : (Bits.not P).ones = negatives df target := by
    unfold negatives
    apply Bits.ones_eq_length _ _ (List.nodup_range.filter _)
    intro i
    rw [List.mem_filter, List.mem_range, decide_eq_true_eq, ← hc.neg i]
  have h3 := ones_not P
  unfold datasetInfo infoLines
  rw [show P.length - P.ones = negatives df target by omega, h1]
  simp only [fileText_cons, fileText_nil, List.append_nil, List.append_assoc]
  rfl

theorem listFit_str {M : Miner RVal C} {R : Rule RVal} {P : Bits} (hf : NominalFrame df target)
    (hP : targetMask df target = .ok P) (hM : Implements M R P (Bits.not P)) {k : Nat} {cs : List Cand}
    {res : List SubgroupList} (h : listFit M k df target (.ok cs) = .ok res) :
    ∀ l ∈ res, l.str = fileText (candLines P (Bits.not P) (entriesOf l)) := by
  obtain ⟨run, -, -, -, r4⟩ := listFit_spec hf hP hM h
  intro l hl
  obtain ⟨j, hj⟩ := List.mem_iff_getElem?.1 hl
  have hlen := r4.length_eq
  have hjlt : j < res.length := (List.getElem?_eq_some_iff.1 hj).1
  have := r4.get (i := j) hjlt (by omega)
  simp only [List.get_eq_getElem] at this
  rw [List.getElem?_eq_getElem hjlt] at hj
  cases hj
  rw [entriesOf_eq this]
  have e1 := this.oP
  have e2 := this.oN
  have e3 := this.subs
  have c1 := this.cP
  have c2 := this.cN
  rw [e1] at c1
  rw [e2] at c2
  simp only [List.map_map] at c1 c2 e1 e2 e3
  exact str_of_inv c1 c2 e3 e1 e2

theorem listRun_ok {M : Miner RVal C} {R : Bits → Bits → Rule RVal} (hf : NominalFrame df target)
    (hM : ∀ P, targetMask df target = .ok P → P.length = df.nrows → Implements M (R P (Bits.not P)) P (Bits.not P)) {k : Nat} {input txt : Str}
    (h : listRun M k df target input = .ok txt) : IsOutputFile R k df target input txt := by
  obtain ⟨P, hP, hc⟩ := isClasses_mask hf
  have hI := hM P hP hc.lenP
  unfold listRun at h
  split at h
  · cases h
  split at h
  · cases h
  rw [hP] at h
  simp only at h
  split at h
  · cases h
  rename_i cs log hl
  split at h
  · cases h
  rename_i res hr
  simp only [Except.ok.injEq] at h
  refine ⟨P, Bits.not P, cs, log, res, hc, hl, listResult_of hf hP hI hr, ?_⟩
  rw [← h, info_text hc]
  congr 1
  have hs := listFit_str hf hP hI hr
  clear h hr hl
  induction res with
  | nil => rfl
  | cons l res ih =>
    rw [List.flatMap_cons, List.flatMap_cons, fileText_append, ih (fun l hl => hs l (by simp [hl]))]
    congr 1
    rw [fileText_append, ← hs l (by simp)]
    rfl

/-- **C66.** The output files of GMSL, PSLD and DSLM, for every input file: when `fit` returns, the file is the one of the specification. -/
theorem C66_file (hf : NominalFrame df target) (beta : ℝ) (size maxSl : Nat) (maxPos maxNeg : ℝ) (input txt : Str) :
    (listRun (gmsl df beta) maxSl df target input = .ok txt → IsOutputFile (gmslRule df beta) maxSl df target input txt) ∧
    (listRun (psld df beta size) maxSl df target input = .ok txt → IsOutputFile (psldRule df beta size) maxSl df target input txt) ∧
    (listRun (dslm df beta size maxPos maxNeg) maxSl df target input = .ok txt →
      IsOutputFile (dslmRule df beta size maxPos maxNeg) maxSl df target input txt) :=
  ⟨fun h => listRun_ok hf (fun P _ _ => gmsl_implements df beta P _ (ones_not P)) h,
   fun h => listRun_ok hf (fun P _ _ => psld_implements df beta size P _ (ones_not P)) h,
   fun h => listRun_ok hf (fun P _ hl => dslm_implements df beta size maxPos maxNeg P _ (ones_not P) hl.symm) h⟩

theorem listRun_eq (M : Miner G C) (k : Nat) (hf : NominalFrame df target) (hrows : df.nrows ≠ 0) {input : Str} {cs : List Cand} {log : Str}
    (hl : loadCandidates df.nrows input = .ok (cs, log)) {res : List SubgroupList} (h : listFit M k df target (.ok cs) = .ok res) :
    ∃ txt, listRun M k df target input = .ok txt := by
  obtain ⟨P, hP, -⟩ := isClasses_mask hf
  have hn : df.nominal = true := by
    by_contra hc
    rw [Bool.not_eq_true] at hc
    unfold listFit at h
    rw [if_neg hrows, hc] at h
    simp at h
  unfold listRun
  rw [if_neg hrows, hn, hP, hl]
  simp only [Bool.not_true, Bool.false_eq_true, if_false, h]
  exact ⟨_, rfl⟩

/-- **C66.** `fit` returns, and writes its file, for every input file without the trap of C61, if the attributes of the candidates loaded are columns of the data (and the
numbers of combinations of attributes are below 2^64). With the trap it fails with `IndexError`. -/
theorem C66_total (hf : NominalFrame df target) (hrows : df.nrows ≠ 0) (beta : ℝ) (size maxSl : Nat) (maxPos maxNeg : ℝ) (input : Str) :
    ((∀ l ∈ fileLines input, ¬ Trap l) → (∀ cs log, loadCandidates df.nrows input = .ok (cs, log) → ∀ c ∈ cs,
        (∀ s ∈ c.sub.description.sels, s.attr ∈ df.cols.map (·.1)) ∧ (df.cols.length - 1).choose c.sub.description.sels.length < 2 ^ 64) →
      (∃ txt, listRun (gmsl df beta) maxSl df target input = .ok txt) ∧ (∃ txt, listRun (psld df beta size) maxSl df target input = .ok txt) ∧
      (∃ txt, listRun (dslm df beta size maxPos maxNeg) maxSl df target input = .ok txt)) ∧
    ((∃ l ∈ fileLines input, Trap l) → listRun (gmsl df beta) maxSl df target input = .error .indexError ∧
      listRun (psld df beta size) maxSl df target input = .error .indexError ∧
      listRun (dslm df beta size maxPos maxNeg) maxSl df target input = .error .indexError) := by
  constructor
  · intro ht hc
    obtain ⟨os, -, hl⟩ := C61_load df.nrows input ht
    have hlen := C61_lengths df.nrows input _ _ hl
    have hfit := C40_total hf hrows beta size maxSl maxPos maxNeg (os.filterMap Outcome.cand?)
      (fun c hcm => ⟨(hlen c hcm).1, (hlen c hcm).2, (hc _ _ hl c hcm).1, (hc _ _ hl c hcm).2⟩)
    obtain ⟨⟨r1, h1⟩, ⟨r2, h2⟩, r3, h3⟩ := hfit
    exact ⟨listRun_eq _ _ hf hrows hl h1, listRun_eq _ _ hf hrows hl h2, listRun_eq _ _ hf hrows hl h3⟩
  · intro ht
    obtain ⟨P, hP, -⟩ := isClasses_mask hf
    have hn : df.nominal = true := by
      unfold Frame.nominal
      rw [List.all_eq_true]
      intro c hc
      rw [List.all_eq_true]
      intro v hv
      obtain ⟨s, rfl⟩ := hf.texts c hc v hv
      rfl
    have key : ∀ {C : Type} (M : Miner RVal C), listRun M maxSl df target input = .error .indexError := by
      intro C M
      unfold listRun
      rw [if_neg hrows, hn, hP, C61_trap _ _ ht]
      rfl
    exact ⟨key _, key _, key _⟩

/-- the candidate is a description of the data with its true bitarrays -/
structure TrueCand (df : Frame) (target : Str × Str) (c : Cand) : Prop where
  sub : c.sub.target = targetSel target
  pos : ∀ (i : Nat), c.pos.get i = true ↔ i < df.nrows ∧ Covers df c.sub.description.sels i ∧ MatchesAt df (targetSel target) i
  neg : ∀ (i : Nat), c.neg.get i = true ↔ i < df.nrows ∧ Covers df c.sub.description.sels i ∧ ¬ MatchesAt df (targetSel target) i

theorem coverEntries_eq {P N : Bits} (hc : IsClasses df target P N) : ∀ (cs pre : List Cand), (∀ c ∈ pre ++ cs, TrueCand df target c) →
    entriesOfCands P N pre cs = coverEntries df target (pre.map (·.sub.description.sels)) (cs.map (·.sub.description.sels)) := by
  intro cs
  induction cs with
  | nil => intro pre _; rfl
  | cons c cs ih =>
    intro pre h
    rw [entriesOfCands, List.map_cons, coverEntries, ih (pre ++ [c]) (by simpa using h), List.map_append]
    congr 1
    have hcc := h c (by simp)
    have hpre : ∀ e ∈ pre, TrueCand df target e := fun e he => h e (by simp [he])
    have hpre' : ∀ e ∈ pre, (∀ i, e.pos.get i = false ↔ ¬ (i < df.nrows ∧ Covers df e.sub.description.sels i ∧ MatchesAt df (targetSel target) i)) ∧
        (∀ i, e.neg.get i = false ↔ ¬ (i < df.nrows ∧ Covers df e.sub.description.sels i ∧ ¬ MatchesAt df (targetSel target) i)) := by
      intro e he
      constructor
      · intro i; rw [← (hpre e he).pos i, Bool.not_eq_true]
      · intro i; rw [← (hpre e he).neg i, Bool.not_eq_true]
    have hsub : c.sub = ⟨⟨c.sub.description.sels⟩, targetSel target⟩ := by
      have := hcc.sub
      cases hs : c.sub with
      | mk d t => rw [hs] at this; cases d; simp at this ⊢; exact this
    unfold entryOfCand coverEntry newPos newNeg newRows
    congr 1
    · exact congrArg Subgroup.str hsub
    · rw [hc.lenP]
      congr 1
      apply List.filter_congr
      intro i hi
      rw [List.mem_range] at hi
      rw [Bool.eq_iff_iff]
      simp only [Bool.and_eq_true, decide_eq_true_eq, hc.pos i, hcc.pos i, List.all_eq_true, List.mem_map, Bool.not_eq_true', forall_exists_index, and_imp,
        forall_apply_eq_imp_iff₂]
      constructor
      · rintro ⟨⟨h1, h2⟩, h3⟩
        exact ⟨h1, h2.2.1, fun e he hcov => ((hpre' e he).1 i).1 (h3 e he) ⟨hi, hcov, h1⟩⟩
      · rintro ⟨h1, h2, h3⟩
        exact ⟨⟨h1, hi, h2, h1⟩, fun e he => ((hpre' e he).1 i).2 (fun hh => h3 e he hh.2.1)⟩
    · rw [hc.lenN]
      congr 1
      apply List.filter_congr
      intro i hi
      rw [List.mem_range] at hi
      rw [Bool.eq_iff_iff]
      simp only [Bool.and_eq_true, decide_eq_true_eq, hc.neg i, hcc.neg i, List.all_eq_true, List.mem_map, Bool.not_eq_true', forall_exists_index, and_imp,
        forall_apply_eq_imp_iff₂]
      constructor
      · rintro ⟨⟨h1, h2⟩, h3⟩
        exact ⟨h1.2, h2.2.1, fun e he hcov => ((hpre' e he).2 i).1 (h3 e he) ⟨hi, hcov, h1.2⟩⟩
      · rintro ⟨h1, h2, h3⟩
        exact ⟨⟨⟨hi, h1⟩, hi, h2, h1⟩, fun e he => ((hpre' e he).2 i).2 (fun hh => h3 e he hh.2.1)⟩
    · unfold tpOf
      apply Bits.ones_eq_length _ _ (List.nodup_range.filter _)
      intro i
      rw [List.mem_filter, List.mem_range, decide_eq_true_eq, hcc.pos i]
    · unfold fpOf
      apply Bits.ones_eq_length _ _ (List.nodup_range.filter _)
      intro i
      rw [List.mem_filter, List.mem_range, decide_eq_true_eq, hcc.neg i]

theorem coverLines_eq {P N : Bits} (hc : IsClasses df target P N) (cs : List Cand) (h : ∀ c ∈ cs, TrueCand df target c) :
    candLines P N cs = coverLines df target (cs.map (·.sub.description.sels)) := by
  have h' : ∀ e ∈ cs, (∀ i, e.pos.get i = false ↔ ¬ (i < df.nrows ∧ Covers df e.sub.description.sels i ∧ MatchesAt df (targetSel target) i)) ∧
      (∀ i, e.neg.get i = false ↔ ¬ (i < df.nrows ∧ Covers df e.sub.description.sels i ∧ ¬ MatchesAt df (targetSel target) i)) := by
    intro e he
    constructor
    · intro i; rw [← (h e he).pos i, Bool.not_eq_true]
    · intro i; rw [← (h e he).neg i, Bool.not_eq_true]
  unfold candLines coverLines
  rw [coverEntries_eq hc cs [] (by simpa using h), List.map_nil]
  unfold restRows
  congr 1
  · rw [hc.lenP]
    congr 1
    apply List.filter_congr
    intro i hi
    rw [List.mem_range] at hi
    rw [Bool.eq_iff_iff]
    simp only [Bool.and_eq_true, decide_eq_true_eq, hc.pos i, List.all_eq_true, List.mem_map, Bool.not_eq_true', forall_exists_index, and_imp,
      forall_apply_eq_imp_iff₂]
    constructor
    · rintro ⟨h1, h3⟩
      exact ⟨h1, fun e he hcov => ((h' e he).1 i).1 (h3 e he) ⟨hi, hcov, h1⟩⟩
    · rintro ⟨h1, h3⟩
      exact ⟨h1, fun e he => ((h' e he).1 i).2 (fun hh => h3 e he hh.2.1)⟩
  · rw [hc.lenN]
    congr 1
    apply List.filter_congr
    intro i hi
    rw [List.mem_range] at hi
    rw [Bool.eq_iff_iff]
    simp only [Bool.and_eq_true, decide_eq_true_eq, hc.neg i, List.all_eq_true, List.mem_map, Bool.not_eq_true', forall_exists_index, and_imp,
      forall_apply_eq_imp_iff₂]
    constructor
    · rintro ⟨h1, h3⟩
      exact ⟨h1.2, fun e he hcov => ((h' e he).2 i).1 (h3 e he) ⟨hi, hcov, h1.2⟩⟩
    · rintro ⟨h1, h3⟩
      exact ⟨⟨hi, h1⟩, fun e he => ((h' e he).2 i).2 (fun hh => h3 e he hh.2.1)⟩

/-- **C66.** From the data to the printed lists: when the candidates are what VLSD found and wrote with bitsets (on word-like data), the output file of each algorithm consists of
the lines about the data, a report without errors, and `maxSl` lists of descriptions found by VLSD; all the numbers printed are true of the data: the rows covered by each
description and by no earlier one of its list, the rows covered by it, and the rows covered by none. -/
theorem C66_from_vlsd (measure : Params → Except PyErr Rat) (minQ : Rat) (estimate : Params → Except PyErr Rat) (minE : Rat) (x xo : Params)
    (s1 s2 : SortCriterion) (he : LookupOnly estimate) (df : Frame) (target : Str × Str) (hf : NominalFrame df target) (hw : WordFrame df target)
    (st st' : VLState Bits) (h : (VLSDConfig.new measure minQ estimate minE x xo s1 s2).fit .bitsets st df target = .ok st')
    (mn en : Str) (fs : Rat → Str) (hmn : PlainText mn) (hen : PlainText en) (hfs : ∀ q, PlainText (fs q))
    (beta : ℝ) (size maxSl : Nat) (maxPos maxNeg : ℝ) (txt : Str)
    (hrun : listRun (gmsl df beta) maxSl df target (transformFile (fileText (st'.file.map (VLine.text mn en fs)))).1 = .ok txt ∨
      listRun (psld df beta size) maxSl df target (transformFile (fileText (st'.file.map (VLine.text mn en fs)))).1 = .ok txt ∨
      listRun (dslm df beta size maxPos maxNeg) maxSl df target (transformFile (fileText (st'.file.map (VLine.text mn en fs)))).1 = .ok txt) :
    ∃ Xss : List (List (List Selector)), Xss.length = maxSl ∧
      (∀ Xs ∈ Xss, ∀ X ∈ Xs, Describes target X ∧ OccursIn df X ∧ ∃ l ∈ st'.file, l.subgroup = ⟨⟨X⟩, targetSel target⟩) ∧
      txt = fileText (infoLines df.nrows (positives df target) (negatives df target) df.cols.length) ++
        (c!"Reading input file.\nRead subgroups: " ++ natStr st'.file.length ++ c!".\nInput file read.\n\n\n") ++
        fileText (Xss.flatMap (fun Xs => coverLines df target Xs ++ [[]])) := by
  have hload := (C61_from_vlsd measure minQ estimate minE x xo s1 s2 he df target hf hw st st' h mn en fs hmn hen hfs).2
  obtain ⟨calls, hr⟩ := C29_bitsets measure minQ estimate minE x xo s1 s2 he df target hf st st' h
  have hgood : ∀ c ∈ st'.file.map (fun l => (⟨l.subgroup, l.tpSeq, l.fpSeq⟩ : Cand)),
      TrueCand df target c ∧ Describes target c.sub.description.sels ∧ OccursIn df c.sub.description.sels ∧
      ∃ l ∈ st'.file, l.subgroup = ⟨⟨c.sub.description.sels⟩, targetSel target⟩ := by
    intro c hcm
    obtain ⟨l, hl, rfl⟩ := List.mem_map.1 hcm
    obtain ⟨X, e⟩ := hr.lines l hl
    have hX : l.subgroup.description.sels = X := by rw [e.subgroup]
    refine ⟨⟨?_, ?_, ?_⟩, ?_, ?_, l, hl, ?_⟩
    · simp [e.subgroup]
    · intro i; rw [show (⟨l.subgroup, l.tpSeq, l.fpSeq⟩ : Cand).sub.description.sels = X from hX]; exact e.tpRows i
    · intro i; rw [show (⟨l.subgroup, l.tpSeq, l.fpSeq⟩ : Cand).sub.description.sels = X from hX]; exact e.fpRows i
    · rw [show (⟨l.subgroup, l.tpSeq, l.fpSeq⟩ : Cand).sub.description.sels = X from hX]; exact e.describes
    · rw [show (⟨l.subgroup, l.tpSeq, l.fpSeq⟩ : Cand).sub.description.sels = X from hX]; exact e.occurs
    · rw [show (⟨l.subgroup, l.tpSeq, l.fpSeq⟩ : Cand).sub.description.sels = X from hX]; exact e.subgroup
  obtain ⟨R, P, N, cs, log, res, hc, hl, hres, htxt⟩ : ∃ R, IsOutputFile R maxSl df target (transformFile (fileText (st'.file.map (VLine.text mn en fs)))).1 txt := by
    rcases hrun with h1 | h1 | h1
    · exact ⟨_, (C66_file hf beta size maxSl maxPos maxNeg _ txt).1 h1⟩
    · exact ⟨_, (C66_file hf beta size maxSl maxPos maxNeg _ txt).2.1 h1⟩
    · exact ⟨_, (C66_file hf beta size maxSl maxPos maxNeg _ txt).2.2 h1⟩
  rw [hload] at hl
  simp only [Except.ok.injEq, Prod.mk.injEq] at hl
  obtain ⟨rfl, rfl⟩ := hl
  have hsub := (produces_choice hres.run).1
  have hmem : ∀ l ∈ res, ∀ c ∈ entriesOf l, c ∈ st'.file.map (fun l => (⟨l.subgroup, l.tpSeq, l.fpSeq⟩ : Cand)) := by
    intro l hl c hc
    exact hsub.subset (List.mem_flatMap.2 ⟨l, hl, hc⟩)
  refine ⟨res.map (fun l => (entriesOf l).map (·.sub.description.sels)), by rw [List.length_map, hres.count], ?_, ?_⟩
  · intro Xs hXs X hX
    obtain ⟨l, hl, rfl⟩ := List.mem_map.1 hXs
    obtain ⟨c, hcm, rfl⟩ := List.mem_map.1 hX
    exact (hgood c (hmem l hl c hcm)).2
  · rw [htxt]
    congr 2
    rw [List.flatMap_map]
    have hcl : ∀ l ∈ res, candLines P N (entriesOf l) = coverLines df target ((entriesOf l).map (·.sub.description.sels)) :=
      fun l hl => coverLines_eq hc _ (fun c hcm => (hgood c (hmem l hl c hcm)).1)
    exact List.flatMap_congr (fun l hl => by rw [hcl l hl])

end

/-- a history with a refused addition and a removal; the printed list -/
example :
    let sub (v : Str) : Subgroup := ⟨⟨[⟨c!"a", .equal, .str v⟩]⟩, ⟨c!"t", .equal, .str c!"y"⟩⟩
    (match SubgroupList.new [true, true, false, false, true] [false, false, true, true, false] 5 with
      | .ok l => (l.run [.add (sub c!"x") [true, true, false, false, false] [false, false, true, false, false],
          .add (sub c!"z") [true] [false], .add (sub c!"w") [true, false, false, false, true] [false, false, true, false, false], .deleteLast,
          .add (sub c!"v") [false, true, false, false, true] [false, false, false, false, false]]).str
      | .error _ => []) =
    c!"## Subgroup list (2 subgroups) ##\ns1: Description: [a = 'x'], Target: t = 'y'\n\tConsidering its position in the list:\n\t- positive instances covered: 2\n\t- negative instances covered: 1\n\t- total instances covered: 3\n\tConsidering it individually:\n\t- positive instances covered: 2\n\t- negative instances covered: 1\n\t- total instances covered: 3\ns2: Description: [a = 'v'], Target: t = 'y'\n\tConsidering its position in the list:\n\t- positive instances covered: 1\n\t- negative instances covered: 0\n\t- total instances covered: 1\n\tConsidering it individually:\n\t- positive instances covered: 2\n\t- negative instances covered: 0\n\t- total instances covered: 2\ndefault rule:\n\tpositive instances covered: 0\n\tnegative instances covered: 1\n\ttotal instances covered: 1\n" := by
  decide +kernel

end Verif
