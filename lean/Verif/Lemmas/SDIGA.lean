import Verif.Lemmas.SDMap
import Verif.Lemmas.Contained
import Verif.Spec.SDIGA
/-! The encoding of SDIGA: chromosomes are descriptions. -/
set_option linter.unusedSectionVars false
namespace Verif.SDIGA
open Classical Spec

variable {df : Frame} {target : Str × Str}

/-- the selectors of a chromosome -/
def selsOf (cols : List (Str × List Val)) (c : Chrom) : List Selector :=
  (cols.zip c).filterMap (fun e => if e.2 = 0 then none else (((groupKeys e.1.2)[e.2 - 1]?).map (fun v => ⟨e.1.1, .equal, v⟩)))

theorem groupKeys_length (col : List Val) : (groupKeys col).length = col.dedup.length := (stableSort_perm _).length_eq

theorem groupKeys_nodup (col : List Val) : (groupKeys col).Nodup := (stableSort_perm _).nodup_iff.2 (List.nodup_dedup _)

theorem code_eq_iff {col : List Val} (hs : col.dedup.length ≤ 65535) {v : Val} (hv : v ∈ col) (g : Nat) (hg : g ≠ 0) :
    code (groupKeys col) v = g ↔ (groupKeys col)[g - 1]? = some v := by
  have hm : v ∈ groupKeys col := (mem_groupKeys col v).2 hv
  have hlt : (groupKeys col).idxOf v < (groupKeys col).length := List.idxOf_lt_length_of_mem hm
  have hl := groupKeys_length col
  unfold code
  rw [Nat.mod_eq_of_lt (by omega)]
  constructor
  · intro h
    rw [← h, Nat.add_sub_cancel, List.getElem?_eq_getElem hlt]
    simp
  · intro h
    obtain ⟨h1, h2⟩ := List.getElem?_eq_some_iff.1 h
    have := (groupKeys_nodup col).idxOf_getElem (g - 1) h1
    rw [h2] at this
    omega

theorem code_ne_zero {col : List Val} (hs : col.dedup.length ≤ 65535) {v : Val} (hv : v ∈ col) : code (groupKeys col) v ≠ 0 := by
  have hm : v ∈ groupKeys col := (mem_groupKeys col v).2 hv
  have hlt : (groupKeys col).idxOf v < (groupKeys col).length := List.idxOf_lt_length_of_mem hm
  have hl := groupKeys_length col
  unfold code
  rw [Nat.mod_eq_of_lt (by omega)]
  omega

theorem chromDict_eq (hf : SDIGAFrame df target) : chromDict (encodeDict df target.1) = encodeDict df target.1 := by
  unfold chromDict
  rw [List.filter_eq_self]
  intro e he
  obtain ⟨c, hc, rfl⟩ := List.mem_map.1 he
  obtain ⟨h1, h2⟩ := (mem_otherCols c).1 hc
  simpa using hf.noFitness c h1 h2

theorem dropFitness_eq (hf : SDIGAFrame df target) {c : Chrom} (hc : IsChrom df target.1 c) : dropFitness (encodeDict df target.1) c = c := by
  unfold dropFitness
  rw [List.filter_eq_self.2, List.map_snd_zip]
  · have := hc.length_eq
    simp only [encodeDict, otherCols, List.length_map]
    exact le_of_eq this.symm
  · intro e he
    have h1 := (List.of_mem_zip (a := e.1) (b := e.2) he).1
    obtain ⟨c', hc', h3⟩ := List.mem_map.1 h1
    obtain ⟨h1, h2⟩ := (mem_otherCols c').1 hc'
    rw [← h3]
    simpa using hf.noFitness c' h1 h2

theorem mapM_decode {cols : List (Str × List Val)} {c : Chrom} (h : List.Forall₂ (fun col g => g ≤ (col.2.dedup).length) cols c) :
    ∃ l, ((cols.map (fun c => (c.1, groupKeys c.2))).zip c).mapM decodeGene = .ok l ∧ l.flatten = selsOf cols c := by
  induction h with
  | nil => exact ⟨[], rfl, rfl⟩
  | @cons col g cols c hg _ ih =>
    obtain ⟨l, h1, h2⟩ := ih
    rw [List.map_cons, List.zip_cons_cons, mapM_cons_eq, h1]
    by_cases h0 : g = 0
    · refine ⟨[] :: l, ?_, ?_⟩
      · simp [decodeGene, h0]
      · simp [selsOf, h0] at h2 ⊢; exact h2
    · have hlt : g - 1 < (groupKeys col.2).length := by rw [groupKeys_length]; omega
      refine ⟨[⟨col.1, .equal, (groupKeys col.2)[g - 1]⟩] :: l, ?_, ?_⟩
      · simp [decodeGene, h0, List.getElem?_eq_getElem hlt]
      · simp [selsOf, h0, List.getElem?_eq_getElem hlt] at h2 ⊢; exact h2

theorem decode_ok (hf : SDIGAFrame df target) {c : Chrom} (hc : IsChrom df target.1 c) :
    decode (chromDict (encodeDict df target.1)) c = .ok (Pattern.new (selsOf (otherCols df target.1) c)) := by
  rw [chromDict_eq hf]
  obtain ⟨l, h1, h2⟩ := mapM_decode hc
  unfold decode encodeDict
  rw [show otherCols df target.1 = df.cols.filter (fun e => e.1 ≠ target.1) from rfl, h1]
  simp only [h2]

theorem mem_selsOf {cols : List (Str × List Val)} {c : Chrom} {s : Selector} :
    s ∈ selsOf cols c ↔ ∃ (k : Nat) (col : Str × List Val) (g : Nat) (v : Val), cols[k]? = some col ∧ c[k]? = some g ∧ g ≠ 0 ∧ (groupKeys col.2)[g - 1]? = some v ∧ s = ⟨col.1, .equal, v⟩ := by
  unfold selsOf
  rw [List.mem_filterMap]
  constructor
  · rintro ⟨e, he, h⟩
    obtain ⟨k, hk⟩ := List.mem_iff_getElem?.1 he
    rw [List.getElem?_zip_eq_some] at hk
    by_cases h0 : e.2 = 0
    · simp [h0] at h
    · rw [if_neg h0] at h
      obtain ⟨v, hv, hs⟩ := Option.map_eq_some_iff.1 h
      exact ⟨k, e.1, e.2, v, hk.1, hk.2, h0, hv, hs.symm⟩
  · rintro ⟨k, col, g, v, h1, h2, h3, h4, h5⟩
    refine ⟨(col, g), List.mem_iff_getElem?.2 ⟨k, List.getElem?_zip_eq_some.2 ⟨h1, h2⟩⟩, ?_⟩
    simp [h3, h4, h5]

theorem selsOf_text (hf : SDIGAFrame df target) {c : Chrom} {s : Selector} (hs : s ∈ selsOf (otherCols df target.1) c) : TextEq s := by
  obtain ⟨k, col, g, v, h1, h2, h3, h4, rfl⟩ := mem_selsOf.1 hs
  obtain ⟨h5, h6⟩ := (mem_otherCols col).1 (List.mem_of_getElem? h1)
  have := (mem_groupKeys col.2 v).1 (List.mem_of_getElem? h4)
  exact ⟨rfl, hf.nominal.texts col h5 v this⟩

theorem mem_pattern (hf : SDIGAFrame df target) {c : Chrom} (s : Selector) :
    s ∈ (Pattern.new (selsOf (otherCols df target.1) c)).sels ↔ s ∈ selsOf (otherCols df target.1) c :=
  (new_text (fun s hs => selsOf_text hf hs)).2 s

theorem selsOf_rule (hf : SDIGAFrame df target) (c : Chrom) : IsRule df target (selsOf (otherCols df target.1) c) := by
  constructor
  · intro s hs
    obtain ⟨k, col, g, v, h1, h2, h3, h4, rfl⟩ := mem_selsOf.1 hs
    obtain ⟨h5, h6⟩ := (mem_otherCols col).1 (List.mem_of_getElem? h1)
    exact ⟨rfl, h6, col.2, lookup_of_mem_cols hf.nominal h5, (mem_groupKeys col.2 v).1 (List.mem_of_getElem? h4)⟩
  · intro s hs t ht hst
    obtain ⟨k, col, g, v, h1, h2, h3, h4, rfl⟩ := mem_selsOf.1 hs
    obtain ⟨k', col', g', v', h1', h2', h3', h4', rfl⟩ := mem_selsOf.1 ht
    have hk : k = k' := by
      have hn : ((otherCols df target.1).map (·.1)).Nodup := hf.nominal.names.sublist (List.filter_sublist.map _)
      have e1 : ((otherCols df target.1).map (·.1))[k]? = some col.1 := by rw [List.getElem?_map, h1]; rfl
      have e2 : ((otherCols df target.1).map (·.1))[k']? = some col.1 := by
        rw [List.getElem?_map, h1']
        exact congrArg some hst.symm
      obtain ⟨hl1, _⟩ := List.getElem?_eq_some_iff.1 e1
      exact (List.Nodup.getElem_inj_iff hn (hi := hl1) (hj := (List.getElem?_eq_some_iff.1 e2).1)).1
        (by rw [(List.getElem?_eq_some_iff.1 e1).2, (List.getElem?_eq_some_iff.1 e2).2])
    subst hk
    rw [h1] at h1'; rw [h2] at h2'
    cases h1'; cases h2'
    rw [h4] at h4'; cases h4'
    rfl

theorem gene_le {tname : Str} {c : Chrom} (hc : IsChrom df tname c) {k : Nat} {col : Str × List Val} {g : Nat}
    (h1 : (otherCols df tname)[k]? = some col) (h2 : c[k]? = some g) : g ≤ col.2.dedup.length := by
  have hc' : List.Forall₂ (fun (col : Str × List Val) g => g ≤ (col.2.dedup).length) (otherCols df tname) c := hc
  obtain ⟨ha, hb⟩ := List.getElem?_eq_some_iff.1 h1
  obtain ⟨ha', hb'⟩ := List.getElem?_eq_some_iff.1 h2
  have := (List.forall₂_iff_get.1 hc').2 k ha ha'
  simpa [hb, hb'] using this

/-- the row mask of a chromosome, on the encoded row `i`, says that the decoded selectors cover the row -/
theorem rowMask_iff (hf : SDIGAFrame df target) {c : Chrom} (hc : IsChrom df target.1 c) {tcol : List Val} {i : Nat} (hi : i < df.nrows) :
    rowMask c ⟨i, (otherCols df target.1).map (fun c => code (groupKeys c.2) (c.2[i]?.getD (.str []))), tcol[i]?.getD (.str [])⟩ = true ↔
      Covers df (selsOf (otherCols df target.1) c) i := by
  unfold rowMask
  rw [List.all_eq_true]
  constructor
  · intro h s hs
    obtain ⟨k, col, g, v, h1, h2, h3, h4, rfl⟩ := mem_selsOf.1 hs
    obtain ⟨h5, h6⟩ := (mem_otherCols col).1 (List.mem_of_getElem? h1)
    have hi' : i < col.2.length := by rw [hf.nominal.wf col h5]; exact hi
    have hmem := List.getElem_mem hi'
    have hv' := (mem_groupKeys col.2 v).1 (List.mem_of_getElem? h4)
    obtain ⟨x, rfl⟩ := hf.nominal.texts col h5 v hv'
    have := h (g, code (groupKeys col.2) (col.2[i]?.getD (.str []))) (List.mem_iff_getElem?.2 ⟨k, List.getElem?_zip_eq_some.2
      ⟨h2, by rw [List.getElem?_map, h1]; rfl⟩⟩)
    simp only [Bool.or_eq_true, beq_iff_eq, h3, false_or] at this
    rw [List.getElem?_eq_getElem hi', Option.getD_some, code_eq_iff (hf.small col h5 h6) hmem g h3, h4] at this
    rw [matchesAt_iff hf.nominal]
    exact ⟨col, h5, rfl, by rw [List.getElem?_eq_getElem hi', ← this]⟩
  · intro h e he
    obtain ⟨k, hk⟩ := List.mem_iff_getElem?.1 he
    rw [List.getElem?_zip_eq_some, List.getElem?_map] at hk
    obtain ⟨hk1, hk2⟩ := hk
    obtain ⟨col, h1, h2⟩ := Option.map_eq_some_iff.1 hk2
    by_cases h0 : e.1 = 0
    · simp [h0]
    simp only [Bool.or_eq_true, beq_iff_eq, h0, false_or]
    obtain ⟨h5, h6⟩ := (mem_otherCols col).1 (List.mem_of_getElem? h1)
    have hi' : i < col.2.length := by rw [hf.nominal.wf col h5]; exact hi
    have hmem := List.getElem_mem hi'
    have hg : e.1 ≤ col.2.dedup.length := gene_le hc h1 hk1
    have hlt : e.1 - 1 < (groupKeys col.2).length := by rw [groupKeys_length]; omega
    have hv : (groupKeys col.2)[e.1 - 1] ∈ col.2 := (mem_groupKeys col.2 _).1 (List.getElem_mem hlt)
    obtain ⟨x, hx⟩ := hf.nominal.texts col h5 _ hv
    have := h ⟨col.1, .equal, .str x⟩ (mem_selsOf.2 ⟨k, col, e.1, .str x, h1, hk1, h0, by rw [List.getElem?_eq_getElem hlt, hx], rfl⟩)
    rw [matchesAt_iff hf.nominal] at this
    obtain ⟨c', hc', hn, hcell⟩ := this
    have hcc : c' = col := by
      have e1 := lookup_of_mem_cols hf.nominal hc'
      have e2 := lookup_of_mem_cols hf.nominal h5
      rw [hn, e2] at e1
      exact Prod.ext hn (Option.some.inj e1).symm
    subst hcc
    rw [← h2, hcell, Option.getD_some, code_eq_iff (hf.small c' h5 h6) (List.mem_of_getElem? hcell) e.1 h0, List.getElem?_eq_getElem hlt, hx]

/-! ### counting -/

/-- row `i` of the encoded data -/
def encRow (df : Frame) (tname : Str) (tcol : List Val) (i : Nat) : ERow :=
  ⟨i, (otherCols df tname).map (fun c => code (groupKeys c.2) (c.2[i]?.getD (.str []))), tcol[i]?.getD (.str [])⟩

/-- the encoded rows covered by none of the patterns -/
noncomputable def freshRows (df : Frame) (tname : Str) (tcol : List Val) (l : List Pattern) : List ERow :=
  ((List.range df.nrows).filter (fun i => decide (¬ CoveredBy df l i))).map (encRow df tname tcol)

theorem freshRows_nil (tname : Str) (tcol : List Val) : freshRows df tname tcol [] = encodeRows df tname tcol := by
  unfold freshRows encodeRows
  rw [List.filter_eq_self.2]
  · rfl
  · intro i _
    simp [CoveredBy]

theorem tgt_iff (hf : SDIGAFrame df target) {tcol : List Val} (ht : df.col target.1 = .ok tcol) {i : Nat} (hi : i < df.nrows) :
    (encRow df target.1 tcol i).tgt.eq (.str target.2) = true ↔ MatchesAt df (targetSel target) i := by
  have hl : df.cols.lookup target.1 = some tcol := by
    unfold Frame.col at ht
    cases h : df.cols.lookup target.1 with
    | none => rw [h] at ht; simp at ht
    | some c => rw [h] at ht; simp at ht; rw [ht]
  have hlen := Frame.col_length hf.nominal.wf ht
  simp only [encRow]
  rw [List.getElem?_eq_getElem (by omega), Option.getD_some]
  constructor
  · intro h
    refine ⟨tcol, tcol[i], hl, List.getElem?_eq_getElem (by omega), ?_⟩
    simp [targetSel, Op.evaluate, h]
  · rintro ⟨col, v, h1, h2, h3⟩
    have h1' : df.cols.lookup target.1 = some col := h1
    rw [hl] at h1'
    cases h1'
    rw [List.getElem?_eq_getElem (by omega)] at h2
    cases h2
    simpa [targetSel, Op.evaluate] using h3

theorem covers_new (hf : SDIGAFrame df target) (c : Chrom) (i : Nat) :
    Covers df (Pattern.new (selsOf (otherCols df target.1) c)).sels i ↔ Covers df (selsOf (otherCols df target.1) c) i :=
  covers_congr (fun s => mem_pattern hf s) i

theorem rowMask_encRow (hf : SDIGAFrame df target) {c : Chrom} (hc : IsChrom df target.1 c) {tcol : List Val} {i : Nat} (hi : i < df.nrows) :
    rowMask c (encRow df target.1 tcol i) = true ↔ Covers df (Pattern.new (selsOf (otherCols df target.1) c)).sels i := by
  rw [covers_new hf]
  exact rowMask_iff hf hc hi

theorem filterWith_fresh (hf : SDIGAFrame df target) {c : Chrom} (hc : IsChrom df target.1 c) (tcol : List Val) (l : List Pattern) :
    filterWith c (freshRows df target.1 tcol l) = ((List.range df.nrows).filter (fun i => decide
      (Covers df (Pattern.new (selsOf (otherCols df target.1) c)).sels i ∧ ¬ CoveredBy df l i))).map (encRow df target.1 tcol) := by
  unfold filterWith freshRows
  rw [List.filter_map, List.filter_filter]
  congr 1
  apply List.filter_congr
  intro i hi
  rw [Bool.eq_iff_iff]
  simp only [Function.comp_apply, Bool.and_eq_true, rowMask_encRow hf hc (List.mem_range.1 hi), decide_eq_true_eq]

theorem filterWithout_fresh (hf : SDIGAFrame df target) {c : Chrom} (hc : IsChrom df target.1 c) (tcol : List Val) (l : List Pattern) :
    filterWithout c (freshRows df target.1 tcol l) =
      freshRows df target.1 tcol (l ++ [Pattern.new (selsOf (otherCols df target.1) c)]) := by
  unfold filterWithout freshRows
  rw [List.filter_map, List.filter_filter]
  congr 1
  apply List.filter_congr
  intro i hi
  rw [Bool.eq_iff_iff]
  have := rowMask_encRow hf hc (tcol := tcol) (List.mem_range.1 hi)
  simp only [Function.comp_apply, Bool.and_eq_true, Bool.not_eq_true', decide_eq_true_eq, ← Bool.not_eq_true, this]
  simp only [CoveredBy, List.mem_append, List.mem_singleton]
  constructor
  · rintro ⟨h1, h2⟩ ⟨p, hp | rfl, h3⟩
    · exact h2 ⟨p, hp, h3⟩
    · exact h1 h3
  · intro h
    exact ⟨fun h1 => h ⟨_, Or.inr rfl, h1⟩, fun ⟨p, hp, h1⟩ => h ⟨p, Or.inl hp, h1⟩⟩

theorem countTarget_map (hf : SDIGAFrame df target) {tcol : List Val} (ht : df.col target.1 = .ok tcol) (Q : Nat → Prop)
    [DecidablePred Q] [DecidablePred (fun i => Q i ∧ MatchesAt df (targetSel target) i)] :
    countTarget target.2 (((List.range df.nrows).filter (fun i => decide (Q i))).map (encRow df target.1 tcol)) =
      ((List.range df.nrows).filter (fun i => decide (Q i ∧ MatchesAt df (targetSel target) i))).length := by
  unfold countTarget
  rw [List.countP_map, List.countP_eq_length_filter, List.filter_filter]
  congr 1
  apply List.filter_congr
  intro i hi
  rw [Bool.eq_iff_iff]
  simp only [Function.comp_apply, Bool.and_eq_true, tgt_iff hf ht (List.mem_range.1 hi), decide_eq_true_eq]
  exact and_comm

theorem length_split (Q R : Nat → Prop) (n : Nat) [DecidablePred Q] [DecidablePred (fun i => Q i ∧ R i)] [DecidablePred (fun i => Q i ∧ ¬ R i)] :
    ((List.range n).filter (fun i => decide (Q i))).length = ((List.range n).filter (fun i => decide (Q i ∧ R i))).length +
      ((List.range n).filter (fun i => decide (Q i ∧ ¬ R i))).length := by
  induction n with
  | zero => rfl
  | succ n ih =>
    simp only [List.range_succ, List.filter_append, List.length_append, ih]
    by_cases hQ : Q n <;> by_cases hR : R n <;> simp [hQ, hR] <;> omega

theorem tpFp_fresh (hf : SDIGAFrame df target) {c : Chrom} (hc : IsChrom df target.1 c) {tcol : List Val} (ht : df.col target.1 = .ok tcol)
    (l : List Pattern) :
    tpFp c (freshRows df target.1 tcol l) target.2 =
      (freshTp df target l (Pattern.new (selsOf (otherCols df target.1) c)).sels,
       freshFp df target l (Pattern.new (selsOf (otherCols df target.1) c)).sels) := by
  unfold tpFp
  simp only [filterWith_fresh hf hc tcol l]
  rw [countTarget_map hf ht, List.length_map, length_split
    (fun i => Covers df (Pattern.new (selsOf (otherCols df target.1) c)).sels i ∧ ¬ CoveredBy df l i) (fun i => MatchesAt df (targetSel target) i)]
  simp only [and_assoc]
  unfold freshTp freshFp
  rw [Nat.add_sub_cancel_left]

theorem countTarget_fresh (hf : SDIGAFrame df target) {tcol : List Val} (ht : df.col target.1 = .ok tcol) (l : List Pattern) :
    countTarget target.2 (freshRows df target.1 tcol l) = freshTp df target l [] ∧
    (freshRows df target.1 tcol l).length - countTarget target.2 (freshRows df target.1 tcol l) = freshFp df target l [] := by
  have h1 : countTarget target.2 (freshRows df target.1 tcol l) = freshTp df target l [] := by
    unfold freshRows freshTp
    rw [countTarget_map hf ht]
    simp [Covers]
  refine ⟨h1, ?_⟩
  unfold countTarget at h1 ⊢
  rw [h1]
  unfold freshRows
  rw [List.length_map, length_split _ (fun i => MatchesAt df (targetSel target) i)]
  simp only [freshTp, freshFp, Covers, List.not_mem_nil, false_imp_iff, implies_true, true_and]
  omega

theorem freshTp_nil (X : List Selector) : freshTp df target [] X = tpOf df target X := by
  simp [freshTp, tpOf, CoveredBy]

theorem freshFp_nil (X : List Selector) : freshFp df target [] X = fpOf df target X := by
  simp [freshFp, fpOf, CoveredBy]

theorem freshTp_mono {X Y : List Selector} (h : ∀ s ∈ X, s ∈ Y) (l : List Pattern) : freshTp df target l Y ≤ freshTp df target l X :=
  filter_length_mono _ (fun _ hi => ⟨fun s hs => hi.1 s (h s hs), hi.2⟩)

theorem tp_add_fp_nil : tpOf df target [] + fpOf df target [] = df.nrows := by
  have := length_split (fun i => Covers df [] i) (fun i => MatchesAt df (targetSel target) i) df.nrows
  unfold tpOf fpOf
  rw [← this]
  simp [Covers]

theorem TP_eq (hf : SDIGAFrame df target) {tcol : List Val} (ht : df.col target.1 = .ok tcol) :
    tcol.countP (fun v => v.eq (.str target.2)) = tpOf df target [] := by
  rw [← freshTp_nil, ← (countTarget_fresh hf ht []).1, freshRows_nil]
  have hlen := Frame.col_length hf.nominal.wf ht
  unfold countTarget encodeRows
  rw [List.countP_map]
  have : tcol = (List.range df.nrows).map (fun i => tcol[i]?.getD (.str [])) := by
    apply List.ext_getElem
    · simp [hlen]
    · intro i h1 h2
      simp [h1]
  conv_lhs => rw [this, List.countP_map]
  rfl

theorem calculateSupport_ok {tp TP FP : Nat} (h : tp ≤ TP) : calculateSupport tp TP FP = .ok ((tp : Rat) / ((TP : Rat) + (FP : Rat))) := by
  unfold calculateSupport
  by_cases h0 : tp = TP ∧ TP = FP ∧ FP = 0
  · rw [if_pos h0, h0.1, h0.2.1, h0.2.2]; simp
  · rw [if_neg h0]
    have : (TP : Rat) + (FP : Rat) ≠ 0 := by
      intro h1
      have : TP + FP = 0 := by exact_mod_cast h1
      omega
    simp only [Quality.support, getParam, kTp, kTP, kFP, List.lookup, pyDiv]
    simp only [bind, Except.bind]
    rw [show (c!"TP" == c!"tp") = false from by decide, show (c!"FP" == c!"tp") = false from by decide, show (c!"FP" == c!"TP") = false from by decide]
    simp only [beq_self_eq_true]
    rw [if_neg this]

theorem calculateConfidence_ok (tp fp : Nat) : calculateConfidence tp fp = .ok ((tp : Rat) / ((tp : Rat) + (fp : Rat))) := by
  unfold calculateConfidence
  by_cases h0 : tp = fp ∧ fp = 0
  · rw [if_pos h0, h0.1, h0.2]; simp
  · rw [if_neg h0]
    have : (tp : Rat) + (fp : Rat) ≠ 0 := by
      intro h1
      have : tp + fp = 0 := by exact_mod_cast h1
      omega
    simp only [Quality.ppv, getParam, kTp, kFp, List.lookup, pyDiv]
    simp only [bind, Except.bind]
    rw [show (c!"fp" == c!"tp") = false from by decide]
    simp only [beq_self_eq_true]
    rw [if_neg this]

end Verif.SDIGA
