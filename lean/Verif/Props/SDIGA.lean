import Verif.Lemmas.SDIGALoop
import Verif.Lemmas.SelectorOrder
import Verif.Props.SDMap
/-! C43, C44, C45, C62, C63, C64: SDIGA. -/
set_option linter.unusedSectionVars false
namespace Verif
open Spec SDIGA

section
open Classical
variable {df : Frame} {target : Str × Str} {cfg : SDIGAConfig} {tcol : List Val} {st : SDIGAState} {l : List Pattern}

/-! ### C45 -/

theorem sortedInsert_str (a : Str) (l : List Str) :
    sortedInsert valLe (.str a) (l.map Val.str) = (sortedInsert (fun a b => strLt a b || a == b) a l).map Val.str := by
  induction l with
  | nil => rfl
  | cons b l ih =>
    have : valLe (.str a) (.str b) = (strLt a b || a == b) := rfl
    simp only [List.map_cons, sortedInsert, this]
    by_cases h : (strLt a b || a == b) = true
    · rw [if_pos h, if_pos h]; rfl
    · rw [if_neg h, if_neg h, ih]; rfl

theorem stableSort_str (l : List Str) : stableSort valLe (l.map Val.str) = (stableSort (fun a b => strLt a b || a == b) l).map Val.str := by
  induction l with
  | nil => rfl
  | cons a l ih =>
    have e : ∀ (β : Type) (le : β → β → Bool) (x : β) (m : List β), stableSort le (x :: m) = sortedInsert le x (stableSort le m) := fun _ _ _ _ => rfl
    rw [List.map_cons, e, e, ih, sortedInsert_str]

/-- C45 (dictionary): the dictionary lists, for every attribute other than the target and in the order of the columns, the different values of
the attribute in increasing order. -/
theorem C45_dictionary (hf : NominalFrame df target) :
    (encodeDict df target.1).map (·.1) = (df.cols.map (·.1)).filter (fun n => n ≠ target.1) ∧
    ∀ e ∈ encodeDict df target.1, ∃ (col : List Val) (vals : List Str), (e.1, col) ∈ df.cols ∧ e.2 = vals.map Val.str ∧
      vals.Pairwise (· < ·) ∧ ∀ v, .str v ∈ col ↔ v ∈ vals := by
  constructor
  · unfold encodeDict otherCols
    rw [List.map_map, List.filter_map]
    rfl
  · intro e he
    obtain ⟨c, hc, rfl⟩ := List.mem_map.1 he
    obtain ⟨h1, h2⟩ := (mem_otherCols c).1 hc
    obtain ⟨vs, hvs⟩ : ∃ vs : List Str, c.2.dedup = vs.map Val.str := by
      have : ∀ m : List Val, (∀ v ∈ m, ∃ s, v = .str s) → ∃ vs : List Str, m = vs.map Val.str := by
        intro m hm
        induction m with
        | nil => exact ⟨[], rfl⟩
        | cons v m ih =>
          obtain ⟨s, rfl⟩ := hm v (by simp)
          obtain ⟨vs, rfl⟩ := ih (fun v hv => hm v (by simp [hv]))
          exact ⟨s :: vs, rfl⟩
      exact this _ (fun v hv => hf.texts c h1 v (List.mem_dedup.1 hv))
    have hle : ∀ a b : Str, (strLt a b || a == b) = true ↔ a ≤ b := by
      intro a b
      rw [Bool.or_eq_true, strLt_iff, beq_iff_eq, le_iff_lt_or_eq]
    have hg : groupKeys c.2 = (stableSort (fun a b => strLt a b || a == b) vs).map Val.str := by
      unfold groupKeys; rw [hvs, stableSort_str]
    refine ⟨c.2, stableSort (fun a b => strLt a b || a == b) vs, h1, hg, ?_, ?_⟩
    · have hp := pairwise_stableSort (le := fun a b : Str => strLt a b || a == b)
        (fun a b c h1 h2 => (hle _ _).2 (le_trans ((hle _ _).1 h1) ((hle _ _).1 h2)))
        (fun a b => by rw [Bool.or_eq_true, hle, hle]; exact le_total a b) vs
      have hn := groupKeys_nodup c.2
      rw [hg] at hn
      have hn' := List.Nodup.of_map _ hn
      exact (hp.and hn').imp (fun {a b} h => lt_of_le_of_ne ((hle a b).1 h.1) h.2)
    · intro v
      rw [← mem_groupKeys, hg, List.mem_map]
      constructor
      · rintro ⟨w, hw, h⟩; cases h; exact hw
      · intro hv; exact ⟨v, hv, rfl⟩

/-- C45: a chromosome decodes to a rule, which has the condition `attribute = value` exactly for the attributes whose gene is not 0, with the
value at the position of the gene in the dictionary; in the encoded data the chromosome keeps exactly the rows that the rule covers in the
original data, the complementary filter keeps exactly the others, and the counts are those of the rule. -/
theorem C45_filter (hf : SDIGAFrame df target) (ht : df.col target.1 = .ok tcol) {c : Chrom} (hc : IsChrom df target.1 c) :
    ∃ p, decode (chromDict (encodeDict df target.1)) c = .ok p ∧ IsRule df target p.sels ∧
      (∀ s, s ∈ p.sels ↔ ∃ (k : Nat) (e : Str × List Val) (g : Nat) (v : Val), (encodeDict df target.1)[k]? = some e ∧ c[k]? = some (g + 1) ∧
        e.2[g]? = some v ∧ s = ⟨e.1, .equal, v⟩) ∧
      (filterWith c (encodeRows df target.1 tcol)).map (·.idx) = (List.range df.nrows).filter (fun i => decide (Covers df p.sels i)) ∧
      (filterWithout c (encodeRows df target.1 tcol)).map (·.idx) = (List.range df.nrows).filter (fun i => decide (¬ Covers df p.sels i)) ∧
      tpFp c (encodeRows df target.1 tcol) target.2 = (tpOf df target p.sels, fpOf df target p.sels) := by
  have hid : ∀ L : List Nat, (L.map (encRow df target.1 tcol)).map (·.idx) = L := by
    intro L
    rw [List.map_map]
    exact List.map_id L
  refine ⟨pat df target c, decode_pat hf hc, ?_, ?_, ?_, ?_, tpFp_rows hf ht hc⟩
  · have := selsOf_rule hf c
    exact ⟨fun s hs => this.form s ((mem_pattern hf s).1 hs), fun s hs t ht => this.one s ((mem_pattern hf s).1 hs) t ((mem_pattern hf t).1 ht)⟩
  · intro s
    show s ∈ (Pattern.new _).sels ↔ _
    rw [mem_pattern hf, mem_selsOf]
    constructor
    · rintro ⟨k, col, g, v, h1, h2, h3, h4, h5⟩
      refine ⟨k, (col.1, groupKeys col.2), g - 1, v, ?_, ?_, h4, h5⟩
      · unfold encodeDict; rw [List.getElem?_map, h1]; rfl
      · rw [h2]; congr 1; omega
    · rintro ⟨k, e, g, v, h1, h2, h3, h4⟩
      unfold encodeDict at h1
      rw [List.getElem?_map] at h1
      obtain ⟨col, h5, rfl⟩ := Option.map_eq_some_iff.1 h1
      exact ⟨k, col, g + 1, v, h5, h2, by omega, h3, h4⟩
  · rw [← freshRows_nil, filterWith_fresh hf hc, hid]
    apply List.filter_congr
    intro i _
    rw [Bool.eq_iff_iff, decide_eq_true_eq, decide_eq_true_eq]
    simp [CoveredBy, pat]
  · rw [← freshRows_nil, filterWithout_fresh hf hc]
    unfold freshRows
    rw [hid]
    apply List.filter_congr
    intro i _
    rw [Bool.eq_iff_iff, decide_eq_true_eq, decide_eq_true_eq]
    simp [CoveredBy, pat]

/-- C45 (split): the two filters of any chromosome split any data frame. -/
theorem C45_split (c : Chrom) (rows : List ERow) : (filterWith c rows ++ filterWithout c rows).Perm rows ∧
    (filterWith c rows).Sublist rows ∧ (filterWithout c rows).Sublist rows :=
  ⟨List.filter_append_perm _ _, List.filter_sublist, List.filter_sublist⟩

/-- C45 (one to one): every rule of the data is the meaning of exactly one chromosome. -/
theorem C45_exactly_one (hf : SDIGAFrame df target) {X : List Selector} (hX : IsRule df target X) :
    ∃! c, IsChrom df target.1 c ∧ ∃ p, decode (chromDict (encodeDict df target.1)) c = .ok p ∧ ∀ s, s ∈ p.sels ↔ s ∈ X := by
  have hnames : ((otherCols df target.1).map (·.1)).Nodup := hf.nominal.names.sublist (List.filter_sublist.map _)
  -- the gene of an attribute
  set gene : Str × List Val → Nat := fun col =>
    match X.find? (fun s => s.attr = col.1) with
    | some s => (groupKeys col.2).idxOf s.val + 1
    | none => 0 with hgene
  have hval : ∀ col ∈ otherCols df target.1, ∀ s ∈ X, s.attr = col.1 → s.val ∈ groupKeys col.2 ∧ gene col = (groupKeys col.2).idxOf s.val + 1 := by
    intro col hcol s hs ha
    obtain ⟨h1, h2⟩ := (mem_otherCols col).1 hcol
    obtain ⟨_, _, col', h3, h4⟩ := hX.form s hs
    rw [ha, lookup_of_mem_cols hf.nominal h1] at h3
    cases h3
    refine ⟨(mem_groupKeys _ _).2 h4, ?_⟩
    rw [hgene]
    simp only
    cases hfd : X.find? (fun s => decide (s.attr = col.1)) with
    | none =>
      rw [List.find?_eq_none] at hfd
      exact absurd ha (by simpa using hfd s hs)
    | some t =>
      have ht1 := List.mem_of_find?_eq_some hfd
      have ht2 := List.find?_some hfd
      simp only [decide_eq_true_eq] at ht2
      rw [hX.one t ht1 s hs (by rw [ht2, ha])]
  refine ⟨(otherCols df target.1).map gene, ⟨?_, pat df target ((otherCols df target.1).map gene), ?_, ?_⟩, ?_⟩
  · rw [isChrom_iff, List.forall₂_map_right_iff, List.forall₂_same]
    intro col hcol
    rw [hgene]
    simp only
    cases hfd : X.find? (fun s => decide (s.attr = col.1)) with
    | none => exact Nat.zero_le _
    | some t =>
      have ht1 := List.mem_of_find?_eq_some hfd
      have ht2 := List.find?_some hfd
      simp only [decide_eq_true_eq] at ht2
      have := List.idxOf_lt_length_of_mem (hval col hcol t ht1 ht2).1
      rw [groupKeys_length] at this
      exact this
  · apply decode_pat hf
    rw [isChrom_iff, List.forall₂_map_right_iff, List.forall₂_same]
    intro col hcol
    rw [hgene]
    simp only
    cases hfd : X.find? (fun s => decide (s.attr = col.1)) with
    | none => exact Nat.zero_le _
    | some t =>
      have ht1 := List.mem_of_find?_eq_some hfd
      have ht2 := List.find?_some hfd
      simp only [decide_eq_true_eq] at ht2
      have := List.idxOf_lt_length_of_mem (hval col hcol t ht1 ht2).1
      rw [groupKeys_length] at this
      exact this
  · intro s
    show s ∈ (Pattern.new _).sels ↔ _
    rw [mem_pattern hf, mem_selsOf]
    constructor
    · rintro ⟨k, col, g, v, h1, h2, h3, h4, rfl⟩
      rw [List.getElem?_map, h1] at h2
      simp only [Option.map_some, Option.some.injEq] at h2
      have hcol := List.mem_of_getElem? h1
      cases hfd : X.find? (fun s => decide (s.attr = col.1)) with
      | none =>
        rw [hgene] at h2
        simp only [hfd] at h2
        omega
      | some t =>
        have ht1 := List.mem_of_find?_eq_some hfd
        have ht2 := List.find?_some hfd
        simp only [decide_eq_true_eq] at ht2
        obtain ⟨k1, k2⟩ := hval col hcol t ht1 ht2
        have hop := (hX.form t ht1).1
        have hlt := List.idxOf_lt_length_of_mem k1
        rw [← h2, k2, Nat.add_sub_cancel, List.getElem?_eq_getElem hlt, List.getElem_idxOf hlt] at h4
        cases h4
        obtain ⟨a, op, v⟩ := t
        simp only at ht2 hop
        rw [ht2, hop] at ht1
        exact ht1
    · intro hs
      obtain ⟨h1, h2, col, h3, h4⟩ := hX.form s hs
      have hm : (s.attr, col) ∈ otherCols df target.1 := (mem_otherCols _).2 ⟨mem_of_lookup h3, h2⟩
      obtain ⟨k, hk⟩ := List.mem_iff_getElem?.1 hm
      obtain ⟨k1, k2⟩ := hval _ hm s hs rfl
      have hlt := List.idxOf_lt_length_of_mem k1
      refine ⟨k, _, _, s.val, hk, by rw [List.getElem?_map, hk]; rfl, by rw [k2]; omega, ?_, ?_⟩
      · rw [k2, Nat.add_sub_cancel, List.getElem?_eq_getElem hlt, List.getElem_idxOf hlt]
      · obtain ⟨a, op, v⟩ := s
        simp only at h1
        rw [h1]
  · rintro c ⟨hc, p, hp, hpX⟩
    rw [decode_pat hf hc] at hp
    cases hp
    have hlen : (otherCols df target.1).length = c.length := (isChrom_iff.1 hc).length_eq
    apply List.ext_getElem?
    intro k
    rw [List.getElem?_map]
    cases hk : (otherCols df target.1)[k]? with
    | none =>
      rw [List.getElem?_eq_none_iff] at hk
      rw [Option.map_none, List.getElem?_eq_none_iff]
      omega
    | some col =>
      have hcol := List.mem_of_getElem? hk
      obtain ⟨hklt, _⟩ := List.getElem?_eq_some_iff.1 hk
      rw [List.getElem?_eq_getElem (by omega : k < c.length), Option.map_some]
      congr 1
      by_cases h0 : c[k] = 0
      · rw [h0]
        rw [hgene]
        simp only
        cases hfd : X.find? (fun s => decide (s.attr = col.1)) with
        | none => rfl
        | some t =>
          exfalso
          have ht1 := List.mem_of_find?_eq_some hfd
          have ht2 := List.find?_some hfd
          simp only [decide_eq_true_eq] at ht2
          have := (mem_pattern hf t).1 ((hpX t).2 ht1)
          obtain ⟨k', col', g, v, h1, h2, h3, h4, rfl⟩ := mem_selsOf.1 this
          have hkk : k = k' := by
            have e1 : ((otherCols df target.1).map (·.1))[k]? = some col.1 := by rw [List.getElem?_map, hk]; rfl
            have e2 : ((otherCols df target.1).map (·.1))[k']? = some col.1 := by rw [List.getElem?_map, h1]; exact congrArg some ht2
            exact (List.Nodup.getElem_inj_iff hnames (hi := (List.getElem?_eq_some_iff.1 e1).1) (hj := (List.getElem?_eq_some_iff.1 e2).1)).1
              (by rw [(List.getElem?_eq_some_iff.1 e1).2, (List.getElem?_eq_some_iff.1 e2).2])
          subst hkk
          rw [List.getElem?_eq_getElem (by omega : k < c.length)] at h2
          cases h2
          exact h3 h0
      · have hg := gene_le hc hk (List.getElem?_eq_getElem (by omega : k < c.length))
        have hlt : c[k] - 1 < (groupKeys col.2).length := by rw [groupKeys_length]; omega
        have hs : (⟨col.1, .equal, (groupKeys col.2)[c[k] - 1]⟩ : Selector) ∈ X := by
          rw [← hpX]
          exact (mem_pattern hf _).2 (mem_selsOf.2 ⟨k, col, c[k], _, hk, List.getElem?_eq_getElem _, h0, List.getElem?_eq_getElem hlt, rfl⟩)
        rw [(hval col hcol _ hs rfl).2]
        have := (groupKeys_nodup col.2).idxOf_getElem (c[k] - 1) hlt
        simp only
        omega

/-! ### C44 -/

/-- the object in the course of `fit`, after the rules `l` were found: its counters are those of the data, and the unchecked rows are the
encoded rows that no rule of `l` covers -/
structure SDIGARunning (df : Frame) (target : Str × Str) (tcol : List Val) (l : List Pattern) (st : SDIGAState) : Prop where
  TP : st.TP = tpOf df target []
  FP : st.FP = fpOf df target []
  unchecked : st.unchecked = (encodeRows df target.1 tcol).filter (fun r => decide (¬ CoveredBy df l r.idx))
  TPu : st.TPu = freshTp df target l []
  FPu : st.FPu = freshFp df target l []

theorem ctx_iff : SDIGARunning df target tcol l st ↔ Ctx df target tcol l st := by
  have : (encodeRows df target.1 tcol).filter (fun r => decide (¬ CoveredBy df l r.idx)) = freshRows df target.1 tcol l := by
    unfold encodeRows freshRows
    rw [List.filter_map]
    rfl
  constructor
  · rintro ⟨h1, h2, h3, h4, h5⟩; exact ⟨h1, h2, by rw [h3, this], h4, h5⟩
  · rintro ⟨h1, h2, h3, h4, h5⟩; exact ⟨h1, h2, by rw [h3, this], h4, h5⟩

/-- C44: local search of a chromosome `c` with pattern `p` always ends. Its search reaches a pattern `q` that generalises `p` (its conditions are
conditions of `p`), whose support and confidence are at least those of `p`, with more support unless it is `p` itself, and from which no
condition can be dropped any more with a gain of support and no loss of confidence. If the confidence of `q` is at least the minimum, `q`'s chromosome is
returned with its confidence, its fitness and its counts; otherwise `c` is returned with its fitness and its counts, and the confidence returned is that of `q`,
less than the minimum. -/
theorem C44_local_search (hf : SDIGAFrame df target) (ht : df.col target.1 = .ok tcol) (hx : SDIGARunning df target tcol l st)
    (hw : cfg.supW + cfg.confW ≠ 0) {c : Chrom} (hc : IsChrom df target.1 c) {p : Pattern}
    (hp : decode (chromDict (encodeDict df target.1)) c = .ok p) :
    ∃ d q, IsChrom df target.1 d ∧ decode (chromDict (encodeDict df target.1)) d = .ok q ∧ (∀ s ∈ q.sels, s ∈ p.sels) ∧
      suppOf df target p.sels ≤ suppOf df target q.sels ∧ confOf df target p.sels ≤ confOf df target q.sels ∧
      (d = c ∨ suppOf df target p.sels < suppOf df target q.sels) ∧
      (∀ s ∈ q.sels, ∀ X, (∀ t, t ∈ X ↔ t ∈ q.sels ∧ t ≠ s) →
        ¬ (suppOf df target q.sels < suppOf df target X ∧ confOf df target q.sels ≤ confOf df target X)) ∧
      ((cfg.minConf ≤ confOf df target q.sels ∧ localSearch cfg st (encodeRows df target.1 tcol) target.2 c =
          .ok (d, confOf df target q.sels, fitOf cfg df target l q.sels, tpOf df target q.sels, fpOf df target q.sels)) ∨
       (confOf df target q.sels < cfg.minConf ∧ localSearch cfg st (encodeRows df target.1 tcol) target.2 c =
          .ok (c, confOf df target q.sels, fitOf cfg df target l p.sels, tpOf df target p.sels, fpOf df target p.sels))) := by
  rw [decode_pat hf hc] at hp
  cases hp
  obtain ⟨d, k1, k2, k3, k4, k5⟩ := localSearch_spec hf ht (ctx_iff.1 hx) hw hc
  have hd := k1.isChrom hc
  refine ⟨d, pat df target d, hd, decode_pat hf hd, k1.pat hf, ?_, k3, k2, ?_, ?_⟩
  · rcases k2 with rfl | k2
    · exact le_refl _
    · exact le_of_lt k2
  · intro s hs X hX ⟨h1, h2⟩
    obtain ⟨k, col, g, v, g1, g2, g3, g4, rfl⟩ := mem_selsOf.1 ((mem_pattern hf s).1 hs)
    have hset : ∀ t, t ∈ X ↔ t ∈ (pat df target (d.set k 0)).sels := by
      intro t
      rw [hX]
      show _ ↔ t ∈ (Pattern.new _).sels
      rw [mem_pattern hf]
      constructor
      · rintro ⟨ht, hne⟩
        obtain ⟨k', col', g', v', a1, a2, a3, a4, rfl⟩ := mem_selsOf.1 ((mem_pattern hf t).1 ht)
        have hkk : k ≠ k' := by
          rintro rfl
          rw [g1] at a1; cases a1
          rw [g2] at a2; cases a2
          rw [g4] at a4; cases a4
          exact hne rfl
        exact mem_selsOf.2 ⟨k', col', g', v', a1, by rw [List.getElem?_set_ne hkk]; exact a2, a3, a4, rfl⟩
      · intro ht
        obtain ⟨k', col', g', v', a1, a2, a3, a4, rfl⟩ := mem_selsOf.1 ht
        have hkk : k ≠ k' := by
          rintro rfl
          obtain ⟨hlt, _⟩ := List.getElem?_eq_some_iff.1 g2
          rw [List.getElem?_set_self hlt] at a2
          cases a2
          exact a3 rfl
        rw [List.getElem?_set_ne hkk] at a2
        refine ⟨(mem_pattern hf _).2 (mem_selsOf.2 ⟨k', col', g', v', a1, a2, a3, a4, rfl⟩), ?_⟩
        intro he
        have hn : ((otherCols df target.1).map (·.1)).Nodup := hf.nominal.names.sublist (List.filter_sublist.map _)
        have e1 : ((otherCols df target.1).map (·.1))[k]? = some col.1 := by rw [List.getElem?_map, g1]; rfl
        have e2 : ((otherCols df target.1).map (·.1))[k']? = some col.1 := by
          rw [List.getElem?_map, a1]
          exact congrArg some (congrArg Selector.attr he)
        exact hkk ((List.Nodup.getElem_inj_iff hn (hi := (List.getElem?_eq_some_iff.1 e1).1) (hj := (List.getElem?_eq_some_iff.1 e2).1)).1
          (by rw [(List.getElem?_eq_some_iff.1 e1).2, (List.getElem?_eq_some_iff.1 e2).2]))
    have hsupp : suppOf df target X = (met df target (d.set k 0)).support := by
      simp only [suppOf, met, tpOf_congr hset]
    have hconf : confOf df target X = (met df target (d.set k 0)).confidence := by
      simp only [confOf, met, tpOf_congr hset, fpOf_congr hset]
    have hpos : 0 < confOf df target X := by
      have h0 : 0 ≤ suppOf df target (pat df target d).sels := by unfold suppOf; positivity
      have h3 : 0 < suppOf df target X := lt_of_le_of_lt h0 h1
      unfold suppOf at h3
      have h4 : (0 : Rat) < tpOf df target X := by
        by_contra hn
        have : (tpOf df target X : Rat) = 0 := le_antisymm (not_lt.1 hn) (Nat.cast_nonneg _)
        rw [this, zero_div] at h3
        exact lt_irrefl _ h3
      unfold confOf
      apply div_pos h4
      positivity
    have := k4 k ⟨by rw [g2]; exact g3, by rw [← hsupp]; exact le_of_lt h1, by rw [← hconf]; exact h2, by rw [← hconf]; exact hpos⟩
    rw [← hsupp] at this
    exact absurd h1 (not_lt.2 this)
  · by_cases hm : (met df target d).confidence ≥ cfg.minConf
    · left
      rw [if_pos hm] at k5
      exact ⟨hm, k5⟩
    · right
      rw [if_neg hm] at k5
      exact ⟨not_le.1 hm, k5⟩

/-! ### C43, C62, C63 -/

/-- an object made by the constructor -/
def SDIGABuilt (cfg : SDIGAConfig) : Prop :=
  ∃ mg ps cp mp cw sw mc w pth, SDIGAConfig.new mg ps cp mp cw sw mc w pth = .ok cfg

/-- C64 (constructor): for arguments of the documented types, exactly these values are accepted. -/
theorem C64_constructor (mg ps : Int) (cp mp cw sw mc : Rat) (w pth : Bool) :
    (SDIGAConfig.new mg ps cp mp cw sw mc w pth = .ok ⟨mg.toNat, ps.toNat, cp, mp, cw, sw, mc, w⟩ ↔
      (w = true → pth = true) ∧ 0 < mg ∧ 0 < ps ∧ (0 < cp ∧ cp < 1) ∧ (0 < mp ∧ mp < 1) ∧ 0 ≤ sw ∧ 0 ≤ cw ∧ 0 ≤ mc) ∧
    (¬ ((w = true → pth = true) ∧ 0 < mg ∧ 0 < ps ∧ (0 < cp ∧ cp < 1) ∧ (0 < mp ∧ mp < 1) ∧ 0 ≤ sw ∧ 0 ≤ cw ∧ 0 ≤ mc) →
      SDIGAConfig.new mg ps cp mp cw sw mc w pth = .error .valueError) := by
  have key : SDIGAConfig.new mg ps cp mp cw sw mc w pth =
      if (w = true → pth = true) ∧ 0 < mg ∧ 0 < ps ∧ (0 < cp ∧ cp < 1) ∧ (0 < mp ∧ mp < 1) ∧ 0 ≤ sw ∧ 0 ≤ cw ∧ 0 ≤ mc then
        .ok ⟨mg.toNat, ps.toNat, cp, mp, cw, sw, mc, w⟩ else .error .valueError := by
    unfold SDIGAConfig.new
    by_cases h1 : (w && !pth) = true
    · rw [if_pos h1, if_neg]
      rintro ⟨h, _⟩
      simp only [Bool.and_eq_true, Bool.not_eq_true'] at h1
      rw [h h1.1] at h1
      exact absurd h1.2 (by simp)
    rw [if_neg h1]
    have h1' : w = true → pth = true := by
      intro hw
      rw [hw] at h1
      simpa using h1
    by_cases h2 : mg ≤ 0
    · rw [if_pos h2, if_neg]; rintro ⟨_, h, _⟩; omega
    rw [if_neg h2]
    by_cases h3 : ps ≤ 0
    · rw [if_pos h3, if_neg]; rintro ⟨_, _, h, _⟩; omega
    rw [if_neg h3]
    by_cases h4 : cp ≤ 0 ∨ cp ≥ 1
    · rw [if_pos h4, if_neg]
      rintro ⟨_, _, _, h, _⟩
      rcases h4 with h4 | h4 <;> linarith [h.1, h.2]
    rw [if_neg h4]
    by_cases h5 : mp ≤ 0 ∨ mp ≥ 1
    · rw [if_pos h5, if_neg]
      rintro ⟨_, _, _, _, h, _⟩
      rcases h5 with h5 | h5 <;> linarith [h.1, h.2]
    rw [if_neg h5]
    by_cases h6 : sw < 0
    · rw [if_pos h6, if_neg]; rintro ⟨_, _, _, _, _, h, _⟩; linarith
    rw [if_neg h6]
    by_cases h7 : cw < 0
    · rw [if_pos h7, if_neg]; rintro ⟨_, _, _, _, _, _, h, _⟩; linarith
    rw [if_neg h7]
    by_cases h8 : mc < 0
    · rw [if_pos h8, if_neg]; rintro ⟨_, _, _, _, _, _, _, h⟩; linarith
    rw [if_neg h8, if_pos]
    push Not at h2 h3 h4 h5 h6 h7 h8
    exact ⟨h1', h2, h3, h4, h5, h6, h7, h8⟩
  rw [key]
  constructor
  · by_cases h : (w = true → pth = true) ∧ 0 < mg ∧ 0 < ps ∧ (0 < cp ∧ cp < 1) ∧ (0 < mp ∧ mp < 1) ∧ 0 ≤ sw ∧ 0 ≤ cw ∧ 0 ≤ mc
    · rw [if_pos h]; exact ⟨fun _ => h, fun _ => rfl⟩
    · rw [if_neg h]; exact ⟨fun h' => (by cases h'), fun h' => absurd h' h⟩
  · intro h
    rw [if_neg h]

theorem SDIGABuilt.pos (h : SDIGABuilt cfg) : 0 < cfg.maxGen ∧ 0 < cfg.popSize ∧ 0 ≤ cfg.supW ∧ 0 ≤ cfg.confW ∧ 0 ≤ cfg.minConf := by
  obtain ⟨mg, ps, cp, mp, cw, sw, mc, w, pth, h⟩ := h
  by_cases hc : (w = true → pth = true) ∧ 0 < mg ∧ 0 < ps ∧ (0 < cp ∧ cp < 1) ∧ (0 < mp ∧ mp < 1) ∧ 0 ≤ sw ∧ 0 ≤ cw ∧ 0 ≤ mc
  · have := (C64_constructor mg ps cp mp cw sw mc w pth).1.2 hc
    rw [this] at h
    cases h
    refine ⟨?_, ?_, hc.2.2.2.2.2.1, hc.2.2.2.2.2.2.1, hc.2.2.2.2.2.2.2⟩
    · show 0 < mg.toNat
      have := hc.2.1; omega
    · show 0 < ps.toNat
      have := hc.2.2.1; omega
  · rw [(C64_constructor mg ps cp mp cw sw mc w pth).2 hc] at h
    cases h

/-- an object with weights that are not both 0 and at least two individuals, a data set with at least two attributes besides the target in which
the target value appears, and random choices that can happen -/
structure SDIGAReady (cfg : SDIGAConfig) (df : Frame) (target : Str × Str) (o : Nat → SDIGAChoice) : Prop where
  built : SDIGABuilt cfg
  weights : 0 < cfg.supW + cfg.confW
  two : 2 ≤ cfg.popSize
  frame : SDIGAFrame df target
  occurs : ∃ i, MatchesAt df (targetSel target) i
  attrs : 2 ≤ (df.cols.filter (fun e => e.1 ≠ target.1)).length
  choices : ∀ k, Possible cfg df target.1 (o k)

theorem pat_rule (hf : SDIGAFrame df target) (c : Chrom) : IsRule df target (pat df target c).sels := by
  have := selsOf_rule hf c
  exact ⟨fun s hs => this.form s ((mem_pattern hf s).1 hs), fun s hs t ht => this.one s ((mem_pattern hf s).1 hs) t ((mem_pattern hf t).1 ht)⟩

/-- C43: for every sequence of random choices the outer loop stops, after at most as many turns as there are rules, plus one. The patterns
returned are rules of the data, with a confidence of at least `min_confidence`; they are pairwise different and none is refined by a later one. The loop stops
because the last turn found a rule, at least as fit as every individual of its first population, that an earlier pattern generalises or whose confidence is too low. -/
theorem C43_results {o : Nat → SDIGAChoice} (h : SDIGAReady cfg df target o) (st : SDIGAState) :
    ∃ st', (∀ fuel, ruleCount df target.1 < fuel → SDIGA.fit cfg o fuel st df target = some (.ok st')) ∧
      st'.cases.length ≤ ruleCount df target.1 ∧
      (∀ p ∈ st'.cases, IsRule df target p.sels ∧ cfg.minConf ≤ confOf df target p.sels) ∧
      st'.cases.Pairwise (fun p q => p ≠ q ∧ p.isRefinement q true = false) ∧
      ∃ X, IsRule df target X ∧
        (∀ c ∈ (o st'.cases.length).pop, ∀ q, decode (chromDict (encodeDict df target.1)) c = .ok q →
          fitOf cfg df target st'.cases q.sels ≤ fitOf cfg df target st'.cases X) ∧
        ((∃ p ∈ st'.cases, ∀ s ∈ p.sels, s ∈ X) ∨ confOf df target X < cfg.minConf) := by
  obtain ⟨tcol, st', h1, h2, h3, e, e1, e2, e3⟩ := fit_ok h.frame h.occurs h.built.pos.2.2.1 h.built.pos.2.2.2.1 (ne_of_gt h.weights) h.attrs h.two h.choices st
  refine ⟨st', h2, h3.bound, fun p hp => ⟨?_, h3.conf p hp⟩, ?_, (pat df target e).sels, pat_rule h.frame e, ?_, e3⟩
  · obtain ⟨c, _, rfl⟩ := h3.rule p hp
    exact pat_rule h.frame c
  · refine h3.new.imp ?_
    intro p q hpq
    refine ⟨fun he => hpq (fun s hs => he ▸ hs), ?_⟩
    rw [← Bool.not_eq_true, Pattern.isRefinement_iff]
    exact fun hh => hpq hh.1
  · intro c hc q hq
    have hcc := (h.choices _).pop c hc
    rw [decode_pat h.frame hcc] at hq
    cases hq
    exact e2 c hc

/-- C62: after `fit`, as many subgroups more were selected as patterns were returned; each of the turns (one more than the patterns) added two unselected
subgroups per generation and one per individual of the population but one. The file, if there is one, has one line per pattern, in the order in which
they were found: the subgroup, its fitness, its counts on the data, the counts of the data, its counts on the rows not covered by the earlier patterns and the counts of these rows.
Otherwise it is left alone. -/
theorem C62_counters_and_file {o : Nat → SDIGAChoice} (h : SDIGAReady cfg df target o) (st : SDIGAState) {fuel : Nat} {st' : SDIGAState}
    (hfit : SDIGA.fit cfg o fuel st df target = some (.ok st')) (hfuel : ruleCount df target.1 < fuel) :
    st'.selected = st.selected + st'.cases.length ∧
    st'.unselected = st.unselected + (st'.cases.length + 1) * (2 * cfg.maxGen + (cfg.popSize - 1)) ∧
    (∃ tcol, df.col target.1 = .ok tcol ∧ SDIGARunning df target tcol st'.cases st') ∧
    (cfg.write = true → st'.file.length = st'.cases.length ∧
      ∀ k p x, st'.cases[k]? = some p → st'.file[k]? = some x → LineOK cfg df target (st'.cases.take k) p x) ∧
    (cfg.write = false → st'.file = st.file) := by
  obtain ⟨tcol, st'', h1, h2, h3, _⟩ := fit_ok h.frame h.occurs h.built.pos.2.2.1 h.built.pos.2.2.2.1 (ne_of_gt h.weights) h.attrs h.two h.choices st
  rw [h2 fuel hfuel] at hfit
  cases hfit
  exact ⟨h3.selected, h3.unselected, ⟨tcol, h1, ctx_iff.2 h3.ctx⟩, h3.file, h3.nofile⟩

/-- C63: the `k`-th pattern returned is at least as fit (given the patterns before it) as every individual of the first population of its turn. -/
theorem C63_as_fit_as_the_population {o : Nat → SDIGAChoice} (h : SDIGAReady cfg df target o) (st : SDIGAState) {fuel : Nat} {st' : SDIGAState}
    (hfit : SDIGA.fit cfg o fuel st df target = some (.ok st')) (hfuel : ruleCount df target.1 < fuel)
    {k : Nat} {p : Pattern} (hk : st'.cases[k]? = some p) {c : Chrom} (hc : c ∈ (o k).pop) {q : Pattern}
    (hq : decode (chromDict (encodeDict df target.1)) c = .ok q) :
    fitOf cfg df target (st'.cases.take k) q.sels ≤ fitOf cfg df target (st'.cases.take k) p.sels := by
  obtain ⟨tcol, st'', h1, h2, h3, _⟩ := fit_ok h.frame h.occurs h.built.pos.2.2.1 h.built.pos.2.2.2.1 (ne_of_gt h.weights) h.attrs h.two h.choices st
  rw [h2 fuel hfuel] at hfit
  cases hfit
  have hcc := (h.choices k).pop c hc
  rw [decode_pat h.frame hcc] at hq
  cases hq
  exact h3.elite k p hk c hc

/-- C63 (crossover): between the two points the children exchange the genes of their parents; elsewhere each child has the genes of its own parent.
Without a crossover the children are copies of their parents. -/
theorem C63_crossover {c1 c2 : Chrom} (hl : c1.length = c2.length) (h2 : 2 ≤ c1.length) :
    crossover none c1 c2 = .ok (c1, c2) ∧
    ∀ a b, a < b → b < c1.length → ∃ d1 d2, crossover (some (a, b)) c1 c2 = .ok (d1, d2) ∧ ∀ i : Nat,
      d1[i]? = (if a ≤ i ∧ i < b then c2[i]? else c1[i]?) ∧ d2[i]? = (if a ≤ i ∧ i < b then c1[i]? else c2[i]?) := by
  refine ⟨rfl, fun a b hab hb => ⟨_, _, by simp only [crossover]; rw [if_neg (by omega)], fun i => ?_⟩⟩
  have key : ∀ x y : Chrom, x.length = y.length → b < x.length →
      (x.take a ++ (y.take b).drop a ++ x.drop b)[i]? = if a ≤ i ∧ i < b then y[i]? else x[i]? := by
    intro x y hxy hbx
    by_cases h1 : i < a
    · rw [if_neg (by omega), List.getElem?_append_left (by simp; omega), List.getElem?_append_left (by simp; omega), List.getElem?_take, if_pos h1]
    · by_cases h3 : i < b
      · rw [if_pos (by omega), List.getElem?_append_left (by simp; omega), List.getElem?_append_right (by simp; omega), List.getElem?_drop, List.getElem?_take]
        have : a + (i - (x.take a).length) = i := by rw [List.length_take]; omega
        rw [this, if_pos h3]
      · rw [if_neg (by omega), List.getElem?_append_right (by simp; omega), List.getElem?_drop]
        congr 1
        simp
        omega
  exact ⟨key c1 c2 hl hb, key c2 c1 hl.symm (hl ▸ hb)⟩

/-- C63 (mutation): a mutation sets one gene to its new value and leaves the others; without a mutation the chromosome stays. -/
theorem C63_mutation (c : Chrom) : mutation none c = c ∧ ∀ i g, i < c.length → ∀ j : Nat,
    (mutation (some (i, g)) c)[j]? = if j = i then some g else c[j]? := by
  refine ⟨rfl, fun i g hi j => ?_⟩
  unfold mutation
  rw [List.getElem?_set]
  by_cases h : i = j
  · subst h; simp [hi]
  · rw [if_neg h, if_neg (fun h' => h h'.symm)]

example : crossover (some (1, 3)) [1, 2, 3, 4] [5, 6, 7, 8] = .ok ([1, 6, 7, 4], [5, 2, 3, 8]) := by decide

theorem setLast_eq {pop : List Ind} (h : pop ≠ []) (x : Ind) : setLast pop x = pop.dropLast ++ [x] := by
  unfold setLast
  obtain ⟨l, y, rfl⟩ : ∃ l y, pop = l ++ [y] := ⟨pop.dropLast, pop.getLast h, (List.dropLast_append_getLast h).symm⟩
  simp

/-- C63 (generation): a generation replaces the last individual of the population (which is sorted, best first) by the second of the two children of the first
two individuals; all the others stay, and the first child is never kept. The new population is sorted again. -/
theorem C63_generation (hf : SDIGAFrame df target) (ht : df.col target.1 = .ok tcol) (hx : SDIGARunning df target tcol l st)
    (hw : cfg.supW + cfg.confW ≠ 0) (hn : 2 ≤ (df.cols.filter (fun e => e.1 ≠ target.1)).length) {pop : List Ind} {i1 i2 : Ind}
    (hlen : pop.length = cfg.popSize) (h0 : pop[0]? = some i1) (h1 : pop[1]? = some i2) (hc1 : IsChrom df target.1 i1.genes)
    (hc2 : IsChrom df target.1 i2.genes) {g : GenChoice}
    (hc : ∀ a b, g.cross = some (a, b) → a < b ∧ b < (df.cols.filter (fun e => e.1 ≠ target.1)).length) (hm1 : IsMutation df target.1 g.mut1)
    (hm2 : IsMutation df target.1 g.mut2) (hs : BestFirst g.sort) :
    ∃ d1 d2 p2 pop', crossover g.cross i1.genes i2.genes = .ok (d1, d2) ∧
      decode (chromDict (encodeDict df target.1)) (mutation g.mut2 d2) = .ok p2 ∧
      generation cfg st (encodeRows df target.1 tcol) target.2 pop g = .ok pop' ∧
      pop'.Perm (pop.dropLast ++ [⟨mutation g.mut2 d2, fitOf cfg df target l p2.sels⟩]) ∧ pop'.Pairwise (fun a b => b.fit ≤ a.fit) := by
  obtain ⟨d1, d2, e1, e2, e3⟩ := crossover_ok hc1 hc2 hn hc
  have e4 := mutation_ok e2 hm1
  have e5 := mutation_ok e3 hm2
  have hne : pop ≠ [] := by rintro rfl; simp at h0
  have hset : setLast (setLast pop ⟨mutation g.mut1 d1, fitOf cfg df target l (pat df target (mutation g.mut1 d1)).sels⟩)
      ⟨mutation g.mut2 d2, fitOf cfg df target l (pat df target (mutation g.mut2 d2)).sels⟩ =
      pop.dropLast ++ [⟨mutation g.mut2 d2, fitOf cfg df target l (pat df target (mutation g.mut2 d2)).sels⟩] := by
    rw [setLast_eq hne, setLast_eq (by simp), List.dropLast_concat]
  have hpos : 0 < pop.length := List.length_pos_iff.2 hne
  obtain ⟨s1, s2⟩ := hs (pop.dropLast ++ [⟨mutation g.mut2 d2, fitOf cfg df target l (pat df target (mutation g.mut2 d2)).sels⟩])
  refine ⟨d1, d2, pat df target (mutation g.mut2 d2), _, e1, decode_pat hf e5, ?_, s1, s2⟩
  unfold generation
  rw [h0, h1]
  simp only [bind, Except.bind, e1]
  rw [fitness_ok hf ht (ctx_iff.1 hx) hw e4]
  simp only
  rw [fitness_ok hf ht (ctx_iff.1 hx) hw e5]
  simp only [pure, Except.pure]
  rw [hset, List.take_of_length_le]
  rw [s1.length_eq, List.length_append, List.length_dropLast, List.length_singleton]
  omega

/-! ### C64 -/

/-- C64 (data): the data set must be nominal, have the target attribute, and contain the target value. -/
theorem C64_rejects (o : Nat → SDIGAChoice) (fuel : Nat) (st : SDIGAState) :
    ((∃ c ∈ df.cols, ∃ v ∈ c.2, ∀ s, v ≠ .str s) → SDIGA.fit cfg o fuel st df target = some (.error .datasetAttributeType)) ∧
    ((∀ c ∈ df.cols, ∀ v ∈ c.2, ∃ s, v = .str s) → target.1 ∉ df.cols.map (·.1) → SDIGA.fit cfg o fuel st df target = some (.error .keyError)) ∧
    (NominalFrame df target → (¬ ∃ i, MatchesAt df (targetSel target) i) → SDIGA.fit cfg o fuel st df target = some (.error .valueError)) := by
  refine ⟨?_, ?_, ?_⟩
  · rintro ⟨c, hc, v, hv, h⟩
    have : df.nominal = false := by
      rw [← Bool.not_eq_true]
      intro hn
      simp only [Frame.nominal, List.all_eq_true] at hn
      have := hn c hc v hv
      cases v with
      | str s => exact h s rfl
      | _ => simp [Val.isStr] at this
    unfold SDIGA.fit
    rw [this]
    rfl
  · intro hall hno
    have hn : df.nominal = true := by
      simp only [Frame.nominal, List.all_eq_true]
      intro c hc v hv
      obtain ⟨s, rfl⟩ := hall c hc v hv
      rfl
    have hl : df.cols.lookup target.1 = none := by
      rw [List.lookup_eq_none_iff]
      intro e he
      simp only [ne_eq, bne_iff_ne]
      intro hh
      exact hno (List.mem_map.2 ⟨e, he, hh.symm⟩)
    unfold SDIGA.fit Frame.col
    rw [hn, hl]
    rfl
  · intro hf hno
    obtain ⟨c, hc, hct⟩ := List.mem_map.1 hf.target
    have hl := lookup_of_mem_cols hf hc
    rw [hct] at hl
    have hany : c.2.any (fun v => v.eq (.str target.2)) = false := by
      rw [← Bool.not_eq_true]
      intro h
      obtain ⟨v, hv, h⟩ := List.any_eq_true.1 h
      obtain ⟨i, hi⟩ := List.mem_iff_getElem?.1 hv
      exact hno ⟨i, c.2, v, hl, hi, by simp [targetSel, Op.evaluate, h]⟩
    unfold SDIGA.fit Frame.col
    rw [nominal_of hf, hl]
    simp [hany]

theorem fit_start (hf : SDIGAFrame df target) (hocc : ∃ i, MatchesAt df (targetSel target) i) (o : Nat → SDIGAChoice) (fuel : Nat) (st : SDIGAState) :
    ∃ tcol st0, df.col target.1 = .ok tcol ∧ Ctx df target tcol [] st0 ∧ st0.cases = [] ∧
      SDIGA.fit cfg o fuel st df target = loop cfg (encodeRows df target.1 tcol) target (encodeDict df target.1) o fuel 0 st0 := by
  obtain ⟨c, hc, hct⟩ := List.mem_map.1 hf.nominal.target
  have hl := lookup_of_mem_cols hf.nominal hc
  rw [hct] at hl
  have htc : df.col target.1 = .ok c.2 := by unfold Frame.col; rw [hl]
  have hany : c.2.any (fun v => v.eq (.str target.2)) = true := by
    obtain ⟨i, col, v, h1, h2, h3⟩ := hocc
    have h1' : df.cols.lookup target.1 = some col := h1
    rw [hl] at h1'
    cases h1'
    rw [List.any_eq_true]
    refine ⟨v, List.mem_of_getElem? h2, ?_⟩
    simpa [targetSel, Op.evaluate] using h3
  have hTP := TP_eq hf htc
  have hFP : df.nrows - tpOf df target [] = fpOf df target [] := by have := tp_add_fp_nil (df := df) (target := target); omega
  refine ⟨c.2, { st with file := if cfg.write then [] else st.file
                         cases := [], unchecked := encodeRows df target.1 c.2, TP := tpOf df target [],
                         FP := fpOf df target [], TPu := tpOf df target [], FPu := fpOf df target [] }, htc, ⟨rfl, rfl, ?_, ?_, ?_⟩, rfl, ?_⟩
  · exact (freshRows_nil _ _).symm
  · exact (freshTp_nil []).symm
  · exact (freshFp_nil []).symm
  · unfold SDIGA.fit
    rw [nominal_of hf.nominal, htc]
    simp only [Bool.not_true, hany]
    rw [if_neg (by simp), if_neg (by simp), hTP, hFP]

theorem loop_error {rows : List ERow} {dict : List (Str × List Val)} {o : Nat → SDIGAChoice} {e : PyErr} {fuel : Nat} (hfuel : 0 < fuel)
    (h : evolve cfg st rows target.2 dict (o 0) = .error e) : loop cfg rows target dict o fuel 0 st = some (.error e) := by
  cases fuel with
  | zero => omega
  | succ fuel =>
    unfold loop turn
    rw [h]
    rfl

/-- C64 (one individual): the constructor accepts a population of one individual, but `fit` then always raises `IndexError`. -/
theorem C64_population_of_one {o : Nat → SDIGAChoice} (hb : SDIGABuilt cfg) (h1 : cfg.popSize = 1) (hw : 0 < cfg.supW + cfg.confW)
    (hf : SDIGAFrame df target) (hocc : ∃ i, MatchesAt df (targetSel target) i) (ho : Possible cfg df target.1 (o 0)) (st : SDIGAState)
    {fuel : Nat} (hfuel : 0 < fuel) : SDIGA.fit cfg o fuel st df target = some (.error .indexError) := by
  obtain ⟨tcol, st0, htc, hx, hcs, heq⟩ := fit_start (cfg := cfg) hf hocc o fuel st
  rw [heq]
  apply loop_error hfuel
  unfold evolve
  rw [evaluate_ok hf htc hx (ne_of_gt hw) ho.pop]
  simp only [bind, Except.bind]
  obtain ⟨s1, _⟩ := ho.sort ((o 0).pop.map (fun c => ⟨c, F cfg df target [] c⟩))
  have hlen : ((o 0).sort ((o 0).pop.map (fun c => ⟨c, F cfg df target [] c⟩))).length = 1 := by
    rw [s1.length_eq, List.length_map, ho.size, h1]
  obtain ⟨m, hm⟩ : ∃ m, cfg.maxGen = m + 1 := ⟨cfg.maxGen - 1, by have := hb.pos.1; omega⟩
  rw [hm, List.range_succ_eq_map, List.foldlM_cons]
  have : generation cfg st0 (encodeRows df target.1 tcol) target.2 ((o 0).sort ((o 0).pop.map (fun c => ⟨c, F cfg df target [] c⟩))) ((o 0).gens 0) =
      .error .indexError := by
    unfold generation
    obtain ⟨x, hx⟩ := List.length_eq_one_iff.1 hlen
    rw [hx]
    rfl
  rw [this]
  rfl

/-- C64 (weights): the constructor accepts two weights equal to 0, but `fit` then always raises `ZeroDivisionError`. -/
theorem C64_zero_weights {o : Nat → SDIGAChoice} (hb : SDIGABuilt cfg) (hw : cfg.supW + cfg.confW = 0)
    (hf : SDIGAFrame df target) (hocc : ∃ i, MatchesAt df (targetSel target) i) (ho : Possible cfg df target.1 (o 0)) (st : SDIGAState)
    {fuel : Nat} (hfuel : 0 < fuel) : SDIGA.fit cfg o fuel st df target = some (.error .zeroDivisionError) := by
  obtain ⟨tcol, st0, htc, hx, hcs, heq⟩ := fit_start (cfg := cfg) hf hocc o fuel st
  rw [heq]
  apply loop_error hfuel
  unfold evolve evaluate
  have hsz := ho.size
  cases hp : (o 0).pop with
  | nil =>
    rw [hp] at hsz
    have := hb.pos.2.1
    simp at hsz
    omega
  | cons c pop =>
    rw [mapM_cons_eq, fitness_zero hf htc hx hw (ho.pop c (by rw [hp]; simp))]
    rfl

/-- C64 (one attribute): with only one attribute besides the target, `fit` raises `ValueError` as soon as a crossover happens (stated for the first
generation). -/
theorem C64_one_attribute {o : Nat → SDIGAChoice} (hb : SDIGABuilt cfg) (h2 : 2 ≤ cfg.popSize) (hw : 0 < cfg.supW + cfg.confW)
    (hf : SDIGAFrame df target) (hone : (df.cols.filter (fun e => e.1 ≠ target.1)).length = 1)
    (hocc : ∃ i, MatchesAt df (targetSel target) i) (ho : Possible cfg df target.1 (o 0)) (hx : ((o 0).gens 0).cross ≠ none) (st : SDIGAState)
    {fuel : Nat} (hfuel : 0 < fuel) : SDIGA.fit cfg o fuel st df target = some (.error .valueError) := by
  obtain ⟨tcol, st0, htc, hx0, hcs, heq⟩ := fit_start (cfg := cfg) hf hocc o fuel st
  rw [heq]
  apply loop_error hfuel
  unfold evolve
  rw [evaluate_ok hf htc hx0 (ne_of_gt hw) ho.pop]
  simp only [bind, Except.bind]
  obtain ⟨s1, _⟩ := ho.sort ((o 0).pop.map (fun c => ⟨c, F cfg df target [] c⟩))
  obtain ⟨m, hm⟩ : ∃ m, cfg.maxGen = m + 1 := ⟨cfg.maxGen - 1, by have := hb.pos.1; omega⟩
  rw [hm, List.range_succ_eq_map, List.foldlM_cons]
  have : generation cfg st0 (encodeRows df target.1 tcol) target.2 ((o 0).sort ((o 0).pop.map (fun c => ⟨c, F cfg df target [] c⟩))) ((o 0).gens 0) =
      .error .valueError := by
    have hlen := s1.length_eq
    rw [List.length_map, ho.size] at hlen
    cases hs : (o 0).sort ((o 0).pop.map (fun c => ⟨c, F cfg df target [] c⟩)) with
    | nil => rw [hs] at hlen; simp at hlen; omega
    | cons x L =>
      cases L with
      | nil => rw [hs] at hlen; simp at hlen; omega
      | cons y L =>
        have hxm : x ∈ (o 0).pop.map (fun c => (⟨c, F cfg df target [] c⟩ : Ind)) := s1.mem_iff.1 (by rw [hs]; simp)
        obtain ⟨c, hc, rfl⟩ := List.mem_map.1 hxm
        have hcl : c.length = 1 := by rw [← (ho.pop c hc).length_eq, hone]
        unfold generation
        simp only [List.getElem?_cons_zero, List.getElem?_cons_succ]
        cases hcr : ((o 0).gens 0).cross with
        | none => exact absurd hcr hx
        | some ab =>
          obtain ⟨a, b⟩ := ab
          simp only [crossover]
          rw [if_pos (by omega)]
          rfl
  rw [this]
  rfl

end

/-! ### concrete runs -/

/-- a sort that leaves equal individuals in their order -/
def sdigaDemoSort (l : List Ind) : List Ind := stableSort (fun a b => decide (b.fit ≤ a.fit)) l

theorem sdigaDemoSort_ok : BestFirst sdigaDemoSort := by
  intro l
  refine ⟨stableSort_perm l, ?_⟩
  have := pairwise_stableSort (le := fun a b : Ind => decide (b.fit ≤ a.fit))
    (fun a b c h1 h2 => by
      simp only [decide_eq_true_eq] at *
      exact le_trans h2 h1)
    (fun a b => by
      simp only [Bool.or_eq_true, decide_eq_true_eq]
      exact le_total _ _) l
  exact this.imp (fun h => by simpa using h)

/-- three individuals, two generations: a crossover with a mutation, then a mutation -/
def sdigaDemoChoice : SDIGAChoice where
  pop := [[1, 2], [2, 0], [1, 1]]
  sort := sdigaDemoSort
  gens := fun k => if k = 0 then ⟨some (0, 1), none, some (1, 0), sdigaDemoSort⟩ else ⟨none, some (0, 2), none, sdigaDemoSort⟩

def sdigaDemoCfg : SDIGAConfig := ⟨2, 3, 1/2, 1/4, 1, 1, 1/2, true⟩

def sdigaDemoRun : Option (Except PyErr SDIGAState) :=
  SDIGA.fit sdigaDemoCfg (fun _ => sdigaDemoChoice) 20 ⟨0, 0, [], [], [], 0, 0, 0, 0⟩ demoFrame (c!"t", c!"yes")

/-- the state at the end of a run -/
def endState (r : Option (Except PyErr SDIGAState)) : Option SDIGAState :=
  match r with
  | some (.ok st) => some st
  | _ => none

theorem endState_eq {r : Option (Except PyErr SDIGAState)} {st : SDIGAState} (h : endState r = some st) : r = some (.ok st) := by
  unfold endState at h
  split at h
  · cases h; rfl
  · cases h

example : (endState sdigaDemoRun).map (fun st => (st.selected, st.unselected)) = some (1, 12) := by decide +kernel

theorem sdigaDemoReady : SDIGAReady sdigaDemoCfg demoFrame (c!"t", c!"yes") (fun _ => sdigaDemoChoice) := by
  have hnom : NominalFrame demoFrame (c!"t", c!"yes") := by
    refine ⟨?_, by decide +kernel, ?_, by decide +kernel⟩
    · intro c hc; simp [demoFrame] at hc; rcases hc with rfl | rfl | rfl <;> rfl
    · intro c hc; simp [demoFrame] at hc
      rcases hc with rfl | rfl | rfl <;> simp
  have hfilter : demoFrame.cols.filter (fun e => e.1 ≠ (c!"t", c!"yes").1) =
      [(c!"a", [.str c!"x", .str c!"x", .str c!"y", .str c!"x"]), (c!"b", [.str c!"p", .str c!"q", .str c!"p", .str c!"p"])] := by decide +kernel
  have hm : ∀ m : Option (Nat × Nat), (∀ i g, m = some (i, g) → i < 2 ∧ g ≤ 2) → IsMutation demoFrame c!"t" m := by
    intro m hm i g h
    obtain ⟨h1, h2⟩ := hm i g h
    show ∃ col, (demoFrame.cols.filter (fun e => e.1 ≠ (c!"t", c!"yes").1))[i]? = some col ∧ _
    rw [hfilter]
    match i, h1 with
    | 0, _ => exact ⟨_, rfl, le_trans h2 (by decide +kernel)⟩
    | 1, _ => exact ⟨_, rfl, le_trans h2 (by decide +kernel)⟩
  refine ⟨⟨2, 3, 1/2, 1/4, 1, 1, 1/2, true, true, (C64_constructor _ _ _ _ _ _ _ _ _).1.2 (by norm_num)⟩, by decide +kernel, by decide, ⟨hnom, ?_, ?_⟩, ?_, ?_, ?_⟩
  · intro c hc _; simp [demoFrame] at hc
    rcases hc with rfl | rfl | rfl <;> decide +kernel
  · intro c hc _; simp [demoFrame] at hc
    rcases hc with rfl | rfl | rfl <;> decide +kernel
  · exact ⟨0, _, _, rfl, rfl, rfl⟩
  · rw [hfilter]; decide
  · intro k
    refine ⟨rfl, ?_, sdigaDemoSort_ok, ?_, ?_, ?_, ?_⟩
    · intro c hc
      show List.Forall₂ _ (demoFrame.cols.filter (fun e => e.1 ≠ (c!"t", c!"yes").1)) c
      rw [hfilter]
      simp only [sdigaDemoChoice, List.mem_cons, List.not_mem_nil, or_false] at hc
      rcases hc with rfl | rfl | rfl <;> exact .cons (by decide +kernel) (.cons (by decide +kernel) .nil)
    · intro _ j a b h
      show a < b ∧ b < (demoFrame.cols.filter (fun e => e.1 ≠ (c!"t", c!"yes").1)).length
      rw [hfilter]
      simp only [sdigaDemoChoice] at h
      split at h
      · cases h; decide
      · cases h
    · intro j
      apply hm
      intro i g h
      simp only [sdigaDemoChoice] at h
      split at h
      · cases h
      · cases h; decide
    · intro j
      apply hm
      intro i g h
      simp only [sdigaDemoChoice] at h
      split at h
      · cases h; decide
      · cases h
    · intro j
      simp only [sdigaDemoChoice]
      split <;> exact sdigaDemoSort_ok

/-- C45 fails for an attribute called `fitness`: the rule reported with one true positive and no false positive covers a row without
the target. (The children of the run have a gene 0 for `a`, which the program writes in the column `fitness`: they come last in the program too.) -/
theorem C45_fitness_attribute_fails : ∃ (df : Frame) (target : Str × Str) (cfg : SDIGAConfig) (o : Nat → SDIGAChoice) (st st' : SDIGAState) (x : SDIGALine),
    NominalFrame df target ∧ SDIGABuilt cfg ∧ SDIGA.fit cfg o 20 st df target = some (.ok st') ∧ x ∈ st'.file ∧ x.tp = 1 ∧ x.fp = 0 ∧
    ∃ i < df.nrows, Covers df x.subgroup.description.sels i ∧ ¬ MatchesAt df (targetSel target) i := by
  refine ⟨⟨3, [(c!"fitness", [.str c!"u", .str c!"u", .str c!"u"]), (c!"a", [.str c!"p", .str c!"q", .str c!"q"]), (c!"b", [.str c!"z", .str c!"y", .str c!"y"]),
    (c!"t", [.str c!"yes", .str c!"yes", .str c!"no"])]⟩, (c!"t", c!"yes"), ⟨1, 2, 1/2, 1/2, 1, 1, 1/2, true⟩,
    (fun _ => ⟨[[0, 0, 1], [0, 0, 1]], sdigaDemoSort, fun _ => ⟨none, none, none, sdigaDemoSort⟩⟩), ⟨0, 0, [], [], [], 0, 0, 0, 0⟩,
    ⟨1, 6, [⟨⟨⟨[⟨c!"b", .equal, .str c!"y"⟩]⟩, ⟨c!"t", .equal, .str c!"yes"⟩⟩, 2/3, 1, 0, 2, 1, 1, 0, 2, 1⟩], [⟨[⟨c!"b", .equal, .str c!"y"⟩]⟩],
      [⟨1, [1, 2, 1], .str c!"yes"⟩, ⟨2, [1, 2, 1], .str c!"no"⟩], 2, 1, 1, 1⟩, _, ?_, ⟨1, 2, 1/2, 1/2, 1, 1, 1/2, true, true, (C64_constructor _ _ _ _ _ _ _ _ _).1.2 (by norm_num)⟩, ?_, List.mem_singleton.2 rfl, rfl, rfl, 2, by decide, ?_, ?_⟩
  · refine ⟨?_, by decide +kernel, ?_, by decide +kernel⟩
    · intro c hc; simp at hc; rcases hc with rfl | rfl | rfl | rfl <;> rfl
    · intro c hc; simp at hc
      rcases hc with rfl | rfl | rfl | rfl <;> simp
  · exact endState_eq (by decide +kernel)
  · intro s hs
    rw [List.mem_singleton.1 hs]
    exact ⟨_, _, rfl, rfl, by decide +kernel⟩
  · rintro ⟨col', v', h1', h2', h3'⟩
    cases h1'
    cases h2'
    exact absurd h3' (by decide +kernel)

end Verif
