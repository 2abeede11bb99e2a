import Verif.Lemmas.SDIGASearch
/-! The genetic algorithm and the outer loop of SDIGA. -/
set_option linter.unusedSectionVars false
namespace Verif.SDIGA
open Classical Spec

variable {df : Frame} {target : Str × Str} {cfg : SDIGAConfig} {tcol : List Val} {st : SDIGAState} {l : List Pattern}

theorem isChrom_iff {tname : Str} {c : Chrom} :
    IsChrom df tname c ↔ List.Forall₂ (fun (col : Str × List Val) g => g ≤ (col.2.dedup).length) (otherCols df tname) c := Iff.rfl

theorem crossover_ok {tname : Str} {c1 c2 : Chrom} (h1 : IsChrom df tname c1) (h2 : IsChrom df tname c2)
    (hn : 2 ≤ (otherCols df tname).length) {ch : Option (Nat × Nat)} (hch : ∀ a b, ch = some (a, b) → a < b ∧ b < (otherCols df tname).length) :
    ∃ d1 d2, crossover ch c1 c2 = .ok (d1, d2) ∧ IsChrom df tname d1 ∧ IsChrom df tname d2 := by
  rw [isChrom_iff] at h1 h2
  have hl1 := h1.length_eq
  cases ch with
  | none => exact ⟨c1, c2, rfl, h1, h2⟩
  | some ab =>
    obtain ⟨a, b⟩ := ab
    obtain ⟨hab, hb⟩ := hch a b rfl
    have hcols : otherCols df tname = (otherCols df tname).take a ++ ((otherCols df tname).take b).drop a ++ (otherCols df tname).drop b := by
      have : ((otherCols df tname).take b).take a = (otherCols df tname).take a := by rw [List.take_take, Nat.min_eq_left (by omega)]
      rw [← this, List.take_append_drop, List.take_append_drop]
    refine ⟨c1.take a ++ (c2.take b).drop a ++ c1.drop b, c2.take a ++ (c1.take b).drop a ++ c2.drop b, ?_, ?_, ?_⟩
    · unfold crossover
      simp only
      rw [if_neg (by omega)]
    · rw [isChrom_iff, hcols]
      exact List.rel_append (List.rel_append (List.forall₂_take a h1) (List.forall₂_drop a (List.forall₂_take b h2))) (List.forall₂_drop b h1)
    · rw [isChrom_iff, hcols]
      exact List.rel_append (List.rel_append (List.forall₂_take a h2) (List.forall₂_drop a (List.forall₂_take b h1))) (List.forall₂_drop b h2)

theorem mutation_ok {tname : Str} {c : Chrom} (h1 : IsChrom df tname c) {m : Option (Nat × Nat)} (hm : IsMutation df tname m) :
    IsChrom df tname (mutation m c) := by
  cases m with
  | none => exact h1
  | some ig =>
    obtain ⟨i, g⟩ := ig
    obtain ⟨col, h2, h3⟩ := hm i g rfl
    have h2' : (otherCols df tname)[i]? = some col := h2
    rw [isChrom_iff] at *
    simp only [mutation]
    rw [List.forall₂_iff_get] at *
    refine ⟨by simp [h1.1], fun k hk1 hk2 => ?_⟩
    simp only [List.get_eq_getElem, List.getElem_set]
    split
    · rename_i hik
      subst hik
      obtain ⟨_, h4⟩ := List.getElem?_eq_some_iff.1 h2'
      rw [h4]; exact h3
    · have := h1.2 k hk1 (by simpa using hk2)
      simpa using this

/-- fitness of a chromosome after the patterns `l` -/
noncomputable def F (cfg : SDIGAConfig) (df : Frame) (target : Str × Str) (l : List Pattern) (c : Chrom) : Rat :=
  fitOf cfg df target l (pat df target c).sels

/-- a row of the population with its own fitness -/
def OKInd (cfg : SDIGAConfig) (df : Frame) (target : Str × Str) (l : List Pattern) (i : Ind) : Prop :=
  IsChrom df target.1 i.genes ∧ i.fit = F cfg df target l i.genes

/-- a population between two generations -/
structure OKPop (cfg : SDIGAConfig) (df : Frame) (target : Str × Str) (l : List Pattern) (pop : List Ind) : Prop where
  len : pop.length = cfg.popSize
  ok : ∀ i ∈ pop, OKInd cfg df target l i
  sorted : pop.Pairwise (fun a b => b.fit ≤ a.fit)

theorem head_best {pop : List Ind} (h : pop.Pairwise (fun a b => b.fit ≤ a.fit)) {i : Ind} (hi : pop[0]? = some i) : ∀ j ∈ pop, j.fit ≤ i.fit := by
  cases pop with
  | nil => simp at hi
  | cons a pop =>
    simp only [List.getElem?_cons_zero, Option.some.injEq] at hi
    subst hi
    intro j hj
    rcases List.mem_cons.1 hj with rfl | hj
    · exact le_refl _
    · exact (List.pairwise_cons.1 h).1 j hj

theorem evaluate_ok (hf : SDIGAFrame df target) (ht : df.col target.1 = .ok tcol) (hx : Ctx df target tcol l st)
    (hw : cfg.supW + cfg.confW ≠ 0) {pop : List Chrom} (hp : ∀ c ∈ pop, IsChrom df target.1 c) :
    evaluate cfg st (encodeRows df target.1 tcol) target.2 (encodeDict df target.1) pop = .ok (pop.map (fun c => ⟨c, F cfg df target l c⟩)) := by
  unfold evaluate
  induction pop with
  | nil => rfl
  | cons c pop ih =>
    rw [mapM_cons_eq, ih (fun c hc => hp c (List.mem_cons_of_mem _ hc)), fitness_ok hf ht hx hw (hp c List.mem_cons_self)]
    simp only [bind, Except.bind, pure, Except.pure]
    rw [dropFitness_eq hf (hp c List.mem_cons_self)]
    rfl

theorem generation_ok (hf : SDIGAFrame df target) (ht : df.col target.1 = .ok tcol) (hx : Ctx df target tcol l st)
    (hw : cfg.supW + cfg.confW ≠ 0) (hn : 2 ≤ (otherCols df target.1).length) (h2 : 2 ≤ cfg.popSize)
    {pop : List Ind} (hp : OKPop cfg df target l pop) {g : GenChoice}
    (hc : ∀ a b, g.cross = some (a, b) → a < b ∧ b < (otherCols df target.1).length) (hm1 : IsMutation df target.1 g.mut1)
    (hm2 : IsMutation df target.1 g.mut2) (hs : BestFirst g.sort) :
    ∃ pop', generation cfg st (encodeRows df target.1 tcol) target.2 pop g = .ok pop' ∧ OKPop cfg df target l pop' ∧
      ∀ i, pop[0]? = some i → ∃ j, pop'[0]? = some j ∧ i.fit ≤ j.fit := by
  have hl := hp.len
  cases hp0 : pop[0]? with
  | none => rw [List.getElem?_eq_none_iff] at hp0; omega
  | some i1 =>
    cases hp1 : pop[1]? with
    | none => rw [List.getElem?_eq_none_iff] at hp1; omega
    | some i2 =>
      have k1 := (hp.ok i1 (List.mem_of_getElem? hp0)).1
      have k2 := (hp.ok i2 (List.mem_of_getElem? hp1)).1
      obtain ⟨d1, d2, e1, e2, e3⟩ := crossover_ok k1 k2 hn hc
      have e4 := mutation_ok e2 hm1
      have e5 := mutation_ok e3 hm2
      set pop1 := setLast (setLast pop ⟨mutation g.mut1 d1, F cfg df target l (mutation g.mut1 d1)⟩)
        ⟨mutation g.mut2 d2, F cfg df target l (mutation g.mut2 d2)⟩ with hpop1
      obtain ⟨s1, s2⟩ := hs pop1
      have hlen1 : pop1.length = cfg.popSize := by rw [hpop1]; simp [setLast, hl]
      have htake : (g.sort pop1).take cfg.popSize = g.sort pop1 := List.take_of_length_le (by rw [s1.length_eq, hlen1])
      have hok : ∀ i ∈ pop1, OKInd cfg df target l i := by
        intro i hi
        rw [hpop1] at hi
        rcases List.mem_or_eq_of_mem_set hi with hi | hi
        · rcases List.mem_or_eq_of_mem_set hi with hi | hi
          · exact hp.ok i hi
          · rw [hi]; exact ⟨e4, rfl⟩
        · rw [hi]; exact ⟨e5, rfl⟩
      refine ⟨g.sort pop1, ?_, ⟨by rw [s1.length_eq, hlen1], fun i hi => hok i (s1.mem_iff.1 hi), s2⟩, ?_⟩
      · unfold generation
        rw [hp0, hp1]
        simp only [bind, Except.bind, e1]
        rw [fitness_ok hf ht hx hw e4]
        simp only
        rw [fitness_ok hf ht hx hw e5]
        simp only [pure, Except.pure]
        rw [← htake]
        rfl
      · intro i hi
        cases hi
        have hm : i1 ∈ pop1 := by
          apply List.mem_of_getElem? (i := 0)
          rw [hpop1]
          simp only [setLast, List.length_set]
          rw [List.getElem?_set_ne (by omega), List.getElem?_set_ne (by omega)]
          exact hp0
        have hm' := s1.mem_iff.2 hm
        cases hj : (g.sort pop1)[0]? with
        | none =>
          rw [List.getElem?_eq_none_iff] at hj
          have := s1.length_eq
          omega
        | some j => exact ⟨j, rfl, head_best s2 hj i1 hm'⟩

theorem evolve_ok (hf : SDIGAFrame df target) (ht : df.col target.1 = .ok tcol) (hx : Ctx df target tcol l st)
    (hw : cfg.supW + cfg.confW ≠ 0) (hn : 2 ≤ (otherCols df target.1).length) (h2 : 2 ≤ cfg.popSize) {o : SDIGAChoice}
    (ho : Possible cfg df target.1 o) :
    ∃ i, evolve cfg st (encodeRows df target.1 tcol) target.2 (encodeDict df target.1) o = .ok i ∧ OKInd cfg df target l i ∧
      ∀ c ∈ o.pop, F cfg df target l c ≤ i.fit := by
  have hcr := ho.cross hn
  have hfold : ∀ (L : List Nat) (pop : List Ind), OKPop cfg df target l pop →
      ∃ pop', L.foldlM (fun pop k => generation cfg st (encodeRows df target.1 tcol) target.2 pop (o.gens k)) pop = .ok pop' ∧
        OKPop cfg df target l pop' ∧ ∀ i, pop[0]? = some i → ∃ j, pop'[0]? = some j ∧ i.fit ≤ j.fit := by
    intro L
    induction L with
    | nil => intro pop hp; exact ⟨pop, rfl, hp, fun i hi => ⟨i, hi, le_refl _⟩⟩
    | cons k L ih =>
      intro pop hp
      obtain ⟨pop1, g1, g2, g3⟩ := generation_ok hf ht hx hw hn h2 hp (hcr k) (ho.mut1 k) (ho.mut2 k) (ho.gsort k)
      obtain ⟨pop2, g4, g5, g6⟩ := ih pop1 g2
      refine ⟨pop2, ?_, g5, ?_⟩
      · rw [List.foldlM_cons, g1]; exact g4
      · intro i hi
        obtain ⟨j, hj, hij⟩ := g3 i hi
        obtain ⟨m, hm, hjm⟩ := g6 j hj
        exact ⟨m, hm, le_trans hij hjm⟩
  set pop0 : List Ind := o.pop.map (fun c => ⟨c, F cfg df target l c⟩) with hpop0
  obtain ⟨s1, s2⟩ := ho.sort pop0
  have hp0 : OKPop cfg df target l (o.sort pop0) := by
    refine ⟨by rw [s1.length_eq, hpop0, List.length_map, ho.size], fun i hi => ?_, s2⟩
    obtain ⟨c, hc, rfl⟩ := List.mem_map.1 (s1.mem_iff.1 hi)
    exact ⟨ho.pop c hc, rfl⟩
  obtain ⟨pop', g1, g2, g3⟩ := hfold (List.range cfg.maxGen) _ hp0
  cases h0 : (o.sort pop0)[0]? with
  | none =>
    rw [List.getElem?_eq_none_iff] at h0
    have := hp0.len
    omega
  | some i0 =>
    obtain ⟨j, hj, hij⟩ := g3 i0 h0
    refine ⟨j, ?_, g2.ok j (List.mem_of_getElem? hj), ?_⟩
    · unfold evolve
      rw [evaluate_ok hf ht hx hw ho.pop]
      simp only [bind, Except.bind]
      have g1' := g1
      simp only [hpop0] at g1'
      rw [g1']
      simp only [hj]
      rfl
    · intro c hc
      refine le_trans ?_ hij
      have : (⟨c, F cfg df target l c⟩ : Ind) ∈ o.sort pop0 := s1.mem_iff.2 (List.mem_map.2 ⟨c, hc, rfl⟩)
      exact head_best s2 h0 _ this

/-! ### one turn of the outer loop -/

theorem decode_pat (hf : SDIGAFrame df target) {c : Chrom} (hc : IsChrom df target.1 c) :
    decode (chromDict (encodeDict df target.1)) c = .ok (pat df target c) := decode_ok hf hc

theorem F_mono (hf : SDIGAFrame df target) (h1 : 0 ≤ cfg.supW) (h2 : 0 ≤ cfg.confW) {d c : Chrom} (h : Drops d c)
    (hc : (met df target c).confidence ≤ (met df target d).confidence) : F cfg df target l c ≤ F cfg df target l d := by
  have hm : (freshTp df target l (pat df target c).sels : Rat) ≤ freshTp df target l (pat df target d).sels := by
    exact_mod_cast freshTp_mono (h.pat hf) l
  unfold F fitOf
  have hc' : confOf df target (pat df target c).sels ≤ confOf df target (pat df target d).sels := hc
  apply div_le_div_of_nonneg_right _ (by linarith)
  apply add_le_add
  · apply mul_le_mul_of_nonneg_left _ h1
    apply div_le_div_of_nonneg_right hm
    positivity
  · exact mul_le_mul_of_nonneg_left hc' h2

theorem turn_ok (hf : SDIGAFrame df target) (ht : df.col target.1 = .ok tcol) (hx : Ctx df target tcol st.cases st)
    (hs : 0 ≤ cfg.supW) (hcw : 0 ≤ cfg.confW) (hw : cfg.supW + cfg.confW ≠ 0) (hn : 2 ≤ (otherCols df target.1).length)
    (h2 : 2 ≤ cfg.popSize) {o : SDIGAChoice} (ho : Possible cfg df target.1 o) :
    ∃ e, IsChrom df target.1 e ∧ (∀ c ∈ o.pop, F cfg df target st.cases c ≤ F cfg df target st.cases e) ∧
      ((((∃ p ∈ st.cases, ∀ s ∈ p.sels, s ∈ (pat df target e).sels) ∨ confOf df target (pat df target e).sels < cfg.minConf) ∧
        turn cfg (encodeRows df target.1 tcol) target (encodeDict df target.1) o st =
          .ok ({ st with unselected := st.unselected + 2 * cfg.maxGen + (cfg.popSize - 1) }, false)) ∨
       ((∀ p ∈ st.cases, ¬ ∀ s ∈ p.sels, s ∈ (pat df target e).sels) ∧ cfg.minConf ≤ confOf df target (pat df target e).sels ∧
        ∃ x, LineOK cfg df target st.cases (pat df target e) x ∧
        turn cfg (encodeRows df target.1 tcol) target (encodeDict df target.1) o st =
          .ok ({ st with
            unselected := st.unselected + 2 * cfg.maxGen + (cfg.popSize - 1)
            cases := st.cases ++ [pat df target e]
            selected := st.selected + 1
            file := if cfg.write then st.file ++ [x] else st.file
            unchecked := freshRows df target.1 tcol (st.cases ++ [pat df target e])
            TPu := freshTp df target (st.cases ++ [pat df target e]) []
            FPu := freshFp df target (st.cases ++ [pat df target e]) [] }, true))) := by
  obtain ⟨i, g1, ⟨g2, g3⟩, g4⟩ := evolve_ok hf ht hx hw hn h2 ho
  have hx1 : Ctx df target tcol st.cases { st with unselected := st.unselected + 2 * cfg.maxGen + (cfg.popSize - 1) } :=
    ⟨hx.TP, hx.FP, hx.unchecked, hx.TPu, hx.FPu⟩
  obtain ⟨d, k1, k2, k3, k4, k5⟩ := localSearch_spec hf ht hx1 hw g2
  have hkd := k1.isChrom g2
  have hstop : ∀ {e : Chrom}, IsChrom df target.1 e → ((st.cases.any (fun case => case.isRefinement (pat df target e) true)) = true ↔
      ∃ p ∈ st.cases, ∀ s ∈ p.sels, s ∈ (pat df target e).sels) := by
    intro e _
    rw [List.any_eq_true]
    constructor
    · rintro ⟨p, hp, h⟩; exact ⟨p, hp, ((Pattern.isRefinement_iff _ _ _).1 h).1⟩
    · rintro ⟨p, hp, h⟩; exact ⟨p, hp, (Pattern.isRefinement_iff _ _ _).2 ⟨h, Or.inr rfl⟩⟩
  by_cases hm : (met df target d).confidence ≥ cfg.minConf
  · rw [if_pos hm] at k5
    refine ⟨d, hkd, fun c hc => le_trans (g4 c hc) (by rw [g3]; exact F_mono hf hs hcw k1 k3), ?_⟩
    by_cases hr : ∃ p ∈ st.cases, ∀ s ∈ p.sels, s ∈ (pat df target d).sels
    · refine Or.inl ⟨Or.inl hr, ?_⟩
      unfold turn
      simp only [bind, Except.bind, g1]
      simp only [k5, decode_pat hf hkd]
      rw [if_pos ((hstop hkd).2 hr)]
      rfl
    · refine Or.inr ⟨fun p hp h => hr ⟨p, hp, h⟩, hm, ?_⟩
      refine ⟨⟨⟨pat df target d, targetSel target⟩, fitOf cfg df target st.cases (pat df target d).sels, (met df target d).tp, (met df target d).fp,
        st.TP, st.FP, freshTp df target st.cases (pat df target d).sels, freshFp df target st.cases (pat df target d).sels, st.TPu, st.FPu⟩,
        ⟨rfl, rfl, rfl, rfl, hx.TP, hx.FP, rfl, rfl, hx.TPu, hx.FPu⟩, ?_⟩
      unfold turn
      simp only [bind, Except.bind, g1]
      simp only [k5, decode_pat hf hkd]
      rw [if_neg (fun h => hr ((hstop hkd).1 h)), if_neg (not_lt.2 hm)]
      have hu := hx.unchecked
      rw [hu, tpFp_unchecked hf ht hkd, filterWithout_fresh hf hkd, (countTarget_fresh hf ht _).1]
      have h3 := (countTarget_fresh hf ht (st.cases ++ [pat df target d])).2
      rw [(countTarget_fresh hf ht _).1] at h3
      rw [show Pattern.new (selsOf (otherCols df target.1) d) = pat df target d from rfl, h3]
      rfl
  · rw [if_neg hm] at k5
    refine ⟨i.genes, g2, fun c hc => le_of_le_of_eq (g4 c hc) g3, ?_⟩
    have hlow : confOf df target (pat df target i.genes).sels < cfg.minConf := lt_of_le_of_lt k3 (not_le.1 hm)
    refine Or.inl ⟨Or.inr hlow, ?_⟩
    unfold turn
    simp only [bind, Except.bind, g1]
    simp only [k5, decode_pat hf g2]
    by_cases hr : st.cases.any (fun case => case.isRefinement (pat df target i.genes) true) = true
    · rw [if_pos hr]; rfl
    · rw [if_neg hr, if_pos (not_le.1 hm)]; rfl

/-! ### the outer loop -/

/-- all the chromosomes -/
def allChroms : List (Str × List Val) → List Chrom
  | [] => [[]]
  | col :: cols => (List.range (col.2.dedup.length + 1)).flatMap (fun g => (allChroms cols).map (g :: ·))

theorem mem_allChroms {cols : List (Str × List Val)} {c : Chrom}
    (h : List.Forall₂ (fun (col : Str × List Val) g => g ≤ (col.2.dedup).length) cols c) : c ∈ allChroms cols := by
  induction h with
  | nil => simp [allChroms]
  | @cons col g cols c hg _ ih =>
    simp only [allChroms, List.mem_flatMap, List.mem_range, List.mem_map]
    exact ⟨g, by omega, c, ih, rfl⟩

theorem length_allChroms (cols : List (Str × List Val)) : (allChroms cols).length = (cols.map (fun c => c.2.dedup.length + 1)).prod := by
  induction cols with
  | nil => rfl
  | cons col cols ih =>
    simp [allChroms, List.length_flatMap, ih]

/-- what holds between two turns of the outer loop, `t` turns after the start -/
structure Inv (cfg : SDIGAConfig) (df : Frame) (target : Str × Str) (tcol : List Val) (o : Nat → SDIGAChoice) (s0 u0 : Nat)
    (file0 : List SDIGALine) (t : Nat) (st : SDIGAState) : Prop where
  ctx : Ctx df target tcol st.cases st
  rule : ∀ p ∈ st.cases, ∃ c, IsChrom df target.1 c ∧ p = pat df target c
  conf : ∀ p ∈ st.cases, cfg.minConf ≤ confOf df target p.sels
  new : st.cases.Pairwise (fun p q => ¬ ∀ s ∈ p.sels, s ∈ q.sels)
  selected : st.selected = s0 + st.cases.length
  unselected : st.unselected = u0 + t * (2 * cfg.maxGen + (cfg.popSize - 1))
  elite : ∀ k p, st.cases[k]? = some p → ∀ c ∈ (o k).pop, F cfg df target (st.cases.take k) c ≤ fitOf cfg df target (st.cases.take k) p.sels
  file : cfg.write = true → st.file.length = st.cases.length ∧
    ∀ k p x, st.cases[k]? = some p → st.file[k]? = some x → LineOK cfg df target (st.cases.take k) p x
  nofile : cfg.write = false → st.file = file0

theorem Inv.bound {o : Nat → SDIGAChoice} {s0 u0 t : Nat} {file0 : List SDIGALine} (h : Inv cfg df target tcol o s0 u0 file0 t st) :
    st.cases.length ≤ ruleCount df target.1 := by
  have hnd : st.cases.Nodup := h.new.imp (fun {p q} (hpq : ¬ ∀ s ∈ p.sels, s ∈ q.sels) (he : p = q) => hpq (fun s hs => he ▸ hs))
  have hsub : st.cases ⊆ (allChroms (otherCols df target.1)).map (pat df target) := by
    intro p hp
    obtain ⟨c, hc, rfl⟩ := h.rule p hp
    exact List.mem_map.2 ⟨c, mem_allChroms hc, rfl⟩
  have := (List.subperm_of_subset hnd hsub).length_le
  rw [List.length_map, length_allChroms] at this
  exact this

theorem loop_ok (hf : SDIGAFrame df target) (ht : df.col target.1 = .ok tcol)
    (hs : 0 ≤ cfg.supW) (hcw : 0 ≤ cfg.confW) (hw : cfg.supW + cfg.confW ≠ 0) (hn : 2 ≤ (otherCols df target.1).length)
    (h2 : 2 ≤ cfg.popSize) {o : Nat → SDIGAChoice} (ho : ∀ k, Possible cfg df target.1 (o k)) {s0 u0 : Nat} {file0 : List SDIGALine} :
    ∀ (m : Nat) (st : SDIGAState), ruleCount df target.1 - st.cases.length ≤ m → Inv cfg df target tcol o s0 u0 file0 st.cases.length st →
      ∃ st', (∀ fuel, m < fuel → loop cfg (encodeRows df target.1 tcol) target (encodeDict df target.1) o fuel st.cases.length st = some (.ok st')) ∧
        Inv cfg df target tcol o s0 u0 file0 (st'.cases.length + 1) st' ∧
        ∃ e, IsChrom df target.1 e ∧ (∀ c ∈ (o st'.cases.length).pop, F cfg df target st'.cases c ≤ F cfg df target st'.cases e) ∧
          ((∃ p ∈ st'.cases, ∀ s ∈ p.sels, s ∈ (pat df target e).sels) ∨ confOf df target (pat df target e).sels < cfg.minConf) := by
  intro m
  induction m with
  | zero =>
    intro st hm hi
    obtain ⟨e, e1, e2, ⟨e3, e4⟩ | ⟨e3, e4, x, e5, e6⟩⟩ := turn_ok hf ht hi.ctx hs hcw hw hn h2 (ho st.cases.length)
    · refine ⟨{ st with unselected := st.unselected + 2 * cfg.maxGen + (cfg.popSize - 1) }, fun fuel hfuel => ?_, ?_, e, e1, e2, e3⟩
      · cases fuel with
        | zero => omega
        | succ fuel => unfold loop; rw [e4]
      · exact ⟨⟨hi.ctx.TP, hi.ctx.FP, hi.ctx.unchecked, hi.ctx.TPu, hi.ctx.FPu⟩, hi.rule, hi.conf, hi.new, hi.selected,
          by simp only [hi.unselected]; ring, hi.elite, hi.file, hi.nofile⟩
    · exfalso
      have hnew : (st.cases ++ [pat df target e]).Pairwise (fun p q => ¬ ∀ s ∈ p.sels, s ∈ q.sels) := by
        rw [List.pairwise_append]
        exact ⟨hi.new, List.pairwise_singleton _ _, fun p hp q hq => by rw [List.mem_singleton.1 hq]; exact e3 p hp⟩
      have hnd : (st.cases ++ [pat df target e]).Nodup := hnew.imp (fun {p q} (hpq : ¬ ∀ s ∈ p.sels, s ∈ q.sels) (he : p = q) => hpq (fun s hs => he ▸ hs))
      have hsub : (st.cases ++ [pat df target e]) ⊆ (allChroms (otherCols df target.1)).map (pat df target) := by
        intro p hp
        rcases List.mem_append.1 hp with hp | hp
        · obtain ⟨c, hc, rfl⟩ := hi.rule p hp
          exact List.mem_map.2 ⟨c, mem_allChroms hc, rfl⟩
        · rw [List.mem_singleton.1 hp]
          exact List.mem_map.2 ⟨e, mem_allChroms e1, rfl⟩
      have := (List.subperm_of_subset hnd hsub).length_le
      rw [List.length_map, length_allChroms, List.length_append, List.length_singleton] at this
      have h5 : ruleCount df target.1 = ((otherCols df target.1).map (fun c => c.2.dedup.length + 1)).prod := rfl
      omega
  | succ m ih =>
    intro st hm hi
    obtain ⟨e, e1, e2, ⟨e3, e4⟩ | ⟨e3, e4, x, e5, e6⟩⟩ := turn_ok hf ht hi.ctx hs hcw hw hn h2 (ho st.cases.length)
    · refine ⟨{ st with unselected := st.unselected + 2 * cfg.maxGen + (cfg.popSize - 1) }, fun fuel hfuel => ?_, ?_, e, e1, e2, e3⟩
      · cases fuel with
        | zero => omega
        | succ fuel => unfold loop; rw [e4]
      · exact ⟨⟨hi.ctx.TP, hi.ctx.FP, hi.ctx.unchecked, hi.ctx.TPu, hi.ctx.FPu⟩, hi.rule, hi.conf, hi.new, hi.selected,
          by simp only [hi.unselected]; ring, hi.elite, hi.file, hi.nofile⟩
    · set st1 : SDIGAState := { st with
            unselected := st.unselected + 2 * cfg.maxGen + (cfg.popSize - 1)
            cases := st.cases ++ [pat df target e]
            selected := st.selected + 1
            file := if cfg.write then st.file ++ [x] else st.file
            unchecked := freshRows df target.1 tcol (st.cases ++ [pat df target e])
            TPu := freshTp df target (st.cases ++ [pat df target e]) []
            FPu := freshFp df target (st.cases ++ [pat df target e]) [] } with hst1
      have hlen : st1.cases.length = st.cases.length + 1 := by simp [hst1]
      have hcase : ∀ k p, st1.cases[k]? = some p → (k < st.cases.length ∧ st.cases[k]? = some p ∧ st1.cases.take k = st.cases.take k) ∨
          (k = st.cases.length ∧ p = pat df target e ∧ st1.cases.take k = st.cases) := by
        intro k p hk
        have hk' : (st.cases ++ [pat df target e])[k]? = some p := hk
        obtain ⟨hlt, _⟩ := List.getElem?_eq_some_iff.1 hk'
        rw [List.length_append, List.length_singleton] at hlt
        by_cases hlt' : k < st.cases.length
        · left
          rw [List.getElem?_append_left hlt'] at hk'
          refine ⟨hlt', hk', ?_⟩
          show (st.cases ++ [pat df target e]).take k = _
          rw [List.take_append_of_le_length (by omega)]
        · right
          have hkk : k = st.cases.length := by omega
          refine ⟨hkk, ?_, ?_⟩
          · rw [hkk, List.getElem?_append_right (le_refl _)] at hk'
            simpa using hk'.symm
          · show (st.cases ++ [pat df target e]).take k = _
            rw [hkk, List.take_left]
      have hi1 : Inv cfg df target tcol o s0 u0 file0 st1.cases.length st1 := by
        refine ⟨⟨hi.ctx.TP, hi.ctx.FP, rfl, rfl, rfl⟩, ?_, ?_, ?_, ?_, ?_, ?_, ?_, ?_⟩
        · intro p hp
          rcases List.mem_append.1 hp with hp | hp
          · exact hi.rule p hp
          · exact ⟨e, e1, List.mem_singleton.1 hp⟩
        · intro p hp
          rcases List.mem_append.1 hp with hp | hp
          · exact hi.conf p hp
          · rw [List.mem_singleton.1 hp]; exact e4
        · show (st.cases ++ [pat df target e]).Pairwise _
          rw [List.pairwise_append]
          exact ⟨hi.new, List.pairwise_singleton _ _, fun p hp q hq => by rw [List.mem_singleton.1 hq]; exact e3 p hp⟩
        · show st.selected + 1 = _
          rw [hi.selected, hlen]; ring
        · show st.unselected + 2 * cfg.maxGen + (cfg.popSize - 1) = _
          rw [hi.unselected, hlen]; ring
        · intro k p hk c hc
          rcases hcase k p hk with ⟨_, h2, h3⟩ | ⟨h1, h2, h3⟩
          · rw [h3]; exact hi.elite k p h2 c hc
          · rw [h3, h2]; rw [h1] at hc; exact e2 c hc
        · intro hwr
          have hfile : st1.file = st.file ++ [x] := by rw [hst1]; simp [hwr]
          refine ⟨by rw [hfile, hlen, List.length_append, (hi.file hwr).1]; rfl, ?_⟩
          intro k p y hk hy
          rw [hfile] at hy
          rcases hcase k p hk with ⟨h1, h2, h3⟩ | ⟨h1, h2, h3⟩
          · rw [h3]
            rw [List.getElem?_append_left (by rw [(hi.file hwr).1]; exact h1)] at hy
            exact (hi.file hwr).2 k p y h2 hy
          · rw [h3, h2]
            rw [h1, ← (hi.file hwr).1, List.getElem?_append_right (le_refl _)] at hy
            simp at hy
            rw [← hy]; exact e5
        · intro hwr
          show (if cfg.write then st.file ++ [x] else st.file) = file0
          rw [if_neg (by rw [hwr]; simp)]
          exact hi.nofile hwr
      obtain ⟨st', f1, f2, f3⟩ := ih st1 (by rw [hlen]; omega) hi1
      refine ⟨st', fun fuel hfuel => ?_, f2, f3⟩
      cases fuel with
      | zero => omega
      | succ fuel =>
        unfold loop
        rw [e6]
        have := f1 fuel (by omega)
        rw [hlen] at this
        exact this

/-- `fit` -/
theorem fit_ok (hf : SDIGAFrame df target) (hocc : ∃ i, MatchesAt df (targetSel target) i)
    (hs : 0 ≤ cfg.supW) (hcw : 0 ≤ cfg.confW) (hw : cfg.supW + cfg.confW ≠ 0) (hn : 2 ≤ (otherCols df target.1).length)
    (h2 : 2 ≤ cfg.popSize) {o : Nat → SDIGAChoice} (ho : ∀ k, Possible cfg df target.1 (o k)) (st : SDIGAState) :
    ∃ tcol st', df.col target.1 = .ok tcol ∧ (∀ fuel, ruleCount df target.1 < fuel → SDIGA.fit cfg o fuel st df target = some (.ok st')) ∧
        Inv cfg df target tcol o st.selected st.unselected st.file (st'.cases.length + 1) st' ∧
        ∃ e, IsChrom df target.1 e ∧ (∀ c ∈ (o st'.cases.length).pop, F cfg df target st'.cases c ≤ F cfg df target st'.cases e) ∧
          ((∃ p ∈ st'.cases, ∀ s ∈ p.sels, s ∈ (pat df target e).sels) ∨ confOf df target (pat df target e).sels < cfg.minConf) := by
  obtain ⟨c, hc, hct⟩ := List.mem_map.1 hf.nominal.target
  have hl := lookup_of_mem_cols hf.nominal hc
  rw [hct] at hl
  have htc : df.col target.1 = .ok c.2 := by unfold Frame.col; rw [hl]
  have hany : c.2.any (fun v => v.eq (.str target.2)) = true := by
    obtain ⟨i, col, v, h1, h2, h3⟩ := hocc
    have h1' : df.cols.lookup target.1 = some col := h1
    rw [hl] at h1'
    cases h1'
    rw [List.any_eq_true]
    refine ⟨v, List.mem_of_getElem? h2, ?_⟩
    simpa [targetSel, Op.evaluate] using h3
  have hTP := TP_eq hf htc
  have hFP : df.nrows - tpOf df target [] = fpOf df target [] := by have := tp_add_fp_nil (df := df) (target := target); omega
  set st0 : SDIGAState := { st with file := if cfg.write then [] else st.file
                                    cases := [], unchecked := encodeRows df target.1 c.2, TP := tpOf df target [],
                                    FP := fpOf df target [], TPu := tpOf df target [], FPu := fpOf df target [] } with hst0
  have hi0 : Inv cfg df target c.2 o st.selected st.unselected st.file st0.cases.length st0 := by
    refine ⟨⟨rfl, rfl, ?_, ?_, ?_⟩, ?_, ?_, ?_, ?_, ?_, ?_, ?_, ?_⟩
    · show encodeRows df target.1 c.2 = freshRows df target.1 c.2 []
      rw [freshRows_nil]
    · exact (freshTp_nil []).symm
    · exact (freshFp_nil []).symm
    · intro p hp; simp [hst0] at hp
    · intro p hp; simp [hst0] at hp
    · exact List.Pairwise.nil
    · rfl
    · show st.unselected = _ + 0 * _
      rw [Nat.zero_mul, Nat.add_zero]
    · intro k p hk; simp [hst0] at hk
    · intro hwr
      refine ⟨?_, fun k p x hk => by simp [hst0] at hk⟩
      show (if cfg.write then [] else st.file).length = 0
      rw [if_pos hwr]; rfl
    · intro hwr
      show (if cfg.write then [] else st.file) = st.file
      rw [if_neg (by rw [hwr]; simp)]
  obtain ⟨st', f1, f2, f3⟩ := loop_ok hf htc hs hcw hw hn h2 ho (ruleCount df target.1) st0 (Nat.sub_le _ _) hi0
  refine ⟨c.2, st', htc, fun fuel hfuel => ?_, f2, f3⟩
  unfold SDIGA.fit
  rw [nominal_of hf.nominal, htc]
  simp only [Bool.not_true, hany]
  rw [if_neg (by simp), if_neg (by simp), hTP, hFP]
  exact f1 fuel hfuel

end Verif.SDIGA
