import Verif.Lemmas.ListFit
import Verif.Props.MDL
/-! C40–C42: the subgroup-list algorithms GMSL, PSLD and DSLM. `cs` are the candidates loaded from the input file. -/
namespace Verif
open Spec

section
variable {df : Frame} {target : Str × Str}

/-- the common part of the conclusions: `maxSl` lists, produced by the rule, with consistent contents -/
structure ListResult {G : Type} (R : Rule G) (maxSl : Nat) (P N : Bits) (cs : List Cand) (res : List SubgroupList) : Prop where
  count : res.length = maxSl
  run : R.Produces cs res
  /-- the contents of each list: the subgroups, what each covers at its position, and what is left to the default rule -/
  subs : ∀ l ∈ res, l.subs = (entriesOf l).map (·.sub)
  pos : ∀ l ∈ res, ∀ (k i : Nat), k < l.subs.length →
    ((l.pos.getD k []).get i = true ↔ Positional P ((entriesOf l).map (·.pos)) k i)
  neg : ∀ l ∈ res, ∀ (k i : Nat), k < l.subs.length →
    ((l.neg.getD k []).get i = true ↔ Positional N ((entriesOf l).map (·.neg)) k i)
  defPos : ∀ l ∈ res, ∀ (i : Nat), l.defPos.get i = true ↔ Default P ((entriesOf l).map (·.pos)) i
  defNeg : ∀ l ∈ res, ∀ (i : Nat), l.defNeg.get i = true ↔ Default N ((entriesOf l).map (·.neg)) i

theorem listResult_of {G C : Type} {M : Miner G C} {R : Rule G} {P : Bits} (hf : NominalFrame df target)
    (hP : targetMask df target = .ok P) (hM : Implements M R P (Bits.not P)) {k : Nat} {cs : List Cand}
    {res : List SubgroupList} (h : listFit M k df target (.ok cs) = .ok res) :
    ListResult R k P (Bits.not P) cs res := by
  obtain ⟨run, -, r2, r3, r4⟩ := listFit_spec hf hP hM h
  have he := run_entries r4
  refine ⟨r2, ⟨run, r3, flatMap_entries r4⟩, fun l hl => (he l hl).2.2, ?_, ?_, ?_, ?_⟩
  · intro l hl k i hk
    refine (he l hl).1.hpos k i ?_
    have := (he l hl).1.lenP
    rw [this, List.length_map]
    rw [(he l hl).2.2, List.length_map] at hk
    exact hk
  · intro l hl k i hk
    refine (he l hl).2.1.hpos k i ?_
    have := (he l hl).2.1.lenP
    rw [this, List.length_map]
    rw [(he l hl).2.2, List.length_map] at hk
    exact hk
  · intro l hl i; exact (he l hl).1.hdef i
  · intro l hl i; exact (he l hl).2.1.hdef i

/-- **C41.** GMSL: every subgroup added has positive compression gain, maximal among the candidates that are left, the first
on ties; a list ends only when no candidate has positive gain. -/
theorem C41_gmsl (hf : NominalFrame df target) (beta : ℝ) (maxSl : Nat) (cs : List Cand) (res : List SubgroupList)
    (h : listFit (gmsl df beta) maxSl df target (.ok cs) = .ok res) :
    ∃ P N, IsClasses df target P N ∧ ListResult (gmslRule df beta P N) maxSl P N cs res := by
  obtain ⟨P, hP, hcl⟩ := isClasses_mask hf
  exact ⟨P, _, hcl, listResult_of hf hP (gmsl_implements df beta P _ (ones_not P)) h⟩

/-- **C41.** PSLD: as GMSL, among the candidates that cover new positives, and a list may also end at the maximum size. -/
theorem C41_psld (hf : NominalFrame df target) (beta : ℝ) (size maxSl : Nat) (cs : List Cand) (res : List SubgroupList)
    (h : listFit (psld df beta size) maxSl df target (.ok cs) = .ok res) :
    ∃ P N, IsClasses df target P N ∧ ListResult (psldRule df beta size P N) maxSl P N cs res := by
  obtain ⟨P, hP, hcl⟩ := isClasses_mask hf
  exact ⟨P, _, hcl, listResult_of hf hP (psld_implements df beta size P _ (ones_not P)) h⟩

/-- **C41.** DSLM: as PSLD, with the gain reduced by the overlaps and the overlaps limited. -/
theorem C41_dslm (hf : NominalFrame df target) (beta : ℝ) (size : Nat) (maxPos maxNeg : ℝ) (maxSl : Nat) (cs : List Cand)
    (res : List SubgroupList) (h : listFit (dslm df beta size maxPos maxNeg) maxSl df target (.ok cs) = .ok res) :
    ∃ P N, IsClasses df target P N ∧ ListResult (dslmRule df beta size maxPos maxNeg P N) maxSl P N cs res := by
  obtain ⟨P, hP, hcl⟩ := isClasses_mask hf
  exact ⟨P, _, hcl, listResult_of hf hP (dslm_implements df beta size maxPos maxNeg P _ (ones_not P) hcl.lenP.symm) h⟩

/-! consequences of `ListResult` -/

theorem produces_pick {G : Type} {R : Rule G} {cs : List Cand} {res : List SubgroupList} (h : R.Produces cs res) {l : SubgroupList}
    (hl : l ∈ res) {k : Nat} {c : Cand} (hk : (entriesOf l)[k]? = some c) :
    R.admissible ((entriesOf l).take k) c ∧ R.gt (R.gain ((entriesOf l).take k) c) R.zero := by
  obtain ⟨run, hr, hm⟩ := h
  obtain ⟨j, hj⟩ := List.mem_iff_getElem?.1 hl
  have h1 : (res.map entriesOf)[j]? = some (entriesOf l) := by rw [List.getElem?_map, hj]; rfl
  rw [hm, List.getElem?_map] at h1
  cases hx : run[j]? with
  | none => rw [hx] at h1; cases h1
  | some idx =>
    rw [hx] at h1
    simp only [Option.map_some, Option.some.injEq] at h1
    have hL := hr j idx hx
    have hlt : ∀ i ∈ idx, (cs[i]?).isSome := by
      intro i hi
      obtain ⟨m, hm⟩ := List.mem_iff_getElem?.1 hi
      obtain ⟨c, hc, -⟩ := hL.pick m i hm
      rw [hc]; rfl
    have hent : ∀ (l : List Nat), (∀ i ∈ l, (cs[i]?).isSome) → ∀ m, (entriesAt cs l)[m]? = (l[m]?).bind (cs[·]?) ∧
        (entriesAt cs l).take m = entriesAt cs (l.take m) := by
      intro l
      induction l with
      | nil => intro _ m; simp [entriesAt]
      | cons a l ih =>
        intro h m
        have ha := h a (by simp)
        obtain ⟨ca, hca⟩ := Option.isSome_iff_exists.1 ha
        have e : entriesAt cs (a :: l) = ca :: entriesAt cs l := by simp [entriesAt, hca]
        cases m with
        | zero => rw [e]; simp [hca, entriesAt]
        | succ m =>
          have := ih (fun i hi => h i (by simp [hi])) m
          rw [e]
          simp only [List.getElem?_cons_succ, List.take_succ_cons]
          refine ⟨this.1, ?_⟩
          rw [this.2]
          simp [entriesAt, hca]
    rw [← h1] at hk ⊢
    rw [(hent idx hlt k).2]
    rw [(hent idx hlt k).1] at hk
    cases hi : idx[k]? with
    | none => rw [hi] at hk; cases hk
    | some i =>
      rw [hi] at hk
      obtain ⟨c', hc', -, h3, h4, -⟩ := hL.pick k i hi
      have : c' = c := by
        simp only [Option.bind_some] at hk
        rw [hc'] at hk
        exact Option.some.inj hk
      subst this
      exact ⟨h3, h4⟩

theorem newPos_pos {P : Bits} {es : List Cand} {c : Cand} (h : 0 < newRows P c.pos (es.map (·.pos))) :
    ∃ (i : Nat), P.get i = true ∧ c.pos.get i = true ∧ ∀ c' ∈ es, c'.pos.get i = false := by
  unfold newRows at h
  obtain ⟨i, hi⟩ := List.exists_mem_of_length_pos h
  rw [List.mem_filter] at hi
  simp only [Bool.and_eq_true, List.all_eq_true, List.mem_map, Bool.not_eq_true'] at hi
  exact ⟨i, hi.2.1.1, hi.2.1.2, fun c' hc' => hi.2.2 _ ⟨c', hc', rfl⟩⟩

/-- **C41.** In the lists of PSLD and of DSLM every subgroup covers a row with the target that no earlier subgroup of the list covers. -/
theorem C41_new_positives (hf : NominalFrame df target) (beta : ℝ) (size maxSl : Nat) (maxPos maxNeg : ℝ) (cs : List Cand)
    (res : List SubgroupList) (h : listFit (psld df beta size) maxSl df target (.ok cs) = .ok res ∨
      listFit (dslm df beta size maxPos maxNeg) maxSl df target (.ok cs) = .ok res) :
    ∀ l ∈ res, ∀ (k : Nat) (c : Cand), (entriesOf l)[k]? = some c →
      ∃ (i : Nat), MatchesAt df (targetSel target) i ∧ c.pos.get i = true ∧
        ∀ c' ∈ (entriesOf l).take k, c'.pos.get i = false := by
  intro l hl k c hk
  rcases h with h | h
  · obtain ⟨P, N, hc, hr⟩ := C41_psld hf beta size maxSl cs res h
    obtain ⟨h1, -⟩ := produces_pick hr.run hl hk
    obtain ⟨i, hi, h2⟩ := newPos_pos h1
    exact ⟨i, (hc.pos i).1 hi, h2⟩
  · obtain ⟨P, N, hc, hr⟩ := C41_dslm hf beta size maxPos maxNeg maxSl cs res h
    obtain ⟨h1, -⟩ := produces_pick hr.run hl hk
    obtain ⟨i, hi, h2⟩ := newPos_pos h1.1
    exact ⟨i, (hc.pos i).1 hi, h2⟩

/-- **C41.** In the lists of GMSL every subgroup covers a row (of either class) that no earlier subgroup of the list covers. -/
theorem C41_new_rows (hf : NominalFrame df target) (beta : ℝ) (maxSl : Nat) (cs : List Cand) (res : List SubgroupList)
    (h : listFit (gmsl df beta) maxSl df target (.ok cs) = .ok res) :
    ∀ l ∈ res, ∀ (k : Nat) (c : Cand), (entriesOf l)[k]? = some c →
      ∃ (i : Nat), (MatchesAt df (targetSel target) i ∧ c.pos.get i = true ∧ ∀ c' ∈ (entriesOf l).take k, c'.pos.get i = false) ∨
        (i < df.nrows ∧ ¬ MatchesAt df (targetSel target) i ∧ c.neg.get i = true ∧
          ∀ c' ∈ (entriesOf l).take k, c'.neg.get i = false) := by
  intro l hl k c hk
  obtain ⟨P, N, hc, hr⟩ := C41_gmsl hf beta maxSl cs res h
  obtain ⟨-, h1⟩ := produces_pick hr.run hl hk
  change Greater (gainSpec df beta P N ((entriesOf l).take k) c) (.fin 0) at h1
  unfold gainSpec at h1
  simp only at h1
  split at h1
  · simp [Greater] at h1
  · rename_i h0
    rcases Nat.eq_zero_or_pos (newPos P ((entriesOf l).take k) c) with hz | hp
    · have hn : 0 < newNeg N ((entriesOf l).take k) c := by omega
      unfold newNeg newRows at hn
      obtain ⟨i, hi⟩ := List.exists_mem_of_length_pos hn
      rw [List.mem_filter] at hi
      simp only [Bool.and_eq_true, List.all_eq_true, List.mem_map, Bool.not_eq_true'] at hi
      refine ⟨i, .inr ⟨((hc.neg i).1 hi.2.1.1).1, ((hc.neg i).1 hi.2.1.1).2, hi.2.1.2, fun c' hc' => hi.2.2 _ ⟨c', hc', rfl⟩⟩⟩
    · obtain ⟨i, hi, h2⟩ := newPos_pos hp
      exact ⟨i, .inl ⟨(hc.pos i).1 hi, h2⟩⟩

theorem gt_gain_classes {beta : ℝ} {P N : Bits} {es : List Cand} {c : Cand} (hone : P.ones = 0 ∨ N.ones = 0) :
    ¬ Greater (gainSpec df beta P N es c) (.fin 0) ∧ (newPos P es c + newNeg N es c ≠ 0 → gainSpec df beta P N es c = .nan) := by
  unfold gainSpec
  simp only
  split
  · rename_i h0; simp [Greater, h0]
  · simp [Greater, hone]

theorem ones_zero_of {b : Bits} (h : ∀ (i : Nat), b.get i = true → False) : b.ones = 0 := by
  have := Bits.ones_eq_length b [] List.nodup_nil (fun i => by simp; by_contra hc; exact h i (by simpa using hc))
  simpa using this

/-- **C41.** If the data have rows of one class only, no subgroup is added to any list (the gains are not numbers). -/
theorem C41_one_class (hf : NominalFrame df target) (beta : ℝ) (size maxSl : Nat) (maxPos maxNeg : ℝ) (cs : List Cand)
    (hone : (∀ i, ¬ MatchesAt df (targetSel target) i) ∨ ∀ i, i < df.nrows → MatchesAt df (targetSel target) i)
    (res : List SubgroupList) (h : listFit (gmsl df beta) maxSl df target (.ok cs) = .ok res ∨
      listFit (psld df beta size) maxSl df target (.ok cs) = .ok res ∨
      listFit (dslm df beta size maxPos maxNeg) maxSl df target (.ok cs) = .ok res) :
    ∀ l ∈ res, l.subs = [] := by
  have hz : ∀ P N, IsClasses df target P N → P.ones = 0 ∨ N.ones = 0 := by
    intro P N hc
    rcases hone with h | h
    · exact .inl (ones_zero_of fun i hi => h i ((hc.pos i).1 hi))
    · exact .inr (ones_zero_of fun i hi => ((hc.neg i).1 hi).2 (h i ((hc.neg i).1 hi).1))
  intro l hl
  have key : ∀ (R : Rule RVal) (P N : Bits), ListResult R maxSl P N cs res →
      (∀ es c, ¬ R.gt (R.gain es c) R.zero) → l.subs = [] := by
    intro R P N hr hno
    rw [hr.subs l hl]
    cases he : entriesOf l with
    | nil => rfl
    | cons c cs' =>
      exfalso
      have := (produces_pick hr.run hl (k := 0) (c := c) (by rw [he]; rfl)).2
      exact hno _ _ this
  rcases h with h | h | h
  · obtain ⟨P, N, hc, hr⟩ := C41_gmsl hf beta maxSl cs res h
    exact key _ P N hr fun es c => (gt_gain_classes (hz P N hc)).1
  · obtain ⟨P, N, hc, hr⟩ := C41_psld hf beta size maxSl cs res h
    exact key _ P N hr fun es c => (gt_gain_classes (hz P N hc)).1
  · obtain ⟨P, N, hc, hr⟩ := C41_dslm hf beta size maxPos maxNeg maxSl cs res h
    refine key _ P N hr fun es c => ?_
    change ¬ Greater (if newPos P es c + newNeg N es c = 0 then _ else _) (.fin 0)
    split
    · simp [Greater]
    · rename_i h0
      rw [(gt_gain_classes (hz P N hc)).2 h0]
      simp [reduced, Greater]

/-! ### C40 -/

theorem produces_choice {G : Type} {R : Rule G} {cs : List Cand} {res : List SubgroupList} (h : R.Produces cs res) :
    (res.flatMap entriesOf).Subperm cs ∧ (res.flatMap entriesOf).Pairwise (fun a b => ¬ R.related a.sub b.sub) := by
  obtain ⟨run, hr, hm⟩ := h
  have e : res.flatMap entriesOf = entriesAt cs run.flatten := by
    rw [entriesAt_flatten, List.flatMap_def, List.flatMap_def, hm]
  have ha := availSeq_run run [] (fun j idx hj => by simpa using hr j idx hj)
  rw [e]
  refine ⟨entriesAt_subperm ha.nodup ?_, entriesAt_pairwise ha⟩
  intro i hi
  obtain ⟨m, hm⟩ := List.mem_iff_getElem?.1 hi
  exact (ha m i hm).1

theorem produces_size {G : Type} {R : Rule G} {cs : List Cand} {res : List SubgroupList} (h : R.Produces cs res) {m : Nat}
    (hm : R.maxSize = some m) : ∀ l ∈ res, (entriesOf l).length ≤ m := by
  intro l hl
  obtain ⟨run, hr, he⟩ := h
  obtain ⟨j, hj⟩ := List.mem_iff_getElem?.1 hl
  have h1 : (res.map entriesOf)[j]? = some (entriesOf l) := by rw [List.getElem?_map, hj]; rfl
  rw [he, List.getElem?_map] at h1
  cases hx : run[j]? with
  | none => rw [hx] at h1; cases h1
  | some idx =>
    rw [hx] at h1
    simp only [Option.map_some, Option.some.injEq] at h1
    rw [← h1]
    exact le_trans (List.length_filterMap_le _ _) ((hr j idx hx).size m hm)

/-- **C40.** GMSL: `maxSl` lists; over all of them no line of the candidate file is used more often than it appears, and no
subgroup properly refines one chosen before it. -/
theorem C40_gmsl (hf : NominalFrame df target) (beta : ℝ) (maxSl : Nat) (cs : List Cand) (res : List SubgroupList)
    (h : listFit (gmsl df beta) maxSl df target (.ok cs) = .ok res) :
    res.length = maxSl ∧ (res.flatMap entriesOf).Subperm cs ∧
      (res.flatMap entriesOf).Pairwise (fun a b => ¬ ProperRefinement a.sub b.sub) := by
  obtain ⟨P, N, -, hr⟩ := C41_gmsl hf beta maxSl cs res h
  exact ⟨hr.count, produces_choice hr.run⟩

/-- **C40.** PSLD and DSLM: as GMSL, no subgroup refines or generalises another, and no list exceeds the maximum size. -/
theorem C40_psld_dslm (hf : NominalFrame df target) (beta : ℝ) (size maxSl : Nat) (maxPos maxNeg : ℝ) (cs : List Cand)
    (res : List SubgroupList) (h : listFit (psld df beta size) maxSl df target (.ok cs) = .ok res ∨
      listFit (dslm df beta size maxPos maxNeg) maxSl df target (.ok cs) = .ok res) :
    res.length = maxSl ∧ (res.flatMap entriesOf).Subperm cs ∧
      (res.flatMap entriesOf).Pairwise (fun a b => ¬ ProperRefinement a.sub b.sub ∧ ¬ ProperRefinement b.sub a.sub) ∧
      ∀ l ∈ res, l.subs.length ≤ size := by
  have key : ∀ (R : Rule RVal) (P N : Bits), ListResult R maxSl P N cs res →
      (∀ s t, R.related s t ↔ ProperRefinement s t ∨ ProperRefinement t s) → R.maxSize = some size →
      res.length = maxSl ∧ (res.flatMap entriesOf).Subperm cs ∧
      (res.flatMap entriesOf).Pairwise (fun a b => ¬ ProperRefinement a.sub b.sub ∧ ¬ ProperRefinement b.sub a.sub) ∧
      ∀ l ∈ res, l.subs.length ≤ size := by
    intro R P N hr hrel hm
    refine ⟨hr.count, (produces_choice hr.run).1, (produces_choice hr.run).2.imp ?_, ?_⟩
    · intro a b hab
      rw [hrel] at hab
      exact not_or.1 hab
    · intro l hl
      rw [hr.subs l hl, List.length_map]
      exact produces_size hr.run hm l hl
  rcases h with h | h
  · obtain ⟨P, N, -, hr⟩ := C41_psld hf beta size maxSl cs res h
    exact key _ P N hr (fun _ _ => Iff.rfl) rfl
  · obtain ⟨P, N, -, hr⟩ := C41_dslm hf beta size maxPos maxNeg maxSl cs res h
    exact key _ P N hr (fun _ _ => Iff.rfl) rfl

/-- **C40.** On data with rows and candidates that fit them, the three algorithms end without an exception. -/
theorem C40_total (hf : NominalFrame df target) (hrows : df.nrows ≠ 0) (beta : ℝ) (size maxSl : Nat) (maxPos maxNeg : ℝ)
    (cs : List Cand) (hcs : ∀ c ∈ cs, Fits df c) :
    (∃ res, listFit (gmsl df beta) maxSl df target (.ok cs) = .ok res) ∧
    (∃ res, listFit (psld df beta size) maxSl df target (.ok cs) = .ok res) ∧
    (∃ res, listFit (dslm df beta size maxPos maxNeg) maxSl df target (.ok cs) = .ok res) := by
  obtain ⟨P, hP, hcl⟩ := isClasses_mask hf
  have hlen : ∀ c, Fits df c → c.pos.length = P.length ∧ c.neg.length = P.length :=
    fun c hc => ⟨by rw [hc.pos, hcl.lenP], by rw [hc.neg, hcl.lenP]⟩
  exact ⟨listFit_total hf hrows hP (gmsl_implements df beta P _ (ones_not P)) (gmsl_total beta hcl.lenP) hlen maxSl cs hcs,
    listFit_total hf hrows hP (psld_implements df beta size P _ (ones_not P)) (psld_total beta size hcl.lenP) hlen maxSl cs hcs,
    listFit_total hf hrows hP (dslm_implements df beta size maxPos maxNeg P _ (ones_not P) hcl.lenP.symm)
      (dslm_total beta size maxPos maxNeg hcl.lenP) hlen maxSl cs hcs⟩

/-- **C40.** What `fit` refuses: data without rows, attributes that are not texts, a target that is not a column; and an exception
while loading the candidates is passed on. -/
theorem C40_refused {G C : Type} (M : Miner G C) (maxSl : Nat) (cs : Except PyErr (List Cand)) :
    (df.nrows = 0 → listFit M maxSl df target cs = .error .valueError) ∧
    (df.nrows ≠ 0 → (∃ c ∈ df.cols, ∃ v ∈ c.2, ∀ s, v ≠ .str s) → listFit M maxSl df target cs = .error .datasetAttributeType) ∧
    (df.nrows ≠ 0 → (∀ c ∈ df.cols, ∀ v ∈ c.2, ∃ s, v = .str s) → target.1 ∉ df.cols.map (·.1) →
      listFit M maxSl df target cs = .error .keyError) ∧
    (NominalFrame df target → df.nrows ≠ 0 → ∀ e, listFit M maxSl df target (.error e) = .error e) := by
  have hnom : (∀ c ∈ df.cols, ∀ v ∈ c.2, ∃ s, v = .str s) → df.nominal = true := by
    intro h
    unfold Frame.nominal
    rw [List.all_eq_true]
    intro c hc
    rw [List.all_eq_true]
    intro v hv
    obtain ⟨s, rfl⟩ := h c hc v hv
    rfl
  refine ⟨fun h => ?_, fun h hn => ?_, fun h hn ht => ?_, fun hf h e => ?_⟩
  · unfold listFit; rw [if_pos h]
  · unfold listFit
    rw [if_neg h, if_pos]
    obtain ⟨c, hc, v, hv, hs⟩ := hn
    simp only [Bool.not_eq_true', Frame.nominal, List.all_eq_false]
    refine ⟨c, hc, ?_⟩
    simp only [List.all_eq_true, not_forall]
    refine ⟨v, hv, ?_⟩
    cases v <;> simp [Val.isStr]
    exact hs _ rfl
  · unfold listFit
    rw [if_neg h, hnom hn, if_neg (by simp)]
    unfold targetMask Frame.col
    have : df.cols.lookup target.1 = none := by
      rw [List.lookup_eq_none_iff]
      intro p hp
      rw [bne_iff_ne]
      intro hc
      exact ht (List.mem_map.2 ⟨p, hp, hc.symm⟩)
    rw [this]
  · obtain ⟨P, hP, hcl⟩ := isClasses_mask hf
    unfold listFit
    rw [if_neg h, hnom hf.texts, if_neg (by simp), hP]
    have h0 : SubgroupList.new P (Bits.not P) df.nrows = .ok ⟨P, Bits.not P, (Bits.ones P, df.nrows), [], [], [], [], []⟩ := by
      unfold SubgroupList.new
      rw [if_neg (by simp [hcl.lenP]), if_neg (by rw [hcl.lenN]; simp)]
    simp only [h0]

/-! ### C42 -/

theorem overlapSums_le (ctr : List Nat) (b : Bits) : (overlapSums ctr b).2 ≤ (overlapSums ctr b).1 := by
  induction ctr generalizing b with
  | nil => simp [overlapSums]
  | cons n ctr ih =>
    cases b with
    | nil => have := ih []; simp only [overlapSums]; omega
    | cons x b => have := ih b; simp only [overlapSums]; split <;> omega

/-- **C42.** The overlap factors lie between 0 and 1 for every bitarray and every state of the counter; with the counter of a new list
(all zeros) they are 0, except the positive factor of a candidate without positives, which is 1 by convention. -/
theorem C42_factor_range (dflt : Rat) (hd : dflt = 0 ∨ dflt = 1) (b : Bits) (counter : List Nat) :
    0 ≤ overlapFactor dflt b counter ∧ overlapFactor dflt b counter ≤ 1 ∧
    ((∀ n ∈ counter, n = 0) → overlapFactor dflt b counter = if b.ones = 0 then dflt else 0) := by
  unfold overlapFactor
  split
  · rcases hd with rfl | rfl <;> simp
  · have h := overlapSums_le counter b
    simp only
    split
    · simp
    · rename_i h0
      have hpos : (0 : Rat) < ((overlapSums counter b).1 : Rat) := by exact_mod_cast Nat.pos_of_ne_zero h0
      refine ⟨by positivity, ?_, ?_⟩
      · rw [div_le_one hpos]; exact_mod_cast h
      · intro hz
        exfalso
        apply h0
        rw [List.eq_replicate_of_mem (a := 0) hz, overlapSums_zero]

/-- **C42.** In the course of a list the factors are: the part of the coverage of the subgroups already in the list (counted with
multiplicity) that the candidate repeats. The entries `es` and the candidate have one bit per row of the data. -/
theorem C42_factor_meaning (es : List Cand) (c : Cand) (beta maxPos maxNeg : ℝ) (size : Nat)
    (hc : c.pos.length = df.nrows ∧ c.neg.length = df.nrows) (hes : ∀ e ∈ es, e.pos.length = df.nrows ∧ e.neg.length = df.nrows) :
    let M := dslm df beta size maxPos maxNeg
    let ctr := es.foldl M.update M.init
    overlapFactor 1 c.pos ctr.1 = posOverlap es c ∧ overlapFactor 0 c.neg ctr.2 = negOverlap es c := by
  intro M ctr
  have h : ctr = ((es.map (·.pos)).foldl bumpCounter (List.replicate df.nrows 0),
      (es.map (·.neg)).foldl bumpCounter (List.replicate df.nrows 0)) := foldl_update es _ _
  rw [h]
  constructor
  · exact overlapFactor_eq 1 _ df.nrows c.pos hc.1 (by
      intro e he; obtain ⟨x, hx, rfl⟩ := List.mem_map.1 he; exact (hes x hx).1)
  · exact overlapFactor_eq 0 _ df.nrows c.neg hc.2 (by
      intro e he; obtain ⟨x, hx, rfl⟩ := List.mem_map.1 he; exact (hes x hx).2)

/-- **C42.** No subgroup of a list exceeds a maximum overlap with the subgroups before it. -/
theorem C42_limit (hf : NominalFrame df target) (beta : ℝ) (size : Nat) (maxPos maxNeg : ℝ) (maxSl : Nat) (cs : List Cand)
    (res : List SubgroupList) (h : listFit (dslm df beta size maxPos maxNeg) maxSl df target (.ok cs) = .ok res) :
    ∀ l ∈ res, ∀ (k : Nat) (c : Cand), (entriesOf l)[k]? = some c →
      (posOverlap ((entriesOf l).take k) c : ℝ) ≤ maxPos ∧ (negOverlap ((entriesOf l).take k) c : ℝ) ≤ maxNeg := by
  intro l hl k c hk
  obtain ⟨P, N, -, hr⟩ := C41_dslm hf beta size maxPos maxNeg maxSl cs res h
  exact (produces_pick hr.run hl hk).1.2

end

/-! ### An example: two equal lines in the candidate file -/

/-- 8 rows `x, y` and 8 rows `z, n` -/
def twoFrame : Frame :=
  ⟨16, [(c!"a", List.replicate 8 (.str c!"x") ++ List.replicate 8 (.str c!"z")),
    (c!"t", List.replicate 8 (.str c!"y") ++ List.replicate 8 (.str c!"n"))]⟩

def twoTarget : Str × Str := (c!"t", c!"y")

def twoPos : Bits := List.replicate 8 true ++ List.replicate 8 false

/-- the subgroup `[a = 'x'], t = 'y'` with its bitarrays -/
def twoCand : Cand := ⟨⟨⟨[⟨c!"a", .equal, .str c!"x"⟩]⟩, ⟨c!"t", .equal, .str c!"y"⟩⟩, twoPos, List.replicate 16 false⟩

theorem twoNominal : NominalFrame twoFrame twoTarget := by
  refine ⟨by unfold WF; decide, by decide, ?_, by decide⟩
  intro c hc v hv
  have h : twoFrame.nominal = true := by decide
  simp only [Frame.nominal, List.all_eq_true] at h
  have := h c hc v hv
  cases v <;> simp_all [Val.isStr]

theorem twoFits : Fits twoFrame twoCand := ⟨by decide, by decide, by decide, by decide⟩

theorem twoMask : targetMask twoFrame twoTarget = .ok twoPos := by decide +kernel

theorem code_one : MDL.code 1 < 8 / 5 := by
  have h := MDL.code_pos_loop 1 (le_refl _)
  have e : MDL.code 1 = MDL.logK0 := by
    unfold MDL.codeLoop at h
    rw [if_neg (by unfold MDL.threshold; norm_num)] at h
    exact (Option.some.inj h).symm
  rw [e]
  unfold MDL.logK0
  rw [Real.logb_lt_iff_lt_rpow (by norm_num) (by norm_num)]
  have h1 : ((2 : ℝ) ^ ((8 : ℝ) / 5)) ^ (5 : ℕ) = 2 ^ 8 := by
    rw [← Real.rpow_natCast, ← Real.rpow_mul (by norm_num)]
    norm_num
  by_contra hc
  have h2 := pow_le_pow_left₀ (by positivity) (not_lt.1 hc) 5
  rw [h1] at h2
  norm_num at h2

theorem log2C2_eight : Real.logb 2 (complexityTwo 8) ≤ 3 := by
  obtain ⟨c, h1, h2, h3, -⟩ := MDL.C46_multinomial 2 8 (by norm_num) (by norm_num)
  have hc : c ≤ 8 := by
    refine le_trans h3 ?_
    rw [NML.nml_two 8 (by norm_num)]
    norm_num [Finset.sum_range_succ, Nat.descFactorial]
  have hcc : complexityTwo 8 = c := by
    have h1' : MDL.multinomial ((2 : Nat) : Int) ((8 : Nat) : Int) = .ok (MDL.mval 8 2) := MDL.multinomial_eq 2 8 (by norm_num) (by norm_num)
    rw [← MDL.mval_two]
    rw [h1'] at h1
    injection h1
  rw [hcc]
  rw [Real.logb_le_iff_le_rpow (by norm_num) (by linarith)]
  norm_num
  exact hc

theorem twoGain (beta : ℝ) : Greater (gainSpec twoFrame beta twoPos (Bits.not twoPos) [] twoCand) (.fin 0) := by
  have hp : newPos twoPos [] twoCand = 8 := by decide +kernel
  have hn : newNeg (Bits.not twoPos) [] twoCand = 0 := by decide +kernel
  have h1 : twoPos.ones = 8 := by decide +kernel
  have h2 : (Bits.not twoPos).ones = 8 := by decide +kernel
  have h3 : twoPos.length = 16 := by decide +kernel
  unfold gainSpec
  simp only [hp, hn, h1, h2, h3]
  rw [if_neg (by norm_num), if_neg (by norm_num), if_neg (by decide)]
  unfold Greater
  apply div_pos _ (by positivity)
  have hlog : Real.logb 2 ((8 : ℕ) / (16 : ℕ) : ℝ) = -1 := by
    rw [show (((8 : ℕ) : ℝ) / ((16 : ℕ) : ℝ)) = (2 : ℝ)⁻¹ by norm_num, Real.logb_inv, Real.logb_self_eq_one (by norm_num)]
  have hown : ownCode 8 0 ≤ 3 := by
    unfold ownCode
    have := log2C2_eight
    norm_num
    linarith
  have hdesc : descriptionCode twoFrame twoCand.sub = universalCode 1 + 1 := by
    unfold descriptionCode
    have e1 : twoCand.sub.description.sels.length = 1 := rfl
    have e2 : (twoFrame.cols.length - 1).choose 1 = 1 := by decide
    have e3 : ((twoFrame.cols.lookup c!"a").getD []).dedup.length = 2 := by decide +kernel
    rw [e1, e2]
    have e4 : twoCand.sub.description.sels = [⟨c!"a", .equal, .str c!"x"⟩] := rfl
    rw [e4]
    simp only [List.map_cons, List.map_nil, List.sum_cons, List.sum_nil, e3]
    norm_num
  rw [hlog, hdesc]
  have hc := code_one
  have h0 : MDL.code 0 = 0 := MDL.code_zero
  rw [MDL.code_eq] at hc h0
  simp only [List.length_nil, zero_add]
  push_cast
  rw [h0]
  linarith

/-- two equal candidates, alone -/
theorem two_lists {R : Rule RVal} {c : Cand} {res : List SubgroupList} (h : R.Produces [c, c] res) (hl : res.length = 2)
    (hgain : R.gt (R.gain [] c) R.zero) (hadm : R.admissible [] c) (hrel : ¬ R.related c.sub c.sub)
    (hno : ¬ R.gt (R.gain [c] c) R.zero) (hsize : R.maxSize ≠ some 0) : res.map entriesOf = [[c], [c]] := by
  obtain ⟨run, hr, hm⟩ := h
  have hrl : run.length = 2 := by
    have := congrArg List.length hm
    simpa [hl] using this.symm
  obtain ⟨a, b, rfl⟩ : ∃ a b, run = [a, b] := by
    match run, hrl with
    | [a, b], _ => exact ⟨a, b, rfl⟩
  have hcs : ∀ (x : Nat) (cx : Cand), ([c, c] : List Cand)[x]? = some cx → cx = c ∧ x < 2 := by
    intro x cx hx
    match x, hx with
    | 0, hx => simp at hx; exact ⟨hx.symm, by omega⟩
    | 1, hx => simp at hx; exact ⟨hx.symm, by omega⟩
    | x + 2, hx => simp at hx
  -- a list of one element, if some candidate is available
  have key : ∀ (E idx : List Nat), R.IsList [c, c] E idx → (∃ x, x < 2 ∧ x ∉ E) →
      ∃ i, i < 2 ∧ idx = [i] := by
    intro E idx hL hx
    obtain ⟨x, hx2, hxE⟩ := hx
    have hav : ∀ F : List Nat, x ∉ F → Available R.related [c, c] F x := by
      intro F hF
      refine ⟨hF, fun e _ ce cx he hx' => ?_⟩
      rw [(hcs _ _ he).1, (hcs _ _ hx').1]
      exact hrel
    have hxc : ([c, c] : List Cand)[x]? = some c := by
      match x, hx2 with
      | 0, _ => rfl
      | 1, _ => rfl
    match idx, hL with
    | [], hL =>
      exfalso
      rcases hL.stop with hs | hs
      · exact hsize hs
      · exact hs x c hxc (hav _ (by simpa using hxE)) hadm hgain
    | [i], hL =>
      obtain ⟨ci, hci, -⟩ := hL.pick 0 i rfl
      exact ⟨i, (hcs i ci hci).2, rfl⟩
    | i :: j :: idx, hL =>
      exfalso
      obtain ⟨ci, hci, -⟩ := hL.pick 0 i rfl
      obtain ⟨cj, hcj, -, -, hg, -⟩ := hL.pick 1 j rfl
      have e : entriesAt [c, c] ((i :: j :: idx).take 1) = [c] := by
        rw [(hcs i ci hci).1] at hci
        simp [entriesAt, hci]
      rw [e, (hcs j cj hcj).1] at hg
      exact hno hg
  obtain ⟨i, hi, rfl⟩ := key [] a (hr 0 a rfl) ⟨0, by omega, by simp⟩
  have h1 : R.IsList [c, c] [i] b := by simpa using hr 1 b rfl
  obtain ⟨j, hj, rfl⟩ := key [i] b h1 (by
    rcases (by omega : i = 0 ∨ i = 1) with rfl | rfl
    · exact ⟨1, by omega, by simp⟩
    · exact ⟨0, by omega, by simp⟩)
  have hat : ∀ i, i < 2 → entriesAt [c, c] [i] = [c] := by
    intro i hi
    rcases (by omega : i = 0 ∨ i = 1) with rfl | rfl <;> rfl
  rw [hm]
  simp only [List.map_cons, List.map_nil, hat i hi, hat j hj]

/-- **C40.** The restriction to lines of the file is necessary: with the same line twice, each of two lists gets the subgroup (in all
three algorithms). This is also an execution in which subgroups are chosen. -/
theorem C40_duplicate_lines (beta : ℝ) (size : Nat) (hs : 0 < size) (maxPos maxNeg : ℝ) (hp : 0 ≤ maxPos) (hn : 0 ≤ maxNeg) :
    (∃ res, listFit (gmsl twoFrame beta) 2 twoFrame twoTarget (.ok [twoCand, twoCand]) = .ok res ∧
      res.map entriesOf = [[twoCand], [twoCand]]) ∧
    (∃ res, listFit (psld twoFrame beta size) 2 twoFrame twoTarget (.ok [twoCand, twoCand]) = .ok res ∧
      res.map entriesOf = [[twoCand], [twoCand]]) ∧
    (∃ res, listFit (dslm twoFrame beta size maxPos maxNeg) 2 twoFrame twoTarget (.ok [twoCand, twoCand]) = .ok res ∧
      res.map entriesOf = [[twoCand], [twoCand]]) := by
  have hfit : ∀ c ∈ [twoCand, twoCand], Fits twoFrame c := by
    intro c hc
    simp at hc
    rw [hc]; exact twoFits
  obtain ⟨⟨r1, e1⟩, ⟨r2, e2⟩, ⟨r3, e3⟩⟩ := C40_total twoNominal (by decide) beta size 2 maxPos maxNeg _ hfit
  have hclass : (Bits.not twoPos).ones = 8 := by decide +kernel
  have hirr : ¬ ProperRefinement twoCand.sub twoCand.sub := fun h => (ssubset_irrefl _ h.1)
  have hp0 : newPos twoPos [] twoCand = 8 := by decide +kernel
  have hn0 : newNeg (Bits.not twoPos) [] twoCand = 0 := by decide +kernel
  have hp1 : newPos twoPos [twoCand] twoCand = 0 := by decide +kernel
  have hn1 : newNeg (Bits.not twoPos) [twoCand] twoCand = 0 := by decide +kernel
  have hg1 : ¬ Greater (gainSpec twoFrame beta twoPos (Bits.not twoPos) [twoCand] twoCand) (.fin 0) := by
    unfold gainSpec
    simp [hp1, hn1, Greater]
  have o1 : posOverlap [] twoCand = 0 := by decide +kernel
  have o2 : negOverlap [] twoCand = 0 := by decide +kernel
  refine ⟨⟨r1, e1, ?_⟩, ⟨r2, e2, ?_⟩, ⟨r3, e3, ?_⟩⟩
  · have h := listResult_of twoNominal twoMask (gmsl_implements twoFrame beta twoPos _ (ones_not _)) e1
    exact two_lists h.run h.count (twoGain beta) trivial hirr hg1 (by simp [gmslRule])
  · have h := listResult_of twoNominal twoMask (psld_implements twoFrame beta size twoPos _ (ones_not _)) e2
    refine two_lists h.run h.count (twoGain beta) ?_ ?_ hg1 (by simp [psldRule]; omega)
    · show 0 < newPos twoPos [] twoCand
      omega
    · rintro (h | h) <;> exact hirr h
  · have h := listResult_of twoNominal twoMask (dslm_implements twoFrame beta size maxPos maxNeg twoPos _ (ones_not _) (by decide)) e3
    refine two_lists h.run h.count ?_ ?_ ?_ ?_ (by simp [dslmRule]; omega)
    · simp only [dslmRule]
      rw [if_neg (by omega), o1, o2]
      have := twoGain beta
      cases hx : gainSpec twoFrame beta twoPos (Bits.not twoPos) [] twoCand with
      | fin r =>
        rw [hx] at this
        simp only [reduced, Rat.cast_zero, sub_zero, mul_one]
        exact this
      | _ => rw [hx] at this; simp_all [reduced, Greater]
    · refine ⟨by omega, ?_, ?_⟩
      · rw [o1]; simpa using hp
      · rw [o2]; simpa using hn
    · rintro (h | h) <;> exact hirr h
    · simp only [dslmRule]
      rw [if_pos (by omega)]
      simp [Greater]

/-- overlaps strictly between 0 and 1 -/
example : posOverlap [⟨twoCand.sub, [true, true, false], [false, false, true]⟩]
    ⟨twoCand.sub, [false, true, false], [false, false, true]⟩ = 1 / 2 := by decide +kernel
example : overlapFactor 1 [false, true, false] [2, 1, 0] = 1 / 3 := by decide +kernel

end Verif
