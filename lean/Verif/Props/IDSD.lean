import Verif.Lemmas.IDSDRefit
import Verif.Spec.Credibility
/-! Properties C36, C37, C39, C35 for IDSD. -/
namespace Verif
open Spec IDSD BSD

section
open Classical
variable {cfg : IDSDConfig} {df : Frame} {target : Str × Str}

theorem keyLe_notBetter {a b : IDSDEntry} (ha : Num a) (hb : Num b) : KeyLe a b ↔ NotBetter a b := by
  rw [keyLe_iff ha hb, NotBetter, XF.le_iff]

theorem maxComplexity_eq (cfg : IDSDConfig) (df : Frame) (t : Str) : maxComplexity cfg (reduceCategories cfg.ties cfg.cats df t) = maxSelectors cfg df := by
  have h : (reduceCategories cfg.ties cfg.cats df t).cols.length = df.cols.length := by
    have := congrArg List.length (reduce_names cfg.ties cfg.cats df t)
    simpa using this
  unfold maxComplexity maxSelectors
  rw [h]
  split
  · omega
  · rfl

/-- a description as a subset of the selectors of the data -/
theorem describes_sublist (hf : NominalFrame df target) {X : List Selector} (hX : Describes target X) (ho : OccursIn df X) :
    ∃ Z, Z.Sublist ((selectorPairs df target.1).map (·.1)) ∧ Z ≠ [] ∧ (∀ s, s ∈ Z ↔ s ∈ X) ∧ Pattern.new Z = Pattern.new X ∧ Z.length = (Pattern.new X).len := by
  have hmem : ∀ s ∈ X, s ∈ (selectorPairs df target.1).map (·.1) := fun s hs =>
    (mem_sels hf).2 ⟨hX.2 s hs, occursIn_mono (by intro t ht; rw [List.mem_singleton.1 ht]; exact hs) ho⟩
  set Z := ((selectorPairs df target.1).map (·.1)).filter (fun s => decide (s ∈ X)) with hZ
  have hsub : Z.Sublist ((selectorPairs df target.1).map (·.1)) := List.filter_sublist
  have hz : ∀ s, s ∈ Z ↔ s ∈ X := by
    intro s
    rw [hZ, List.mem_filter, decide_eq_true_iff]
    exact ⟨fun h => h.2, fun h => ⟨hmem s h, h⟩⟩
  have tX : ∀ s ∈ X, TextEq s := fun s hs => (hX.2 s hs).2
  have tZ : ∀ s ∈ Z, TextEq s := fun s hs => tX s ((hz s).1 hs)
  have hne : Z ≠ [] := by
    intro h
    obtain ⟨s, hs⟩ := List.exists_mem_of_ne_nil _ hX.1
    have := (hz s).2 hs
    rw [h] at this
    simp at this
  have he : Pattern.new Z = Pattern.new X := new_sels_eq tX (new_text tZ).1 (fun s => by rw [mem_new tZ, hz])
  exact ⟨Z, hsub, hne, hz, he, by rw [← he, new_len tZ (hsub.nodup (nodup_sels hf))]⟩

/-- everything about one `fit`, from which the theorems below are read -/
theorem idsd_fit (hf : NominalFrame df target) (ht : OccursIn df [targetSel target]) (hnum : 0 < cfg.num) {st : IDSDState}
    (hA : ∀ a ∈ st.apps.head?, df.nrows ≤ a.2.length) :
    ∃ st' N, fit cfg st df target = .ok st' ∧ DeepSpec cfg (searched cfg df target) target (maxSelectors cfg df) st' N := by
  obtain ⟨st', N, h1, _, h3⟩ := fit_spec (cfg := cfg) hf ht hnum st hA
  rw [maxComplexity_eq] at h3
  exact ⟨st', N, h1, h3⟩

/-! ## C36 -/

/-- C36: the list of the best subgroups has at most `num_subgroups` elements, all different, the best first. -/
theorem C36_size_sorted (hf : NominalFrame df target) (ht : OccursIn df [targetSel target]) (hnum : 0 < cfg.num) :
    ∃ st', fit cfg .init df target = .ok st' ∧ st'.top.length ≤ cfg.num ∧ (st'.top.map (·.pat)).Nodup ∧
      st'.top.Pairwise (fun a b => NotBetter b a) := by
  obtain ⟨st', N, h1, h2⟩ := idsd_fit (cfg := cfg) hf ht hnum (st := .init) (by simp [IDSDState.init])
  refine ⟨st', h1, h2.inv.inv.size, h2.inv.inv.distinct, ?_⟩
  exact h2.inv.inv.sorted.imp_of_mem (fun {a b} ha hb h => (keyLe_notBetter (h2.inv.inv.num b hb) (h2.inv.inv.num a ha)).1 h)

/-- C36: every element of the list describes rows that occur in the searched data, with at most `max_complexity` selectors on attributes other
than the target, and its rank and its values are those of these rows. -/
theorem C36_exact (hf : NominalFrame df target) (ht : OccursIn df [targetSel target]) (hnum : 0 < cfg.num) {st' : IDSDState}
    (h : fit cfg .init df target = .ok st') :
    ∀ e ∈ st'.top, Describes target e.pat.sels ∧ OccursIn (searched cfg df target) e.pat.sels ∧ e.pat.len ≤ maxSelectors cfg df ∧
      e.rank = rankOf cfg (searched cfg df target) target e.pat ∧ e.cred = credOf cfg (searched cfg df target) target e.pat ∧ e.odds = e.cred.odds := by
  obtain ⟨st1, N, h1, h2⟩ := idsd_fit (cfg := cfg) hf ht hnum (st := .init) (by simp [IDSDState.init])
  rw [h1] at h
  cases h
  intro e he
  obtain ⟨hc, hx⟩ := h2.inv.exact e he
  rw [h2.calls] at hc
  obtain ⟨X, hX, hp⟩ := List.mem_map.1 hc
  obtain ⟨g1, g2, g3, g4⟩ := h2.good X hX
  have hf' := reduce_nominal hf (ties := cfg.ties) cfg.cats
  have hsel : ∀ s ∈ X, IsSel target s := fun s hs => ((mem_sels hf').1 (g1.subset hs)).1
  have hm := mem_new (fun s hs => (hsel s hs).2)
  have hl := new_len (fun s hs => (hsel s hs).2) (g1.nodup (nodup_sels hf'))
  rw [← hp]
  refine ⟨⟨?_, fun s hs => hsel s ((hm s).1 hs)⟩, occursIn_mono (fun s hs => (hm s).1 hs) g4, by rw [hl]; exact g3, ?_, ?_, ?_⟩
  · intro h0
    obtain ⟨s, hs⟩ := List.exists_mem_of_ne_nil _ g2
    have := (hm s).2 hs
    rw [h0] at this
    simp at this
  · rw [hp, hx]; rfl
  · rw [hp, hx]; rfl
  · rw [hx]; rfl

/-- C36: a reported subgroup whose description extends that of another reported one is not better than it. -/
theorem C36_refinement (hf : NominalFrame df target) (ht : OccursIn df [targetSel target]) (hnum : 0 < cfg.num) {st' : IDSDState}
    (h : fit cfg .init df target = .ok st') :
    ∀ e ∈ st'.top, ∀ f ∈ st'.top, (∀ s ∈ e.pat.sels, s ∈ f.pat.sels) → e.pat.len < f.pat.len → NotBetter f e := by
  obtain ⟨st1, N, h1, h2⟩ := idsd_fit (cfg := cfg) hf ht hnum (st := .init) (by simp [IDSDState.init])
  rw [h1] at h
  cases h
  intro e he f hf' hs hl
  rw [← keyLe_notBetter (h2.inv.inv.num f hf') (h2.inv.inv.num e he)]
  apply h2.inv.refine e he f hf' hl
  unfold redundant
  rw [Bool.or_eq_true, Pattern.isRefinement_iff]
  exact .inl ⟨hs, .inr rfl⟩

/-- C36: no description of the searched data with at most `max_complexity` selectors is better than the first element of the list. -/
theorem C36_best (hf : NominalFrame df target) (ht : OccursIn df [targetSel target]) (hnum : 0 < cfg.num) {st' : IDSDState}
    (h : fit cfg .init df target = .ok st') {X : List Selector} (hX : Describes target X) (ho : OccursIn (searched cfg df target) X)
    (hl : (Pattern.new X).len ≤ maxSelectors cfg df) :
    ∃ e, st'.top.head? = some e ∧ NotBetter (entryOf cfg (searched cfg df target) target (Pattern.new X)) e := by
  obtain ⟨st1, N, h1, h2⟩ := idsd_fit (cfg := cfg) hf ht hnum (st := .init) (by simp [IDSDState.init])
  rw [h1] at h
  cases h
  have hf' := reduce_nominal hf (ties := cfg.ties) cfg.cats
  obtain ⟨Z, z1, z2, z3, z4, z5⟩ := describes_sublist hf' hX ho
  have key : ∃ g ∈ st'.top, KeyLe (entryOf cfg (searched cfg df target) target (Pattern.new X)) g := by
    rcases h2.all Z z1 z2 (by rw [z5]; exact hl) (occursIn_mono (fun s hs => (z3 s).1 hs) ho) with h | ⟨hc, g, hg, hr⟩
    · apply h2.inv.dom
      rw [h2.calls, ← z4]
      exact List.mem_map_of_mem h
    · refine ⟨g, hg, ?_⟩
      rw [keyLe_iff (entryOf_num _ _ _ _) (h2.inv.inv.num g hg)]
      left
      have h0 : ¬ 0 < rankOf cfg (searched cfg df target) target (Pattern.new X) := by
        rw [rank_pos_iff, ← z4, covOf_congr (mem_new (fun s hs => (hX.2 s ((z3 s).1 hs)).2))]
        exact not_le.2 hc
      have : (entryOf cfg (searched cfg df target) target (Pattern.new X)).rank = rankOf cfg (searched cfg df target) target (Pattern.new X) := rfl
      omega
  obtain ⟨g, hg, hk⟩ := key
  cases ht' : st'.top with
  | nil => rw [ht'] at hg; simp at hg
  | cons e top =>
    have hinv := h2.inv.inv
    rw [ht'] at hinv hg
    refine ⟨e, rfl, ?_⟩
    rw [← keyLe_notBetter (entryOf_num _ _ _ _) (hinv.num e (by simp))]
    exact KeyLe.trans (entryOf_num _ _ _ _) (hinv.num g hg) (hinv.num e (by simp)) hk (hinv.le_head g hg)

/-! ## C39 -/

/-- C39, IDSD: each evaluated pattern is evaluated once, occurs in the searched data and has at most `max_complexity` selectors; every
description that occurs and reaches the coverage threshold is evaluated (one that does not is skipped only when the list already has a subgroup
of positive rank). -/
theorem C39_idsd (hf : NominalFrame df target) (ht : OccursIn df [targetSel target]) (hnum : 0 < cfg.num) :
    ∃ st', fit cfg .init df target = .ok st' ∧ st'.calls.Nodup ∧
      (∀ p ∈ st'.calls, ∃ X, p = Pattern.new X ∧ Describes target X ∧ OccursIn (searched cfg df target) X ∧ p.len ≤ maxSelectors cfg df) ∧
      ∀ X, Describes target X → OccursIn (searched cfg df target) X → (Pattern.new X).len ≤ maxSelectors cfg df →
        Pattern.new X ∈ st'.calls ∨ (covOf (searched cfg df target) target X < cfg.covT ∧ ∃ e ∈ st'.top, 0 < e.rank) := by
  obtain ⟨st', N, h1, h2⟩ := idsd_fit (cfg := cfg) hf ht hnum (st := .init) (by simp [IDSDState.init])
  have hf' := reduce_nominal hf (ties := cfg.ties) cfg.cats
  have hsel : ∀ X ∈ N, ∀ s ∈ X, IsSel target s := fun X hX s hs => ((mem_sels hf').1 ((h2.good X hX).1.subset hs)).1
  refine ⟨st', h1, ?_, ?_, ?_⟩
  · rw [h2.calls]
    apply List.Nodup.map_on _ h2.nodup
    intro X hX Y hY hXY
    apply sublist_ext (nodup_sels hf') (h2.good X hX).1 (h2.good Y hY).1
    intro s
    rw [← mem_new (fun t ht => (hsel X hX t ht).2), hXY, mem_new (fun t ht => (hsel Y hY t ht).2)]
  · intro p hp
    rw [h2.calls] at hp
    obtain ⟨X, hX, rfl⟩ := List.mem_map.1 hp
    obtain ⟨g1, g2, g3, g4⟩ := h2.good X hX
    exact ⟨X, rfl, ⟨g2, hsel X hX⟩, g4, by rw [new_len (fun t ht => (hsel X hX t ht).2) (g1.nodup (nodup_sels hf'))]; exact g3⟩
  · intro X hX ho hl
    obtain ⟨Z, z1, z2, z3, z4, z5⟩ := describes_sublist hf' hX ho
    rcases h2.all Z z1 z2 (by rw [z5]; exact hl) (occursIn_mono (fun s hs => (z3 s).1 hs) ho) with h | ⟨hc, h⟩
    · left
      rw [h2.calls, ← z4]
      exact List.mem_map_of_mem h
    · right
      rw [covOf_congr z3] at hc
      exact ⟨hc, h⟩

/-! ## C35 -/

theorem history_head {n : Nat} (h : List (Frame × (Str × Str)))
    (hh : ∀ c ∈ h, NominalFrame c.1 c.2 ∧ OccursIn c.1 [targetSel c.2] ∧ n ≤ c.1.nrows) :
    ∀ (st : IDSDState), (∀ a ∈ st.apps.head?, n ≤ a.2.length) → ∀ a ∈ (idsdHistory cfg h st).apps.head?, n ≤ a.2.length := by
  induction h with
  | nil => intro st hst; exact hst
  | cons c h ih =>
    intro st hst
    have e : idsdHistory cfg (c :: h) st = idsdHistory cfg h (match fit cfg st c.1 c.2 with | .ok st' => st' | .error _ => st) := rfl
    rw [e]
    apply ih (fun d hd => hh d (by simp [hd]))
    cases hfit : fit cfg st c.1 c.2 with
    | error e => exact hst
    | ok st' =>
      obtain ⟨hf, ht, hn⟩ := hh c (by simp)
      have hap : st'.apps = (selectorPairs (reduceCategories cfg.ties cfg.cats c.1 c.2.1) c.2.1).foldl (fun d e => setApp d e.1 e.2) st.apps := by
        unfold fit at hfit
        split at hfit
        · cases hfit
        · split at hfit
          · cases hfit
          · split at hfit
            · cases hfit
            · exact deepen_apps _ hfit
      rw [hap]
      apply head_fold _ hst
      intro e he
      rw [pairs_length (reduce_nominal hf (ties := cfg.ties) cfg.cats) e he, reduce_nrows]
      exact hn
where
  deepen_apps {TP FP n : Nat} {mask : Bits} {sels : List Selector} (cs : List Nat) : ∀ {st st' : IDSDState},
      deepen cfg TP FP mask sels n cs st = .ok st' → st'.apps = st.apps := by
    induction cs with
    | nil => intro st st' h; cases h; rfl
    | cons c cs ih =>
      intro st st' h
      rw [deepen] at h
      split at h
      · cases h
      · rename_i st1 hg
        rw [ih h]
        unfold growTree at hg
        split at hg
        · cases hg
        · rename_i hv
          cases hg
          exact visit_apps hv
        · rename_i hv
          exact (growLoop_apps _ hg).trans (visit_apps hv)

/-- C35, IDSD: after any `fit`s on data sets that have at least as many rows, `fit` gives the list of a new object, evaluating the same
patterns in the same order; the counters are the previous ones plus those of a new object. -/
theorem C35_idsd (h : List (Frame × (Str × Str)))
    (hh : ∀ c ∈ h, NominalFrame c.1 c.2 ∧ OccursIn c.1 [targetSel c.2] ∧ df.nrows ≤ c.1.nrows)
    (hf : NominalFrame df target) (ht : OccursIn df [targetSel target]) (hnum : 0 < cfg.num) :
    ∃ r st', fit cfg .init df target = .ok r ∧ fit cfg (idsdHistory cfg h .init) df target = .ok st' ∧ st'.top = r.top ∧ st'.calls = r.calls ∧
      st'.visited = (idsdHistory cfg h .init).visited + r.visited ∧ st'.pruned = (idsdHistory cfg h .init).pruned + r.pruned := by
  obtain ⟨r, N, h1, _⟩ := idsd_fit (cfg := cfg) hf ht hnum (st := .init) (by simp [IDSDState.init])
  obtain ⟨A, _, h2⟩ := fit_shift (cfg := cfg) hf ht (idsdHistory cfg h .init) (history_head h hh .init (by simp [IDSDState.init]))
  rw [h1] at h2
  exact ⟨r, _, h1, h2, rfl, rfl, rfl, rfl⟩

/-! ## C37 -/

/-- C37, IDSD: the rank is the number of criteria that hold before the first one that does not. -/
theorem C37_rank (l : List Bool) : computeRank l ≤ l.length ∧ (∀ i, i < computeRank l → l[i]? = some true) ∧
    (computeRank l < l.length → l[computeRank l]? = some false) := by
  rw [computeRank_eq]
  induction l with
  | nil => simp
  | cons b l ih =>
    cases b
    · simp
    · obtain ⟨h1, h2, h3⟩ := ih
      simp only [List.takeWhile_cons, id, if_true, List.length_cons]
      refine ⟨by omega, ?_, ?_⟩
      · intro i hi
        cases i with
        | zero => rfl
        | succ i => simpa using h2 i (by omega)
      · intro h
        simpa using h3 (by omega)

/-- C37, IDSD: more criteria met never give a lower rank. -/
theorem C37_rank_monotone (l m : List Bool) (hl : l.length = m.length) (h : ∀ i : Nat, l[i]? = some true → m[i]? = some true) :
    computeRank l ≤ computeRank m := by
  obtain ⟨a1, a2, a3⟩ := C37_rank l
  obtain ⟨b1, b2, b3⟩ := C37_rank m
  by_contra hc
  push Not at hc
  have h1 := h _ (a2 _ hc)
  rw [b3 (by omega)] at h1
  simp at h1

/-- the vector of the five criteria of a subgroup with these numbers of rows, all measures computed -/
def Spec.allCriteria (cfg : IDSDConfig) (tp fp TP FP : Nat) (contrib : XF × XF) : List Bool :=
  [decide (cfg.covT ≤ ((tp + fp : Nat) : Rat) / ((TP + FP : Nat) : Rat)), (XF.fin cfg.orT).le (OddsRatioStatistic.ofCounts tp fp TP FP),
    (cfg.pv tp fp TP FP).le (.fin cfg.pT), (XF.fin cfg.absT).le contrib.1, contrib.2.le (.fin cfg.ratioT)]

/-- C37, IDSD: leaving out the measures after the first criterion that fails does not change the rank. -/
theorem C37_early_exit (cfg : IDSDConfig) (tp fp TP FP : Nat) (h : 0 < TP + FP) (contrib : XF × XF) :
    ∃ c, credibility cfg tp fp TP FP (.ok contrib) = .ok c ∧ computeRank (criteria cfg c) = computeRank (allCriteria cfg tp fp TP FP contrib) := by
  unfold credibility
  rw [coverage_eq h]
  simp only
  have hc : (XF.fin (((tp + fp : Nat) : Rat) / ((TP + FP : Nat) : Rat))).ge (.fin cfg.covT) = decide (cfg.covT ≤ ((tp + fp : Nat) : Rat) / ((TP + FP : Nat) : Rat)) := by
    simp [XF.ge, XF.le]
  generalize hcov : ((tp + fp : Nat) : Rat) / ((TP + FP : Nat) : Rat) = cov at hc
  have ho : (OddsRatioStatistic.ofCounts tp fp TP FP).ge (.fin cfg.orT) = (XF.fin cfg.orT).le (OddsRatioStatistic.ofCounts tp fp TP FP) := rfl
  cases c1 : decide (cfg.covT ≤ cov)
  · rw [hc, c1]
    refine ⟨_, rfl, ?_⟩
    rw [computeRank_eq, computeRank_eq, criteria, allCriteria, hcov]
    simp only [hc, c1, List.takeWhile_cons, id]
    rfl
  · rw [hc, c1]
    simp only [Bool.not_true, Bool.false_eq_true, if_false]
    cases c2 : (XF.fin cfg.orT).le (OddsRatioStatistic.ofCounts tp fp TP FP)
    · rw [ho, c2]
      refine ⟨_, rfl, ?_⟩
      rw [computeRank_eq, computeRank_eq, criteria, allCriteria, hcov]
      simp only [hc, c1, ho, c2, List.takeWhile_cons, id]
      rfl
    · rw [ho, c2]
      simp only [Bool.not_true, Bool.false_eq_true, if_false]
      cases c3 : (cfg.pv tp fp TP FP).le (.fin cfg.pT)
      · refine ⟨_, rfl, ?_⟩
        rw [computeRank_eq, computeRank_eq, criteria, allCriteria, hcov]
        simp only [hc, c1, ho, c2, c3, List.takeWhile_cons, id]
        rfl
      · refine ⟨_, rfl, ?_⟩
        rw [criteria, allCriteria, hcov]
        simp only [hc, c1, ho, c2, c3]
        rfl

end

/-! ## counters -/

/-- what a step does to the counters -/
structure Counts (cfg : IDSDConfig) (st st' : IDSDState) : Prop where
  visited : st.visited + st'.calls.length ≤ st'.visited + st.calls.length
  pruned : cfg.maxC = -1 → st'.pruned = st.pruned

theorem Counts.trans {cfg : IDSDConfig} {a b c : IDSDState} (h : Counts cfg a b) (h' : Counts cfg b c) : Counts cfg a c :=
  ⟨by have := h.visited; have := h'.visited; omega, fun e => (h'.pruned e).trans (h.pruned e)⟩

theorem visit_counts {cfg : IDSDConfig} {c TP FP : Nat} {mask : Bits} {p : Pattern} {app : Bits} {st st' : IDSDState} {b : Bool}
    (h : visit cfg c TP FP mask p app st = .ok (st', b)) : Counts cfg st st' := by
  have hh : ∀ {st1 st2 : IDSDState}, IDSD.handle cfg TP FP mask p app st1 = .ok st2 →
      st2.visited = st1.visited ∧ st2.pruned = st1.pruned ∧ st2.calls.length = st1.calls.length + 1 := by
    intro st1 st2 h
    unfold IDSD.handle at h
    simp only at h
    split at h
    · cases h
    · cases h; simp
  have hmc : cfg.maxC = -1 → ¬ ((c : Int) = cfg.maxC) := by intro e; rw [e]; omega
  unfold visit at h
  simp only at h
  split at h
  · cases h
  · by_cases h1 : ‹Rat› = 0
    · rw [if_pos h1] at h
      cases h
      exact ⟨by simp only; omega, fun e => by simp [hmc e]⟩
    · rw [if_neg h1] at h
      by_cases h2 : st.top.length = cfg.num ∧ lastRankPos st.top = true ∧ ¬ (‹Rat› ≥ cfg.covT)
      · have h := (if_pos h2).symm.trans h
        cases h
        exact ⟨by simp only; omega, fun e => by simp [hmc e]⟩
      · have h := (if_neg h2).symm.trans h
        by_cases h3 : p.len = c
        · simp only [if_pos h3] at h
          split at h
          · cases h
          · rename_i h4
            cases h
            obtain ⟨a1, a2, a3⟩ := hh h4
            exact ⟨by rw [a1, a3]; simp only; omega, fun _ => by rw [a2]⟩
        · simp only [if_neg h3] at h
          cases h
          exact ⟨by simp, fun _ => rfl⟩

theorem growLoop_counts {cfg : IDSDConfig} {c TP FP : Nat} {mask : Bits} (l : List Selector) : ∀ {p : Pattern} {app : Bits} {st st' : IDSDState},
    growLoop cfg c TP FP mask l p app st = .ok st' → Counts cfg st st' := by
  induction l with
  | nil => intro p app st st' h; cases h; exact ⟨le_refl _, fun _ => rfl⟩
  | cons s l ih =>
    intro p app st st' h
    rw [growLoop] at h
    split at h
    · cases h
    · split at h
      · cases h
      · rename_i hv
        exact (visit_counts hv).trans (ih h)
      · rename_i hv
        split at h
        · cases h
        · rename_i h1
          exact ((visit_counts hv).trans (ih h1)).trans (ih h)

theorem deepen_counts {cfg : IDSDConfig} {TP FP n : Nat} {mask : Bits} {sels : List Selector} (cs : List Nat) : ∀ {st st' : IDSDState},
    deepen cfg TP FP mask sels n cs st = .ok st' → Counts cfg st st' := by
  induction cs with
  | nil => intro st st' h; cases h; exact ⟨le_refl _, fun _ => rfl⟩
  | cons c cs ih =>
    intro st st' h
    rw [deepen] at h
    split at h
    · cases h
    · rename_i st1 hg
      refine Counts.trans ?_ (ih h)
      unfold growTree at hg
      split at hg
      · cases hg
      · rename_i hv
        cases hg
        exact visit_counts hv
      · rename_i hv
        exact (visit_counts hv).trans (growLoop_counts _ hg)

/-- C59: after the `fit` of a new object `visited_subgroups` is at least the number of evaluated patterns, which is at least the number of
selected ones, so that `unselected_subgroups` is not negative; with `max_complexity = -1` `pruned_subgroups` is 0, whatever was pruned; and
reading `non_unique_visited_subgroups` always fails. -/
theorem C59_counters {cfg : IDSDConfig} {df : Frame} {target : Str × Str} (hf : NominalFrame df target) (ht : OccursIn df [targetSel target])
    (hnum : 0 < cfg.num) {st' : IDSDState} (h : fit cfg .init df target = .ok st') :
    st'.top.length ≤ st'.calls.length ∧ st'.calls.length ≤ st'.visited ∧ 0 ≤ getUnselected st' ∧ (cfg.maxC = -1 → st'.pruned = 0) ∧
      getNonUniqueVisited st' = .error .attributeError := by
  obtain ⟨st1, N, h1, h2⟩ := idsd_fit (cfg := cfg) hf ht hnum (st := .init) (by simp [IDSDState.init])
  rw [h1] at h
  cases h
  have hc : Counts cfg .init st' := by
    unfold fit at h1
    split at h1
    · cases h1
    · split at h1
      · cases h1
      · split at h1
        · cases h1
        · have := deepen_counts _ h1
          exact ⟨this.visited, this.pruned⟩
  have e1 : st'.top.length ≤ st'.calls.length := by
    have hsub : st'.top.map (·.pat) ⊆ st'.calls := by
      intro p hp
      obtain ⟨e, he, rfl⟩ := List.mem_map.1 hp
      exact (h2.inv.exact e he).1
    have := (List.subperm_of_subset h2.inv.inv.distinct hsub).length_le
    simpa using this
  have e2 : st'.calls.length ≤ st'.visited := by
    have := hc.visited
    simp only [IDSDState.init, List.length_nil] at this
    omega
  refine ⟨e1, e2, ?_, fun e => hc.pruned e, rfl⟩
  unfold getUnselected
  omega

/-! ## witnesses -/

namespace IDSDWitness

def dfA : Frame :=
  ⟨5, [(c!"a", [.str c!"x", .str c!"x", .str c!"w", .str c!"w", .str c!"w"]), (c!"b", [.str c!"y", .str c!"z", .str c!"y", .str c!"z", .str c!"z"]),
    (c!"t", [.str c!"1", .str c!"1", .str c!"0", .str c!"0", .str c!"1"])]⟩
def cfgA : IDSDConfig := ⟨10, -1, -1, 0, 0, 1, 0, 5, fun _ _ _ _ => .fin 1, .first⟩
def tA : Str × Str := (c!"t", c!"1")
def df0 : Frame := ⟨2, [(c!"q", [.str c!"x", .str c!"y"]), (c!"t", [.str c!"1", .str c!"0"])]⟩
def sx : Selector := ⟨c!"a", .equal, .str c!"x"⟩
def sy : Selector := ⟨c!"b", .equal, .str c!"y"⟩

/-- the descriptions of a list of subgroups with their ranks -/
def shown (r : Except PyErr IDSDState) : List (List Selector × Nat) :=
  match r with
  | .ok st => st.top.map (fun e => (e.pat.sels, e.rank))
  | .error _ => []

theorem nominalA : NominalFrame dfA tA := by
  refine ⟨by unfold WF; decide, by decide, ?_, by decide⟩
  intro c hc v hv
  have h : dfA.nominal = true := by decide
  simp only [Frame.nominal, List.all_eq_true] at h
  have := h c hc v hv
  cases v <;> simp_all [Val.isStr]

theorem nominal0 : NominalFrame df0 tA := by
  refine ⟨by unfold WF; decide, by decide, ?_, by decide⟩
  intro c hc v hv
  have h : df0.nominal = true := by decide
  simp only [Frame.nominal, List.all_eq_true] at h
  have := h c hc v hv
  cases v <;> simp_all [Val.isStr]

theorem occursA : OccursIn dfA [targetSel tA] :=
  ⟨0, by decide, fun s hs => by
    rw [List.mem_singleton.1 hs]
    exact ⟨_, _, rfl, rfl, rfl⟩⟩

theorem occurs0 : OccursIn df0 [targetSel tA] :=
  ⟨0, by decide, fun s hs => by
    rw [List.mem_singleton.1 hs]
    exact ⟨_, _, rfl, rfl, rfl⟩⟩

end IDSDWitness
open IDSDWitness

/-- C36 is false without "better": the list can keep a description and one that extends it, with the same rank and odds ratio. -/
theorem C36_redundant_fails : ∃ (cfg : IDSDConfig) (df : Frame) (target : Str × Str) (st' : IDSDState),
    NominalFrame df target ∧ OccursIn df [targetSel target] ∧ 0 < cfg.num ∧ fit cfg .init df target = .ok st' ∧
    ∃ e ∈ st'.top, ∃ f ∈ st'.top, redundant e.pat f.pat = true ∧ e.pat ≠ f.pat := by
  obtain ⟨st', h1, _⟩ := C36_size_sorted (cfg := cfgA) nominalA occursA (by decide)
  refine ⟨cfgA, dfA, tA, st', nominalA, occursA, by decide, h1, ?_⟩
  have h2 : (shown (fit cfgA .init dfA tA)).map (·.1) = [[sx], [sx, sy], [sx, ⟨c!"b", .equal, .str c!"z"⟩], [⟨c!"a", .equal, .str c!"w"⟩]] := by
    decide +kernel
  rw [h1] at h2
  simp only [shown, List.map_map] at h2
  have a1 : [sx] ∈ st'.top.map ((fun p : List Selector × Nat => p.1) ∘ fun e => (e.pat.sels, e.rank)) := by rw [h2]; simp
  have a2 : [sx, sy] ∈ st'.top.map ((fun p : List Selector × Nat => p.1) ∘ fun e => (e.pat.sels, e.rank)) := by rw [h2]; simp
  obtain ⟨e, he, he'⟩ := List.mem_map.1 a1
  obtain ⟨f, hf, hf'⟩ := List.mem_map.1 a2
  simp only [Function.comp] at he' hf'
  have e1 : e.pat = ⟨[sx]⟩ := by cases h : e.pat; rw [h] at he'; simp only at he'; rw [he']
  have e2 : f.pat = ⟨[sx, sy]⟩ := by cases h : f.pat; rw [h] at hf'; simp only at hf'; rw [hf']
  exact ⟨e, he, f, hf, by rw [e1, e2]; decide +kernel, by rw [e1, e2]; simp⟩

/-- C35 is false for IDSD after a `fit` on data with fewer rows: the contributions are computed on the rows of the first data set, and
the list is another one. -/
theorem C35_idsd_fails : ∃ (cfg : IDSDConfig) (df0 df : Frame) (target : Str × Str) (r st' : IDSDState),
    NominalFrame df0 target ∧ OccursIn df0 [targetSel target] ∧ NominalFrame df target ∧ OccursIn df [targetSel target] ∧ 0 < cfg.num ∧
    fit cfg .init df target = .ok r ∧ fit cfg (idsdHistory cfg [(df0, target)] .init) df target = .ok st' ∧ st'.top ≠ r.top := by
  have hne : shown (fit cfgA .init dfA tA) ≠ shown (fit cfgA (idsdHistory cfgA [(df0, tA)] .init) dfA tA) := by decide +kernel
  obtain ⟨r, h1, _⟩ := C36_size_sorted (cfg := cfgA) nominalA occursA (by decide)
  have hok : ∃ st', fit cfgA (idsdHistory cfgA [(df0, tA)] .init) dfA tA = .ok st' := by
    have : (match fit cfgA (idsdHistory cfgA [(df0, tA)] .init) dfA tA with | .ok _ => true | .error _ => false) = true := by decide +kernel
    cases h : fit cfgA (idsdHistory cfgA [(df0, tA)] .init) dfA tA with
    | ok st' => exact ⟨st', rfl⟩
    | error e => rw [h] at this; simp at this
  obtain ⟨st', h2⟩ := hok
  refine ⟨cfgA, df0, dfA, tA, r, st', nominal0, occurs0, nominalA, occursA, by decide, h1, h2, ?_⟩
  intro h
  rw [h1, h2] at hne
  simp only [shown, h] at hne
  exact hne rfl

/-- the hypotheses of the theorems on IDSD are met: a run of the first data set after one on itself -/
example : ∃ r st', fit cfgA .init dfA tA = .ok r ∧ fit cfgA (idsdHistory cfgA [(dfA, tA)] .init) dfA tA = .ok st' ∧ st'.top = r.top := by
  obtain ⟨r, st', h1, h2, h3, _⟩ := C35_idsd (cfg := cfgA) [(dfA, tA)]
    (fun c hc => by rw [List.mem_singleton.1 hc]; exact ⟨nominalA, occursA, le_refl _⟩) nominalA occursA (by decide)
  exact ⟨r, st', h1, h2, h3⟩

/-- with the usual thresholds the list has four subgroups, the three first of rank 5 -/
example : (shown (fit cfgA .init dfA tA)).map (·.2) = [5, 5, 5, 5] := by decide +kernel

/-- the categories are grouped when there are more than `cats` -/
example : (shown (fit { cfgA with cats := 1, maxC := 1 } .init dfA tA)).map (·.1) =
    [[⟨c!"a", .equal, .str c!"other"⟩], [⟨c!"b", .equal, .str c!"other"⟩]] := by decide +kernel

example : computeRank [true, true, false, true, true] = 2 := by decide
end Verif
