import Verif.Lemmas.QFinderFit
/-! Properties C37, C38, C39, C35 and C60 for QFinder. -/
namespace Verif
open Spec QFinder BSD
open IDSD (mem_new new_len new_sels_eq sublist_ext covBits)

/-! ## C37 -/

/-- C37, QFinder: the rank is the greatest number `r` of a criterion that holds while all criteria before it, the fourth excepted, hold. -/
theorem C37_qfinder_rank (l : List Bool) : IsRank l (rank l) := rank_spec l

/-- C37, QFinder: more criteria met never give a lower rank. -/
theorem C37_qfinder_rank_monotone (l m : List Bool) (h : ∀ i : Nat, l[i]? = some true → m[i]? = some true) : rank l ≤ rank m := by
  obtain ⟨h1, _⟩ := rank_spec l
  obtain ⟨_, h2⟩ := rank_spec m
  rcases h1 with h1 | ⟨a, b, c⟩
  · omega
  · exact h2 _ ⟨a, h _ b, fun i hi h3 => h i (c i hi h3)⟩

/-- C37, QFinder: the rank of a pattern is that of its coverage, odds ratio, p-value, contributions and adjusted p-value against the thresholds. -/
theorem C37_qfinder_rank_of (cfg : QFConfig) (c : QFCred) : rank (criteria cfg c) = qfRank cfg c := rank_eq cfg c

example : rank [true, true, true, false, true, true] = 6 := by decide
example : rank [true, true, true, false, false, true] = 3 := by decide
example : rank [true, true, false, true, true, true] = 2 := by decide

section
open Classical
variable {cfg : QFConfig} {df : Frame} {target : Str × Str}

/-! ## C39 -/

theorem pyUnique_dedup (col : List Val) : (pyUnique col).length = col.dedup.length :=
  ((List.perm_ext_iff_of_nodup (nodup_pyUnique col) (List.nodup_dedup col)).2 (fun v => by rw [mem_pyUnique, List.mem_dedup])).length_eq

theorem keptVals_spec (cats : Int) (col : List Val) : QFKept cats col (keptVals ties cats col) := by
  unfold QFKept
  simp only
  rw [← pyUnique_dedup]
  by_cases h : ((pyUnique col).length : Int) ≤ cats ∨ cats = -1
  · rw [if_pos h]; exact kept_all h
  · rw [if_neg h]
    unfold keptVals
    rw [if_neg h]
    obtain ⟨h1, h2, h3, h4⟩ := nlargest_spec (cats - 1).toNat col
    exact ⟨h1, by rw [h3]; omega, h2, h4⟩

theorem otherCols_length (hf : NominalFrame df target) : (otherCols df target.1).length = df.cols.length - 1 := by
  obtain ⟨c, hc, hca⟩ := List.mem_map.1 hf.target
  have h1 := List.length_eq_length_filter_add (l := df.cols) (fun c => decide (c.1 ≠ target.1))
  have h2 : (df.cols.filter (fun c => !decide (c.1 ≠ target.1))).length = 1 := by
    have : (df.cols.filter (fun c => !decide (c.1 ≠ target.1))).Perm [c] := by
      refine (List.perm_ext_iff_of_nodup ((List.Nodup.of_map _ hf.names).filter _) (by simp)).2 (fun d => ?_)
      rw [List.mem_filter, List.mem_singleton]
      simp only [ne_eq, decide_not, Bool.not_not, decide_eq_true_eq]
      exact ⟨fun h => List.inj_on_of_nodup_map hf.names h.1 hc (h.2.trans hca.symm), fun h => by rw [h]; exact ⟨hc, hca⟩⟩
    exact this.length_eq
  have h3 : (otherCols df target.1) = df.cols.filter (fun c => decide (c.1 ≠ target.1)) := by
    unfold otherCols
    apply List.filter_congr
    intro c _
    simp
  rw [h3]
  omega

theorem maxLen_eq (hf : NominalFrame df target) : maxLen cfg df target.1 = qfMaxSelectors cfg df := by
  unfold maxLen qfMaxSelectors
  rw [otherCols_length hf]
  split <;> simp

/-- the candidates that occur in the data -/
theorem mem_reported (hf : NominalFrame df target) (p : Pattern) : p ∈ occurring df (candidates cfg df target.1) ↔
    ∃ X, p = Pattern.new X ∧ Describes target X ∧ OccursIn df X ∧ p.len ≤ qfMaxSelectors cfg df ∧
      ∀ s ∈ X, ∀ c ∈ df.cols, c.1 = s.attr → s.val ∈ keptVals cfg.ties cfg.cats c.2 := by
  rw [mem_occurring, candidates_eq hf, List.mem_map]
  constructor
  · rintro ⟨⟨X, hX, rfl⟩, ho⟩
    have hs := candSets_sel hf hX
    have ht : ∀ s ∈ X, TextEq s := fun s h => (hs s h).1.2
    obtain ⟨c1, c2, c3, c4⟩ := (mem_candSets cfg X).1 hX
    have hoX : OccursIn df X := occursIn_mono (fun s h => (mem_new ht s).2 h) ho
    refine ⟨X, rfl, ⟨c1, fun s h => (hs s h).1⟩, hoX, ?_, ?_⟩
    · rw [new_len ht (c2.nodup (simples_nodup hf cfg.cats)), ← maxLen_eq hf]
      exact c4
    · intro s h c hc hcs
      obtain ⟨d, hd, hdt, v, hv, rfl⟩ := (simples_occurs hf cfg.cats s).1 ⟨c2.subset h, occursIn_mono (by intro t h'; rw [List.mem_singleton.1 h']; exact h) hoX⟩
      have : c = d := List.inj_on_of_nodup_map hf.names hc hd hcs
      rw [this]
      exact hv
  · rintro ⟨X, rfl, hX, ho, hl, hk⟩
    have tX : ∀ s ∈ X, TextEq s := fun s hs => (hX.2 s hs).2
    have hmem : ∀ s ∈ X, s ∈ simples cfg.ties cfg.cats df target.1 := by
      intro s hs
      obtain ⟨h1, h2, x, h3⟩ := hX.2 s hs
      have ho1 : OccursIn df [s] := occursIn_mono (by intro t h'; rw [List.mem_singleton.1 h']; exact hs) ho
      have hcol : ∃ c ∈ df.cols, c.1 = s.attr := by
        obtain ⟨i, _, hi⟩ := ho1
        have hm := hi s (by simp)
        obtain ⟨a, o, v⟩ := s
        simp only at h2 h3
        subst h2 h3
        obtain ⟨c, hc, h, _⟩ := (matchesAt_iff hf _ _ i).1 hm
        exact ⟨c, hc, h⟩
      obtain ⟨c, hc, hca⟩ := hcol
      have := (simples_occurs hf cfg.cats s).2 ⟨c, hc, by rw [hca]; exact h1, s.val, hk s hs c hc hca, by
        obtain ⟨a, o, v⟩ := s
        simp only at h2 hca ⊢
        rw [h2, hca]⟩
      exact this.1
    set Z := (simples cfg.ties cfg.cats df target.1).filter (fun s => decide (s ∈ X)) with hZ
    have hsub : Z.Sublist (simples cfg.ties cfg.cats df target.1) := List.filter_sublist
    have hz : ∀ s, s ∈ Z ↔ s ∈ X := by
      intro s
      rw [hZ, List.mem_filter, decide_eq_true_iff]
      exact ⟨fun h => h.2, fun h => ⟨hmem s h, h⟩⟩
    have tZ : ∀ s ∈ Z, TextEq s := fun s hs => tX s ((hz s).1 hs)
    have he : Pattern.new Z = Pattern.new X := new_sels_eq tX (new_text tZ).1 (fun s => by rw [mem_new tZ, hz])
    have hnz : Z.Nodup := hsub.nodup (simples_nodup hf cfg.cats)
    refine ⟨⟨Z, (mem_candSets cfg Z).2 ⟨?_, hsub, ?_, ?_⟩, he⟩, occursIn_mono (fun s h => (mem_new tX s).1 h) ho⟩
    · obtain ⟨s, hs⟩ := List.exists_mem_of_ne_nil _ hX.1
      exact List.ne_nil_of_mem ((hz s).2 hs)
    · obtain ⟨i, _, hi⟩ := ho
      refine List.Nodup.map_on (fun s hs t ht hst => ?_) hnz
      obtain ⟨_, s2, x, s3⟩ := hX.2 s ((hz s).1 hs)
      obtain ⟨_, t2, y, t3⟩ := hX.2 t ((hz t).1 ht)
      have hc1 := hi s ((hz s).1 hs)
      have hc2 := hi t ((hz t).1 ht)
      obtain ⟨a, o, v⟩ := s
      obtain ⟨a', o', v'⟩ := t
      simp only at s2 s3 t2 t3 hst
      subst s2 s3 t2 t3 hst
      obtain ⟨c, hc, h1, h2⟩ := (matchesAt_iff hf _ _ i).1 hc1
      obtain ⟨d, hd, h3, h4⟩ := (matchesAt_iff hf _ _ i).1 hc2
      have : c = d := List.inj_on_of_nodup_map hf.names hc hd (h1.trans h3.symm)
      subst this
      rw [h2] at h4
      simp only [Option.some.injEq] at h4
      rw [h4]
    · rw [← new_len tZ hnz, he, maxLen_eq hf]; exact hl

theorem fit_cands (hf : NominalFrame df target) (hs : SafeTexts df target) {st st' : QFState} (h : fit cfg st df target = .ok st') :
    st'.cands = occurring df (candidates cfg df target.1) ∧
    st'.table = st'.cands.map (fun p => (p.str, (qfEntryOf cfg df target st'.cands.length p).cred)) ∧
    selectTopK cfg (rankPatterns cfg (st'.cands.map (qfEntryOf cfg df target st'.cands.length))) = .ok st'.top := by
  rw [fit_eq hf hs] at h
  split at h
  · cases h
  · rename_i top ht
    cases h
    exact ⟨rfl, rfl, ht⟩

/-- C39, QFinder: the patterns that are ranked are all different, and they are exactly the descriptions that occur in the data, with at most `max_complexity` selectors, all of them
on the kept values: all the values of the attribute when they are at most `cats`, otherwise its `cats - 1` most frequent ones. -/
theorem C39_qfinder (hf : NominalFrame df target) (hs : SafeTexts df target) {st st' : QFState} (h : fit cfg st df target = .ok st') :
    st'.cands.Nodup ∧ ∃ K : Str → List Val, (∀ c ∈ df.cols, c.1 ≠ target.1 → QFKept cfg.cats c.2 (K c.1)) ∧
      ∀ p, p ∈ st'.cands ↔ ∃ X, p = Pattern.new X ∧ Describes target X ∧ OccursIn df X ∧ p.len ≤ qfMaxSelectors cfg df ∧ ∀ s ∈ X, s.val ∈ K s.attr := by
  obtain ⟨h1, _, _⟩ := fit_cands hf hs h
  rw [h1]
  refine ⟨(candidates_nodup hf).filter _, fun a => match df.cols.lookup a with | some col => keptVals cfg.ties cfg.cats col | none => [], ?_, ?_⟩
  · intro c hc _
    simp only
    rw [lookup_of_mem_nodup hf.names hc]
    exact keptVals_spec _ _
  · intro p
    rw [mem_reported hf]
    constructor
    · rintro ⟨X, rfl, hX, ho, hl, hk⟩
      refine ⟨X, rfl, hX, ho, hl, fun s hs' => ?_⟩
      obtain ⟨i, _, hi⟩ := ho
      obtain ⟨col, v, h1, _⟩ := hi s hs'
      simp only
      rw [h1]
      exact hk s hs' (s.attr, col) (mem_of_lookup h1) rfl
    · rintro ⟨X, rfl, hX, ho, hl, hk⟩
      refine ⟨X, rfl, hX, ho, hl, fun s hs' c hc hcs => ?_⟩
      have := hk s hs'
      simp only at this
      rw [← hcs, lookup_of_mem_nodup hf.names hc] at this
      exact this

/-! ## C38 -/

theorem ranked_good (hf : NominalFrame df target) (hp : ∀ X, Describes target X → OccursIn df X → glmPOf cfg df target X ≠ .nan) :
    Good (rankPatterns cfg ((occurring df (candidates cfg df target.1)).map (qfEntryOf cfg df target (occurring df (candidates cfg df target.1)).length))) ∧
    (rankPatterns cfg ((occurring df (candidates cfg df target.1)).map (qfEntryOf cfg df target (occurring df (candidates cfg df target.1)).length))).Pairwise (RankBefore cfg) := by
  set Q := occurring df (candidates cfg df target.1) with hQ
  have hpat : ∀ e ∈ Q.map (qfEntryOf cfg df target Q.length), e.pat ∈ Q := by
    intro e he
    obtain ⟨p, hp, rfl⟩ := List.mem_map.1 he
    exact hp
  have hpv : ∀ e ∈ Q.map (qfEntryOf cfg df target Q.length), e.cred.pval ≠ .nan := by
    intro e he
    obtain ⟨p, hp', rfl⟩ := List.mem_map.1 he
    rw [hQ, mem_occurring] at hp'
    exact hp p.sels (inCols_describes (candidates_cols hf hp'.1)) hp'.2
  have hperm := rankPatterns_perm cfg (Q.map (qfEntryOf cfg df target Q.length))
  have hc : ∀ p ∈ Q, (∀ s ∈ p.sels, TextEq s) ∧ Pattern.Sorted p.sels := by
    intro p hp'
    rw [hQ, mem_occurring] at hp'
    have h := candidates_cols hf hp'.1
    have h1 := hp'.1
    rw [candidates_eq hf] at h1
    obtain ⟨X, hX, rfl⟩ := List.mem_map.1 h1
    exact ⟨fun s hs => (h.2 s hs).1.2, (new_text (fun s hs => (candSets_sel hf hX s hs).1.2)).1⟩
  refine ⟨⟨?_, ?_, ?_, ?_⟩, rankPatterns_sorted cfg hpv⟩
  · rw [(hperm.map (·.pat)).nodup_iff, List.map_map]
    have : ((fun e : QFEntry => e.pat) ∘ qfEntryOf cfg df target Q.length) = id := rfl
    rw [this, List.map_id]
    exact (candidates_nodup hf).filter _
  · exact fun e he => (hc _ (hpat e (hperm.mem_iff.1 he))).2
  · exact fun e he => (hc _ (hpat e (hperm.mem_iff.1 he))).1
  · exact fun e he => hpv e (hperm.mem_iff.1 he)

/-- C38: with at least one subgroup asked for and p-values that are numbers, `fit` ends without error, whatever the object has done before. Let `E` be the candidates that occur in the
data, with their credibility values. The result has at most `num_subgroups` elements of `E`, all different, in the order of `QFBefore`; when one generalises another, the odds ratio of the
refinement exceeds its own by more than `delta`; for every element of `E` that is not in the result there is a reason of `AbsenceReason`; and when a reported pattern should have been
replaced by a reported refinement, there is the reason of `StayReason`. -/
theorem C38_selection (hf : NominalFrame df target) (hs : SafeTexts df target) (hnum : 1 ≤ cfg.num)
    (hp : ∀ X, Describes target X → OccursIn df X → glmPOf cfg df target X ≠ .nan) (st : QFState) :
    ∃ st', fit cfg st df target = .ok st' ∧
      (st'.top.length : Int) ≤ cfg.num ∧ (st'.top.map (·.pat)).Nodup ∧
      (∀ e ∈ st'.top, e.pat ∈ st'.cands ∧ e = qfEntryOf cfg df target st'.cands.length e.pat) ∧
      st'.top.Pairwise (QFBefore cfg) ∧
      (∀ a ∈ st'.top, ∀ b ∈ st'.top, Generalises a b → Exceeds cfg b a) ∧
      (∀ p ∈ st'.cands, p ∈ st'.top.map (·.pat) ∨
        AbsenceReason cfg (st'.cands.map (qfEntryOf cfg df target st'.cands.length)) (qfEntryOf cfg df target st'.cands.length p)) ∧
      ∀ a ∈ st'.top, ∀ b ∈ st'.top, Generalises a b → (a.cred.odds.addFin cfg.delta).lt b.cred.odds = true → b.cred.pval.lt a.cred.pval = true →
        StayReason cfg (st'.cands.map (qfEntryOf cfg df target st'.cands.length)) st'.top b a := by
  obtain ⟨hg, hr⟩ := ranked_good (cfg := cfg) hf hp
  have hfit := fit_eq (cfg := cfg) hf hs st
  set Q := occurring df (candidates cfg df target.1) with hQ
  have hperm := rankPatterns_perm cfg (Q.map (qfEntryOf cfg df target Q.length))
  obtain ⟨top, h1, h2, h3, h4, h5, h6, h7, h8⟩ := selectTopK_spec (cfg := cfg) hg hnum hr
  rw [h1] at hfit
  simp only at hfit
  have hE : ∀ e, e ∈ rankPatterns cfg (Q.map (qfEntryOf cfg df target Q.length)) ↔ e ∈ Q.map (qfEntryOf cfg df target Q.length) := fun e => hperm.mem_iff
  refine ⟨_, hfit, h2, ?_, ?_, h5, h6, ?_, ?_⟩
  · exact List.Nodup.map_on (fun a ha b hb hab => hg.eq_of_pat (h3 a ha) (h3 b hb) hab) h4
  · intro e he
    obtain ⟨p, hp', rfl⟩ := List.mem_map.1 (hperm.mem_iff.1 (h3 e he))
    exact ⟨hp', rfl⟩
  · intro p hp'
    rcases h7 (qfEntryOf cfg df target Q.length p) (hperm.mem_iff.2 (List.mem_map_of_mem hp')) with h | h
    · exact .inl (List.mem_map.2 ⟨_, h, rfl⟩)
    · refine .inr ?_
      unfold AbsenceReason at h ⊢
      simp only [hE] at h
      exact h
  · intro a ha b hb g1 g2 g3
    have h := h8 a ha b hb g1 g2 g3
    unfold StayReason at h ⊢
    simp only [hE] at h
    exact h

theorem fit_of_select (hf : NominalFrame df target) (hs : SafeTexts df target) (st : QFState) {e : PyErr}
    (h : ∀ E, E ≠ [] → selectTopK cfg E = .error e) (hx : occurring df (candidates cfg df target.1) ≠ []) : fit cfg st df target = .error e := by
  rw [fit_eq hf hs]
  set Q := occurring df (candidates cfg df target.1) with hQ
  have hperm := rankPatterns_perm cfg (Q.map (qfEntryOf cfg df target Q.length))
  rw [h _ (fun h0 => hx (by rw [h0] at hperm; simpa using hperm.symm.eq_nil))]

/-- C38: with `num_subgroups = 0`, `fit` fails with a `ValueError` as soon as there is an attribute, other than the target, with a row (and `cats` is -1 or at least 2). -/
theorem C38_zero (hf : NominalFrame df target) (hs : SafeTexts df target) (hnum : cfg.num = 0) (hcats : cfg.cats = -1 ∨ 2 ≤ cfg.cats)
    (hx : ∃ c ∈ df.cols, c.1 ≠ target.1 ∧ c.2 ≠ []) (st : QFState) : fit cfg st df target = .error .valueError := by
  apply fit_of_select hf hs
  · intro E hE
    obtain ⟨_, h2⟩ := lengths_spec E
    unfold selectTopK
    generalize hns : stableSort (fun a b : Nat => decide (a ≤ b)) (E.map (·.pat.len)).dedup = ns at h2
    cases ns with
    | nil =>
      obtain ⟨e, he⟩ := List.exists_mem_of_ne_nil _ hE
      exact absurd ((h2 e.pat.len).2 ⟨e, he, rfl⟩) (by simp)
    | cons n ns =>
      obtain ⟨e, he, hen⟩ := (h2 n).1 (by simp)
      have hfil : e ∈ E.filter (fun e => decide (e.pat.len = n)) := by rw [List.mem_filter]; exact ⟨he, by simpa using hen⟩
      rw [lengthsLoop]
      cases hl : E.filter (fun e => decide (e.pat.len = n)) with
      | nil => rw [hl] at hfil; simp at hfil
      | cons a l =>
        rw [lengthLoop, leave, hnum]
        simp
  · obtain ⟨c, hc, hct, hne⟩ := hx
    have hk := keptVals_spec (ties := cfg.ties) cfg.cats c.2
    have hv : ∃ v, v ∈ keptVals cfg.ties cfg.cats c.2 := by
      unfold QFKept at hk
      simp only at hk
      split at hk
      · obtain ⟨v, hv⟩ := List.exists_mem_of_ne_nil _ hne
        exact ⟨v, (hk v).2 hv⟩
      · rename_i hn
        obtain ⟨_, hl, _⟩ := hk
        have : 0 < (keptVals cfg.ties cfg.cats c.2).length := by rw [hl]; omega
        exact List.exists_mem_of_length_pos this
    obtain ⟨v, hv⟩ := hv
    have hvc := keptVals_sub _ _ v hv
    obtain ⟨x, rfl⟩ := hf.texts c hc v hvc
    have hX : Describes target [⟨c.1, .equal, .str x⟩] := ⟨by simp, fun s hs => by rw [List.mem_singleton.1 hs]; exact ⟨hct, rfl, x, rfl⟩⟩
    apply List.ne_nil_of_mem ((mem_reported hf (Pattern.new [⟨c.1, .equal, .str x⟩])).2 ⟨[⟨c.1, .equal, .str x⟩], rfl, hX, (occurs_single hf hc x).2 hvc, ?_, ?_⟩)
    · rw [new_len (fun s hs => (hX.2 s hs).2) (by simp)]
      simp [qfMaxSelectors]
    · intro s hs d hd hds
      rw [List.mem_singleton] at hs
      subst hs
      have : d = c := List.inj_on_of_nodup_map hf.names hd hc hds
      rw [this]
      exact hv

/-- C38: with `num_subgroups < 0`, `fit` reports nothing. -/
theorem C38_negative (hf : NominalFrame df target) (hs : SafeTexts df target) (hnum : cfg.num < 0) (st : QFState) :
    ∃ st', fit cfg st df target = .ok st' ∧ st'.top = [] := by
  have h1 : ∀ l : List QFEntry, lengthLoop cfg l [] = .ok [] := by
    intro l
    induction l with
    | nil => rfl
    | cons e l ih =>
      have hle : leave cfg.num [] e = .ok false := by
        unfold leave
        rw [if_neg (by simp; omega)]
      have hc : consider cfg [] e = [] := by
        unfold consider
        have hr : rejected cfg [] e = false := rfl
        have hl : removeLoop (replaces cfg e) [] = [] := rfl
        rw [hr, hl]
        simp only [Bool.false_eq_true, if_false, List.nil_append, List.length_singleton]
        rw [if_pos (by omega)]
        simp [dropMax, firstMax]
      rw [lengthLoop, hle, hc]
      exact ih
  have h2 : ∀ (E : List QFEntry) (ns : List Nat), lengthsLoop cfg E ns [] = .ok [] := by
    intro E ns
    induction ns with
    | nil => rfl
    | cons n ns ih => rw [lengthsLoop, h1]; exact ih
  rw [fit_eq hf hs]
  unfold selectTopK
  rw [h2]
  exact ⟨_, rfl, rfl⟩

/-- C38: `unselected_subgroups` is the number of the candidates that occur in the data and are not reported. -/
theorem C38_unselected (hf : NominalFrame df target) (hs : SafeTexts df target) (hnum : 1 ≤ cfg.num)
    (hp : ∀ X, Describes target X → OccursIn df X → glmPOf cfg df target X ≠ .nan) {st st' : QFState} (h : fit cfg st df target = .ok st') :
    getUnselected st' = ((st'.cands.filter (fun p => decide (p ∉ st'.top.map (·.pat)))).length : Int) := by
  obtain ⟨st1, h1, _, h3, h4, _⟩ := C38_selection hf hs hnum hp st
  rw [h] at h1
  cases h1
  obtain ⟨hc, _, _⟩ := fit_cands hf hs h
  have hn : st'.cands.Nodup := by rw [hc]; exact (candidates_nodup hf).filter _
  have hl := List.length_eq_length_filter_add (l := st'.cands) (fun p => decide (p ∈ st'.top.map (·.pat)))
  have hp' : (st'.cands.filter (fun p => decide (p ∈ st'.top.map (·.pat)))).Perm (st'.top.map (·.pat)) := by
    refine (List.perm_ext_iff_of_nodup (hn.filter _) h3).2 (fun p => ?_)
    rw [List.mem_filter, decide_eq_true_eq]
    refine ⟨fun h => h.2, fun h => ⟨?_, h⟩⟩
    obtain ⟨e, he, rfl⟩ := List.mem_map.1 h
    exact (h4 e he).1
  rw [hp'.length_eq, List.length_map] at hl
  have e : (fun p => !decide (p ∈ st'.top.map (·.pat))) = fun p => decide (p ∉ st'.top.map (·.pat)) := by
    funext p; rw [Bool.eq_iff_iff]; simp
  rw [e] at hl
  unfold getUnselected
  omega

/-! ## C60 -/

theorem fileLines_eq {Q : List Pattern} (hQ : Q.Nodup) (hr : ∀ p ∈ Q, Readable p) (f : Pattern → QFCred) (l : List Pattern) (hl : ∀ p ∈ l, Readable p) :
    fileLines (Q.map (fun p => (p.str, f p))) l = if ∀ p ∈ l, p ∈ Q then .ok (l.map (fun p => (p.str, f p))) else .error .keyError := by
  induction l with
  | nil => simp [fileLines]
  | cons p l ih =>
    rw [fileLines]
    by_cases hp : p ∈ Q
    · rw [lookup_str hQ hr f hp, ih (fun q hq => hl q (by simp [hq]))]
      by_cases hall : ∀ q ∈ l, q ∈ Q
      · rw [if_pos hall, if_pos (by intro q hq; rcases List.mem_cons.1 hq with rfl | hq; exacts [hp, hall q hq])]
        rfl
      · rw [if_neg hall, if_neg (fun h => hall (fun q hq => h q (by simp [hq])))]
    · rw [lookup_str_none hr f (hl p (by simp)) hp, if_neg (fun h => hp (h p (by simp)))]

variable {df2 : Frame}

theorem occurring_nodup {P : List Pattern} (h : P.Nodup) : (occurring df P).Nodup := h.filter _

/-- `test_subgroups`, exactly -/
theorem testSubgroups_eq (hf2 : NominalFrame df2 target) {st : QFState} (hd : (st.top.map (·.pat)).Nodup) (hr : ∀ p ∈ st.top.map (·.pat), Readable p)
    (hc : ∀ p ∈ st.top.map (·.pat), p.sels ≠ [] ∧ ∀ s ∈ p.sels, InCols df2 target s) :
    testSubgroups cfg st df2 target =
      if ∀ p ∈ occurring df2 (st.top.map (·.pat)), 2 ≤ p.len → ∀ s ∈ p.sels, p.copy.remove s ∈ occurring df2 (st.top.map (·.pat)) then
        .ok ((occurring df2 (st.top.map (·.pat))).map (fun p => (p.str, (qfEntryOf cfg df2 target (occurring df2 (st.top.map (·.pat))).length p).cred)))
      else .error .keyError := by
  set T := occurring df2 (st.top.map (·.pat)) with hT
  have hTn : T.Nodup := occurring_nodup hd
  have hTr : ∀ p ∈ T, Readable p := fun p hp => hr p (mem_occurring.1 hp).1
  have hb := bitsetLoop_eq hf2 (st.top.map (·.pat)) [] hc (by rw [List.map_nil, List.nil_append]; exact strs_nodup hTn hTr)
  rw [List.nil_append] at hb
  unfold testSubgroups
  rw [targetMask_eq hf2, hb]
  simp only
  have e : List.map (fun p => (p.str, covBits df2 p.sels)) (occurring df2 (st.top.map (·.pat))) = cols df2 T := rfl
  rw [e]
  by_cases h : ∀ p ∈ T, 2 ≤ p.len → ∀ s ∈ p.sels, p.copy.remove s ∈ T
  · rw [if_pos h, credTable_ok cfg hTn hTr h]
  · rw [if_neg h]
    push Not at h
    exact credTable_error cfg hTn hTr h

theorem top_facts (hf : NominalFrame df target) (hs : SafeTexts df target) (hnum : 1 ≤ cfg.num)
    (hp : ∀ X, Describes target X → OccursIn df X → glmPOf cfg df target X ≠ .nan) {st st' : QFState} (h : fit cfg st df target = .ok st') :
    (st'.top.map (·.pat)).Nodup ∧ ∀ p ∈ st'.top.map (·.pat), Readable p ∧ p.sels ≠ [] ∧ (∀ s ∈ p.sels, InCols df target s) ∧ p ∈ st'.cands := by
  obtain ⟨st1, h1, _, h3, h4, _⟩ := C38_selection hf hs hnum hp st
  rw [h] at h1
  cases h1
  obtain ⟨hc, _, _⟩ := fit_cands hf hs h
  refine ⟨h3, fun p hp' => ?_⟩
  obtain ⟨e, he, rfl⟩ := List.mem_map.1 hp'
  have h5 := (h4 e he).1
  have h6 := h5
  rw [hc] at h5
  have h7 := candidates_cols hf (mem_occurring.1 h5).1
  exact ⟨occurring_readable hf hs _ h5, h7.1, h7.2, h6⟩

/-- C60: `test_subgroups` on data with (at least) the attributes of the data of `fit`. Let `T` be the reported patterns that occur in the test data. If every pattern of `T` with two or more
selectors has in `T` all the patterns made by removing one of its selectors, the result is the table of the credibility values of the patterns of `T` on the test data; otherwise
it fails with a `KeyError`. -/
theorem C60_test (hf : NominalFrame df target) (hs : SafeTexts df target) (hnum : 1 ≤ cfg.num)
    (hp : ∀ X, Describes target X → OccursIn df X → glmPOf cfg df target X ≠ .nan) {st st' : QFState} (h : fit cfg st df target = .ok st')
    (hf2 : NominalFrame df2 target) (hcols : ∀ a ∈ df.cols.map (·.1), a ∈ df2.cols.map (·.1)) :
    let T := (st'.top.map (·.pat)).filter (fun p => decide (OccursIn df2 p.sels))
    ((∀ p ∈ T, 2 ≤ p.len → ∀ s ∈ p.sels, p.copy.remove s ∈ T) →
      testSubgroups cfg st' df2 target = .ok (T.map (fun p => (p.str, (qfEntryOf cfg df2 target T.length p).cred)))) ∧
    ((∃ p ∈ T, 2 ≤ p.len ∧ ∃ s ∈ p.sels, p.copy.remove s ∉ T) → testSubgroups cfg st' df2 target = .error .keyError) := by
  intro T
  obtain ⟨h1, h2⟩ := top_facts hf hs hnum hp h
  have e := testSubgroups_eq (cfg := cfg) hf2 h1 (fun p hp => (h2 p hp).1) (fun p hp => ⟨(h2 p hp).2.1, fun s hs =>
    ⟨((h2 p hp).2.2.1 s hs).1, hcols _ ((h2 p hp).2.2.1 s hs).2⟩⟩)
  have eT : occurring df2 (st'.top.map (·.pat)) = T := rfl
  rw [eT] at e
  constructor
  · intro hh; rw [e, if_pos hh]
  · rintro ⟨p, hp, h2, s, hs, hn⟩; rw [e, if_neg (fun hh => hn (hh p hp h2 s hs))]

/-- C60: the file of `fit` has one line for each reported pattern, with its credibility values. That of `test_subgroups` too, with the values on the test data, if all the reported
patterns occur in the test data and `test_subgroups` itself does not fail; otherwise writing it fails with a `KeyError`. -/
theorem C60_files (hf : NominalFrame df target) (hs : SafeTexts df target) (hnum : 1 ≤ cfg.num)
    (hp : ∀ X, Describes target X → OccursIn df X → glmPOf cfg df target X ≠ .nan) {st st' : QFState} (h : fit cfg st df target = .ok st')
    (hf2 : NominalFrame df2 target) (hcols : ∀ a ∈ df.cols.map (·.1), a ∈ df2.cols.map (·.1)) :
    fitFile st' = .ok (st'.top.map (fun e => (e.pat.str, e.cred))) ∧
    ((∃ e ∈ st'.top, ¬ OccursIn df2 e.pat.sels) → testFile cfg st' df2 target = .error .keyError) ∧
    ((∀ e ∈ st'.top, OccursIn df2 e.pat.sels) → (∃ t, testSubgroups cfg st' df2 target = .ok t) →
      testFile cfg st' df2 target = .ok (st'.top.map (fun e => (e.pat.str, (qfEntryOf cfg df2 target st'.top.length e.pat).cred)))) := by
  obtain ⟨h1, h2⟩ := top_facts hf hs hnum hp h
  obtain ⟨hc, ht, _⟩ := fit_cands hf hs h
  have hcr : ∀ p ∈ st'.cands, Readable p := by rw [hc]; exact occurring_readable hf hs
  have hcn : st'.cands.Nodup := by rw [hc]; exact (candidates_nodup hf).filter _
  have e2 := testSubgroups_eq (cfg := cfg) hf2 h1 (fun p hp => (h2 p hp).1) (fun p hp => ⟨(h2 p hp).2.1, fun s hs =>
    ⟨((h2 p hp).2.2.1 s hs).1, hcols _ ((h2 p hp).2.2.1 s hs).2⟩⟩)
  refine ⟨?_, ?_, ?_⟩
  · unfold fitFile
    rw [ht, fileLines_eq hcn hcr (fun p => (qfEntryOf cfg df target st'.cands.length p).cred) _ (fun p hp => (h2 p hp).1), if_pos (fun p hp => (h2 p hp).2.2.2)]
    rw [List.map_map]
    congr 1
    apply List.map_congr_left
    intro e he
    obtain ⟨st1, g1, _, _, g4, _⟩ := C38_selection hf hs hnum hp st
    rw [h] at g1
    cases g1
    have := (g4 e he).2
    simp only [Function.comp, Prod.mk.injEq, true_and]
    rw [← this]
  · rintro ⟨e, he, hne⟩
    unfold testFile
    by_cases hh : ∀ p ∈ occurring df2 (st'.top.map (·.pat)), 2 ≤ p.len → ∀ s ∈ p.sels, p.copy.remove s ∈ occurring df2 (st'.top.map (·.pat))
    · rw [if_pos hh] at e2
      rw [e2]
      simp only
      rw [fileLines_eq (occurring_nodup h1) (fun p hp => (h2 p (mem_occurring.1 hp).1).1) (fun p => (qfEntryOf cfg df2 target
        (occurring df2 (st'.top.map (·.pat))).length p).cred) _ (fun p hp => (h2 p hp).1), if_neg]
      intro hall
      exact hne (mem_occurring.1 (hall e.pat (List.mem_map_of_mem he))).2
    · rw [if_neg hh] at e2
      rw [e2]

  · rintro hall ⟨t, ht⟩
    have eT : occurring df2 (st'.top.map (·.pat)) = st'.top.map (·.pat) := by
      unfold occurring
      rw [List.filter_eq_self]
      intro p hp
      obtain ⟨e, he, rfl⟩ := List.mem_map.1 hp
      exact decide_eq_true (hall e he)
    rw [eT] at e2
    unfold testFile
    by_cases hh : ∀ p ∈ st'.top.map (·.pat), 2 ≤ p.len → ∀ s ∈ p.sels, p.copy.remove s ∈ st'.top.map (·.pat)
    · rw [if_pos hh] at e2
      rw [e2]
      simp only
      rw [fileLines_eq h1 (fun p hp => (h2 p hp).1) (fun p => (qfEntryOf cfg df2 target (st'.top.map (·.pat)).length p).cred) _ (fun p hp => (h2 p hp).1),
        if_pos (fun p hp => hp), List.map_map, List.length_map]
      rfl
    · rw [if_neg hh] at e2
      rw [e2] at ht
      cases ht

/-- the texts of the data frame can be checked cell by cell -/
theorem safeTexts_of (hf : NominalFrame df target) (h : ∀ c ∈ df.cols, ∀ v ∈ c.2, ' ' ∉ c.1 ∧ ¬ (c!", " <:+: (⟨c.1, .equal, v⟩ : Selector).str)) : SafeTexts df target := by
  intro s hs ho
  obtain ⟨_, h2, x, h3⟩ := hs.2 s (by simp)
  obtain ⟨i, _, hi⟩ := ho
  have hm := hi s (by simp)
  obtain ⟨a, o, v⟩ := s
  simp only at h2 h3
  subst h2 h3
  obtain ⟨c, hc, rfl, hv⟩ := (matchesAt_iff hf _ _ i).1 hm
  obtain ⟨h4, h5⟩ := h c hc _ (List.mem_of_getElem? hv)
  exact ⟨h4, fun ⟨p, q, hpq⟩ => h5 ⟨p, q, hpq.symm⟩⟩

end

/-! ## witnesses -/

namespace QFinderWitness

def dfA : Frame :=
  ⟨5, [(c!"a", [.str c!"x", .str c!"x", .str c!"w", .str c!"w", .str c!"w"]), (c!"b", [.str c!"y", .str c!"z", .str c!"y", .str c!"z", .str c!"z"]),
    (c!"t", [.str c!"1", .str c!"1", .str c!"0", .str c!"0", .str c!"1"])]⟩
def tA : Str × Str := (c!"t", c!"1")
/-- the fewer rows, the greater the odds ratio and the lower the p-value -/
def cfgA : QFConfig := ⟨10, -1, -1, 0, 0, 1, 0, 5, 1/2, fun a _ => .fin (6 - (a.ones : Rat)), fun a _ => .fin ((a.ones : Rat) / 10), .first⟩
def sx : Selector := ⟨c!"a", .equal, .str c!"x"⟩
def sw : Selector := ⟨c!"a", .equal, .str c!"w"⟩
def sy : Selector := ⟨c!"b", .equal, .str c!"y"⟩
def sz : Selector := ⟨c!"b", .equal, .str c!"z"⟩

/-- the descriptions of the result -/
def shown (r : Except PyErr QFState) : List (List Selector) :=
  match r with
  | .ok st => st.top.map (·.pat.sels)
  | .error _ => []

theorem nominalA : NominalFrame dfA tA := by
  refine ⟨by unfold WF; decide, by decide, ?_, by decide⟩
  intro c hc v hv
  have h : dfA.nominal = true := by decide
  simp only [Frame.nominal, List.all_eq_true] at h
  have := h c hc v hv
  cases v <;> simp_all [Val.isStr]

theorem safeA : SafeTexts dfA tA := safeTexts_of nominalA (by decide +kernel)

theorem pvalA : ∀ X, Describes tA X → OccursIn dfA X → glmPOf cfgA dfA tA X ≠ .nan := by intro X _ _ h; cases h

def dfB : Frame :=
  ⟨4, [(c!"a", [.str c!"w", .str c!"x", .str c!"w", .str c!"x"]), (c!"b", [.str c!"y", .str c!"y", .str c!"z", .str c!"z"]),
    (c!"t", [.str c!"0", .str c!"1", .str c!"0", .str c!"0"])]⟩
/-- only the second row is special -/
def cfgB : QFConfig := ⟨10, -1, -1, 0, 0, 1, 0, 5, 1/2, fun a _ => if a = [false, true, false, false] then .fin 10 else .fin 1,
  fun a _ => if a = [false, true, false, false] then .fin (1/100) else .fin (1/2), .first⟩

theorem nominalB : NominalFrame dfB tA := by
  refine ⟨by unfold WF; decide, by decide, ?_, by decide⟩
  intro c hc v hv
  have h : dfB.nominal = true := by decide
  simp only [Frame.nominal, List.all_eq_true] at h
  have := h c hc v hv
  cases v <;> simp_all [Val.isStr]

theorem safeB : SafeTexts dfB tA := safeTexts_of nominalB (by decide +kernel)

theorem pvalB : ∀ X, Describes tA X → OccursIn dfB X → glmPOf cfgB dfB tA X ≠ .nan := by
  intro X _ _ h
  unfold glmPOf cfgB at h
  simp only at h
  split at h <;> cases h

/-- is there a pair of reported patterns such that the second refines the first, exceeds its odds ratio and has a lower p-value? -/
def skipped (cfg : QFConfig) (r : Except PyErr QFState) : Bool :=
  match r with
  | .ok st => st.top.any (fun a => st.top.any (fun b => decide (a.pat.len < b.pat.len) && a.pat.sels.all (fun s => decide (s ∈ b.pat.sels)) &&
      (a.cred.odds.addFin cfg.delta).lt b.cred.odds && b.cred.pval.lt a.cred.pval))
  | .error _ => false

end QFinderWitness
open QFinderWitness


/-- C38 does not hold with "a refinement with a greater odds ratio and a lower p-value replaces the reported pattern": the list is changed while it is
iterated over, so that the pattern after a replaced one is not looked at. -/
theorem C38_replace_fails : ∃ (cfg : QFConfig) (df : Frame) (target : Str × Str) (st' : QFState),
    NominalFrame df target ∧ SafeTexts df target ∧ 1 ≤ cfg.num ∧ (∀ X, Describes target X → OccursIn df X → glmPOf cfg df target X ≠ .nan) ∧
    fit cfg .init df target = .ok st' ∧
    ∃ a ∈ st'.top, ∃ b ∈ st'.top, Generalises a b ∧ (a.cred.odds.addFin cfg.delta).lt b.cred.odds = true ∧ b.cred.pval.lt a.cred.pval = true := by
  obtain ⟨st', h1, _⟩ := C38_selection nominalB safeB (cfg := cfgB) (by decide) pvalB .init
  refine ⟨cfgB, dfB, tA, st', nominalB, safeB, by decide, pvalB, h1, ?_⟩
  have h2 : skipped cfgB (fit cfgB .init dfB tA) = true := by decide +kernel
  rw [h1] at h2
  simp only [skipped, List.any_eq_true, Bool.and_eq_true, List.all_eq_true, decide_eq_true_eq] at h2
  obtain ⟨a, ha, b, hb, ⟨⟨h3, h4⟩, h5⟩, h6⟩ := h2
  exact ⟨a, ha, b, hb, ⟨h3, h4⟩, h5, h6⟩

/-- C60: `test_subgroups` can fail with a `KeyError` on the very data of `fit`. -/
theorem C60_same_data_fails : ∃ (cfg : QFConfig) (df : Frame) (target : Str × Str) (st' : QFState),
    NominalFrame df target ∧ SafeTexts df target ∧ 1 ≤ cfg.num ∧ (∀ X, Describes target X → OccursIn df X → glmPOf cfg df target X ≠ .nan) ∧
    fit cfg .init df target = .ok st' ∧ testSubgroups cfg st' df target = .error .keyError := by
  obtain ⟨st', h1, _⟩ := C38_selection nominalA safeA (cfg := cfgA) (by decide) pvalA .init
  refine ⟨cfgA, dfA, tA, st', nominalA, safeA, by decide, pvalA, h1, ?_⟩
  have h2 : (match fit cfgA .init dfA tA with
      | .ok st => (match testSubgroups cfgA st dfA tA with | .error e => decide (e = .keyError) | .ok _ => false)
      | .error _ => false) = true := by decide +kernel
  rw [h1] at h2
  simp only at h2
  split at h2
  · rename_i e he
    rw [he, of_decide_eq_true h2]
  · simp at h2

/-- the reported patterns: each pair replaces the patterns of one selector -/
example : shown (fit cfgA .init dfA tA) = [[sx, sy], [sx, sz], [sw, sy], [sw, sz]] := by decide +kernel
/-- with a greater `delta` the patterns of two selectors are redundant, and `test_subgroups` works -/
example : shown (fit { cfgA with delta := 4 } .init dfA tA) = [[sx], [sy], [sw], [sz]] := by decide +kernel
example : (match fit { cfgA with delta := 4 } .init dfA tA with
    | .ok st => (match testSubgroups { cfgA with delta := 4 } st dfA tA with | .ok t => t.length | .error _ => 0) | .error _ => 0) = 4 := by decide +kernel
/-- with `cats = 1` nothing is reported: both attributes have two values -/
example : shown (fit { cfgA with cats := 1 } .init dfA tA) = [] := by decide +kernel
/-- with `num_subgroups = 1` and `max_complexity = 1`: of two with the lowest p-value, the last one -/
example : shown (fit { cfgA with num := 1, maxC := 1 } .init dfA tA) = [[sy]] := by decide +kernel
example : (match fit { cfgA with num := 0 } .init dfA tA with | .error e => decide (e = .valueError) | .ok _ => false) = true := by decide +kernel

end Verif
