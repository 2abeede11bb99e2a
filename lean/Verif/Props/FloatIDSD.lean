import Verif.Lemmas.FloatIDSD
import Verif.Props.IDSD
import Verif.Props.Contribution
import Verif.Props.FloatSDIGA
/-! Property C109: IDSD with rounding. -/
namespace Verif
open Spec IDSD BSD

section
open Classical
variable {ρ : Rat → Rat} {cfg : IDSDConfig} {df : Frame} {target : Str × Str}

/-! ## roundings -/

/-- C109: the theorems below apply to exact numbers, to floats without limits of the exponent, and to binary64 on up to `2^1074` rows. -/
theorem C109_roundings (n : Nat) (hn : 0 < n) : RoundsFor id n ∧ RoundsFor Float64.fl n ∧ (n ≤ 2 ^ 1074 → RoundsFor Binary64.roundAny n) := by
  have hp : (0 : Rat) < 1 / (n : Rat) := by
    have : (0 : Rat) < n := by exact_mod_cast hn
    positivity
  refine ⟨⟨fun h => h, rfl, hp⟩, ⟨Float64.fl_mono, Float64.fl_zero, Float64.fl_pos hp⟩, fun h => ⟨roundAny_mono, by unfold Binary64.roundAny; simp, ?_⟩⟩
  have h1 : (2 : Rat) ^ (-1074 : Int) ≤ 1 / (n : Rat) := by
    have hn' : (0 : Rat) < n := by exact_mod_cast hn
    have h2 : (n : Rat) ≤ (2 : Rat) ^ (1074 : Nat) := by exact_mod_cast h
    rw [zpow_neg, ← one_div]
    apply one_div_le_one_div_of_le hn'
    exact h2
  have := roundAny_mono h1
  rw [roundAny_tiny] at this
  exact lt_of_lt_of_le (by positivity) this

/-- C109: with exact numbers, `fit` is that of C36. -/
theorem C109_exact (cfg : IDSDConfig) (st : IDSDState) (df : Frame) (target : Str × Str) : IDSDRounded.fit id cfg st df target = IDSD.fit cfg st df target := by
  have h1 : ∀ tp fp TP FP : Nat, IDSDRounded.coverage id tp fp TP FP = Quality.coverage [(kTp, (tp : Rat)), (kFp, (fp : Rat)), (kTP, (TP : Rat)), (kFP, (FP : Rat))] := by
    intro tp fp TP FP
    unfold IDSDRounded.coverage
    cases Quality.coverage [(kTp, (tp : Rat)), (kFp, (fp : Rat)), (kTP, (TP : Rat)), (kFP, (FP : Rat))] <;> rfl
  have h2 : ∀ tp fp TP FP : Nat, IDSDRounded.ofCounts id tp fp TP FP = OddsRatioStatistic.ofCounts tp fp TP FP := by
    intro tp fp TP FP
    unfold IDSDRounded.ofCounts OddsRatioStatistic.ofCounts
    simp only [Nat.cast_inj, Nat.cast_eq_zero, id]
  have h3 : IDSDRounded.ofBits id = OddsRatioStatistic.ofBits := by
    funext a t
    exact h2 _ _ _ _
  have h4 : IDSDRounded.sub id = XF.sub := by
    funext a b
    cases a <;> cases b <;> rfl
  have h5 : IDSDRounded.div id = XF.div := by
    funext a b
    cases a <;> cases b <;> rfl
  have h6 : ∀ (orOf : Pattern → Except PyErr XF) p o l mn mx, SelectorContribution.loop orOf none p o l mn mx = (IDSDRounded.loop id orOf p o l mn mx).map Sum.inr := by
    intro orOf p o l
    induction l with
    | nil => intro mn mx; rfl
    | cons s l ih =>
      intro mn mx
      rw [SelectorContribution.loop, IDSDRounded.loop]
      cases orOf (p.copy.remove s) with
      | error e => rfl
      | ok o' => simp only [h4, Bool.false_eq_true, if_false]; exact ih _ _
  have h7 : ∀ (orOf : Pattern → Except PyErr XF) p, IDSDRounded.compute id orOf p = SelectorContribution.compute orOf none p := by
    intro orOf p
    unfold IDSDRounded.compute SelectorContribution.compute IDSDRounded.ratio SelectorContribution.ratio
    rw [h5]
    split
    · rfl
    · split
      · rfl
      · cases orOf p with
        | error e => rfl
        | ok o =>
          simp only [h6]
          cases IDSDRounded.loop id orOf p o p.sels .inf .ninf with
          | error e => rfl
          | ok r => rfl
  have h8 : IDSDRounded.appearanceOr id = SelectorContribution.appearanceOr := by
    funext a t p
    unfold IDSDRounded.appearanceOr SelectorContribution.appearanceOr
    rw [h3]
    rfl
  have h9 : ∀ cfg tp fp TP FP c, IDSDRounded.credibility id cfg tp fp TP FP c = IDSD.credibility cfg tp fp TP FP c := by
    intro cfg tp fp TP FP c
    unfold IDSDRounded.credibility IDSD.credibility
    rw [h1, h2]
    rfl
  have h10 : IDSDRounded.handle id = IDSD.handle := by
    funext cfg TP FP mask p app st
    unfold IDSDRounded.handle IDSD.handle
    simp only [h9, h7, h8]
    rfl
  have h11 : IDSDRounded.visit id = IDSD.visit := by
    funext cfg c TP FP mask p app st
    unfold IDSDRounded.visit IDSD.visit
    simp only [h1, h10, Nat.cast_zero]
    rfl
  have h12 : ∀ cfg c TP FP mask l p app st, IDSDRounded.growLoop id cfg c TP FP mask l p app st = IDSD.growLoop cfg c TP FP mask l p app st := by
    intro cfg c TP FP mask l
    induction l with
    | nil => intro p app st; rfl
    | cons s l ih =>
      intro p app st
      rw [IDSDRounded.growLoop, IDSD.growLoop, h11]
      cases st.apps.lookup s with
      | none => rfl
      | some b =>
        simp only
        cases IDSD.visit cfg c TP FP mask (p.copy.add s) (app.alignAnd b) st with
        | error e => rfl
        | ok r =>
          obtain ⟨st1, g⟩ := r
          cases g
          · exact ih _ _ _
          · simp only [ih]
            rfl
  have h13 : IDSDRounded.growTree id = IDSD.growTree := by
    funext cfg c TP FP mask sels p app st
    unfold IDSDRounded.growTree IDSD.growTree
    rw [h11]
    simp only [h12]
    rfl
  have h14 : ∀ cfg TP FP mask sels n cs st, IDSDRounded.deepen id cfg TP FP mask sels n cs st = IDSD.deepen cfg TP FP mask sels n cs st := by
    intro cfg TP FP mask sels n cs
    induction cs with
    | nil => intro st; rfl
    | cons c cs ih =>
      intro st
      rw [IDSDRounded.deepen, IDSD.deepen, h13]
      cases IDSD.growTree cfg c TP FP mask sels (Pattern.new []) (List.replicate n true) st with
      | error e => rfl
      | ok st1 => exact ih st1
  unfold IDSDRounded.fit IDSD.fit
  simp only [h14]
  rfl

/-! ## the list -/

/-- everything about one `fit`, from which the theorems below are read -/
theorem idsdRounded_fit (hρ : RoundsFor ρ df.nrows) (hf : NominalFrame df target) (ht : OccursIn df [targetSel target]) (hnum : 0 < cfg.num) {st : IDSDState}
    (hA : ∀ a ∈ st.apps.head?, df.nrows ≤ a.2.length) :
    ∃ st' N, IDSDRounded.fit ρ cfg st df target = .ok st' ∧ IDSDRounded.DeepSpec ρ cfg (searched cfg df target) target (maxSelectors cfg df) st' N := by
  obtain ⟨st', N, h1, _, h3⟩ := IDSDRounded.fit_spec (ρ := ρ) (cfg := cfg) hf ht hnum st hA
  rw [maxComplexity_eq] at h3
  exact ⟨st', N, h1, h3⟩

/-- C109: the list of the best subgroups has at most `num_subgroups` elements, all different, the best first. -/
theorem C109_list (hρ : RoundsFor ρ df.nrows) (hf : NominalFrame df target) (ht : OccursIn df [targetSel target]) (hnum : 0 < cfg.num) :
    ∃ st', IDSDRounded.fit ρ cfg .init df target = .ok st' ∧ st'.top.length ≤ cfg.num ∧ (st'.top.map (·.pat)).Nodup ∧
      st'.top.Pairwise (fun a b => NotBetter b a) := by
  obtain ⟨st', N, h1, h2⟩ := idsdRounded_fit (ρ := ρ) (cfg := cfg) hρ hf ht hnum (st := .init) (by simp [IDSDState.init])
  refine ⟨st', h1, h2.inv.inv.size, h2.inv.inv.distinct, ?_⟩
  exact h2.inv.inv.sorted.imp_of_mem (fun {a b} ha hb h => (keyLe_notBetter (h2.inv.inv.num b hb) (h2.inv.inv.num a ha)).1 h)

/-- C109: every element of the list describes rows that occur in the searched data, with at most `max_complexity` selectors on attributes other
than the target, and its rank and its values are those of these rows. -/
theorem C109_values (hρ : RoundsFor ρ df.nrows) (hf : NominalFrame df target) (ht : OccursIn df [targetSel target]) (hnum : 0 < cfg.num) {st' : IDSDState}
    (h : IDSDRounded.fit ρ cfg .init df target = .ok st') :
    ∀ e ∈ st'.top, Describes target e.pat.sels ∧ OccursIn (searched cfg df target) e.pat.sels ∧ e.pat.len ≤ maxSelectors cfg df ∧
      e.rank = computedRank ρ cfg (searched cfg df target) target e.pat ∧ e.cred = computedCred ρ cfg (searched cfg df target) target e.pat ∧ e.odds = e.cred.odds := by
  obtain ⟨st1, N, h1, h2⟩ := idsdRounded_fit (ρ := ρ) (cfg := cfg) hρ hf ht hnum (st := .init) (by simp [IDSDState.init])
  rw [h1] at h
  cases h
  intro e he
  obtain ⟨hc, hx⟩ := h2.inv.exact e he
  rw [h2.calls] at hc
  obtain ⟨X, hX, hp⟩ := List.mem_map.1 hc
  obtain ⟨g1, g2, g3, g4⟩ := h2.good X hX
  have hf' := reduce_nominal hf (ties := cfg.ties) cfg.cats
  have hsel : ∀ s ∈ X, IsSel target s := fun s hs => ((mem_sels hf').1 (g1.subset hs)).1
  have hm := mem_new (fun s hs => (hsel s hs).2)
  have hl := new_len (fun s hs => (hsel s hs).2) (g1.nodup (nodup_sels hf'))
  rw [← hp]
  refine ⟨⟨?_, fun s hs => hsel s ((hm s).1 hs)⟩, occursIn_mono (fun s hs => (hm s).1 hs) g4, by rw [hl]; exact g3, ?_, ?_, ?_⟩
  · intro h0
    obtain ⟨s, hs⟩ := List.exists_mem_of_ne_nil _ g2
    have := (hm s).2 hs
    rw [h0] at this
    simp at this
  · rw [hp, hx]; rfl
  · rw [hp, hx]; rfl
  · rw [hx]; rfl

/-- C109: a reported subgroup whose description extends that of another reported one is not better than it. -/
theorem C109_refinement (hρ : RoundsFor ρ df.nrows) (hf : NominalFrame df target) (ht : OccursIn df [targetSel target]) (hnum : 0 < cfg.num) {st' : IDSDState}
    (h : IDSDRounded.fit ρ cfg .init df target = .ok st') :
    ∀ e ∈ st'.top, ∀ f ∈ st'.top, (∀ s ∈ e.pat.sels, s ∈ f.pat.sels) → e.pat.len < f.pat.len → NotBetter f e := by
  obtain ⟨st1, N, h1, h2⟩ := idsdRounded_fit (ρ := ρ) (cfg := cfg) hρ hf ht hnum (st := .init) (by simp [IDSDState.init])
  rw [h1] at h
  cases h
  intro e he f hf' hs hl
  rw [← keyLe_notBetter (h2.inv.inv.num f hf') (h2.inv.inv.num e he)]
  apply h2.inv.refine e he f hf' hl
  unfold redundant
  rw [Bool.or_eq_true, Pattern.isRefinement_iff]
  exact .inl ⟨hs, .inr rfl⟩

/-- C109: no description of the searched data with at most `max_complexity` selectors is better than the first element of the list. -/
theorem C109_best (hρ : RoundsFor ρ df.nrows) (hf : NominalFrame df target) (ht : OccursIn df [targetSel target]) (hnum : 0 < cfg.num) {st' : IDSDState}
    (h : IDSDRounded.fit ρ cfg .init df target = .ok st') {X : List Selector} (hX : Describes target X) (ho : OccursIn (searched cfg df target) X)
    (hl : (Pattern.new X).len ≤ maxSelectors cfg df) :
    ∃ e, st'.top.head? = some e ∧ NotBetter (computedEntry ρ cfg (searched cfg df target) target (Pattern.new X)) e := by
  obtain ⟨st1, N, h1, h2⟩ := idsdRounded_fit (ρ := ρ) (cfg := cfg) hρ hf ht hnum (st := .init) (by simp [IDSDState.init])
  rw [h1] at h
  cases h
  have hf' := reduce_nominal hf (ties := cfg.ties) cfg.cats
  obtain ⟨Z, z1, z2, z3, z4, z5⟩ := describes_sublist hf' hX ho
  have key : ∃ g ∈ st'.top, KeyLe (computedEntry ρ cfg (searched cfg df target) target (Pattern.new X)) g := by
    rcases h2.all Z z1 z2 (by rw [z5]; exact hl) (occursIn_mono (fun s hs => (z3 s).1 hs) ho) with h | ⟨hc, g, hg, hr⟩
    · apply h2.inv.dom
      rw [h2.calls, ← z4]
      exact List.mem_map_of_mem h
    · refine ⟨g, hg, ?_⟩
      rw [keyLe_iff (IDSDRounded.entryOf_num _ _ _ _) (h2.inv.inv.num g hg)]
      left
      have h0 : ¬ 0 < computedRank ρ cfg (searched cfg df target) target (Pattern.new X) := by
        rw [IDSDRounded.rank_pos_iff, ← z4, IDSDRounded.covOf_congr (mem_new (fun s hs => (hX.2 s ((z3 s).1 hs)).2))]
        exact not_le.2 hc
      have : (computedEntry ρ cfg (searched cfg df target) target (Pattern.new X)).rank = computedRank ρ cfg (searched cfg df target) target (Pattern.new X) := rfl
      omega
  obtain ⟨g, hg, hk⟩ := key
  cases ht' : st'.top with
  | nil => rw [ht'] at hg; simp at hg
  | cons e top =>
    have hinv := h2.inv.inv
    rw [ht'] at hinv hg
    refine ⟨e, rfl, ?_⟩
    rw [← keyLe_notBetter (IDSDRounded.entryOf_num _ _ _ _) (hinv.num e (by simp))]
    exact KeyLe.trans (IDSDRounded.entryOf_num _ _ _ _) (hinv.num g hg) (hinv.num e (by simp)) hk (hinv.le_head g hg)


/-- C109: each evaluated pattern is evaluated once, occurs in the searched data and has at most `max_complexity` selectors; every
description that occurs and reaches the coverage threshold is evaluated (one that does not is skipped only when the list already has a subgroup
of positive rank). -/
theorem C109_evaluated (hρ : RoundsFor ρ df.nrows) (hf : NominalFrame df target) (ht : OccursIn df [targetSel target]) (hnum : 0 < cfg.num) :
    ∃ st', IDSDRounded.fit ρ cfg .init df target = .ok st' ∧ st'.calls.Nodup ∧
      (∀ p ∈ st'.calls, ∃ X, p = Pattern.new X ∧ Describes target X ∧ OccursIn (searched cfg df target) X ∧ p.len ≤ maxSelectors cfg df) ∧
      ∀ X, Describes target X → OccursIn (searched cfg df target) X → (Pattern.new X).len ≤ maxSelectors cfg df →
        Pattern.new X ∈ st'.calls ∨ (computedCov ρ (searched cfg df target) target X < cfg.covT ∧ ∃ e ∈ st'.top, 0 < e.rank) := by
  obtain ⟨st', N, h1, h2⟩ := idsdRounded_fit (ρ := ρ) (cfg := cfg) hρ hf ht hnum (st := .init) (by simp [IDSDState.init])
  have hf' := reduce_nominal hf (ties := cfg.ties) cfg.cats
  have hsel : ∀ X ∈ N, ∀ s ∈ X, IsSel target s := fun X hX s hs => ((mem_sels hf').1 ((h2.good X hX).1.subset hs)).1
  refine ⟨st', h1, ?_, ?_, ?_⟩
  · rw [h2.calls]
    apply List.Nodup.map_on _ h2.nodup
    intro X hX Y hY hXY
    apply sublist_ext (nodup_sels hf') (h2.good X hX).1 (h2.good Y hY).1
    intro s
    rw [← mem_new (fun t ht => (hsel X hX t ht).2), hXY, mem_new (fun t ht => (hsel Y hY t ht).2)]
  · intro p hp
    rw [h2.calls] at hp
    obtain ⟨X, hX, rfl⟩ := List.mem_map.1 hp
    obtain ⟨g1, g2, g3, g4⟩ := h2.good X hX
    exact ⟨X, rfl, ⟨g2, hsel X hX⟩, g4, by rw [new_len (fun t ht => (hsel X hX t ht).2) (g1.nodup (nodup_sels hf'))]; exact g3⟩
  · intro X hX ho hl
    obtain ⟨Z, z1, z2, z3, z4, z5⟩ := describes_sublist hf' hX ho
    rcases h2.all Z z1 z2 (by rw [z5]; exact hl) (occursIn_mono (fun s hs => (z3 s).1 hs) ho) with h | ⟨hc, h⟩
    · left
      rw [h2.calls, ← z4]
      exact List.mem_map_of_mem h
    · right
      rw [IDSDRounded.covOf_congr z3] at hc
      exact ⟨hc, h⟩

/-! ## C35 -/

theorem historyRounded_head {n : Nat} (h : List (Frame × (Str × Str)))
    (hh : ∀ c ∈ h, NominalFrame c.1 c.2 ∧ OccursIn c.1 [targetSel c.2] ∧ n ≤ c.1.nrows) :
    ∀ (st : IDSDState), (∀ a ∈ st.apps.head?, n ≤ a.2.length) → ∀ a ∈ (idsdHistoryRounded ρ cfg h st).apps.head?, n ≤ a.2.length := by
  induction h with
  | nil => intro st hst; exact hst
  | cons c h ih =>
    intro st hst
    have e : idsdHistoryRounded ρ cfg (c :: h) st = idsdHistoryRounded ρ cfg h (match IDSDRounded.fit ρ cfg st c.1 c.2 with | .ok st' => st' | .error _ => st) := rfl
    rw [e]
    apply ih (fun d hd => hh d (by simp [hd]))
    cases hfit : IDSDRounded.fit ρ cfg st c.1 c.2 with
    | error e => exact hst
    | ok st' =>
      obtain ⟨hf, ht, hn⟩ := hh c (by simp)
      have hap : st'.apps = (selectorPairs (reduceCategories cfg.ties cfg.cats c.1 c.2.1) c.2.1).foldl (fun d e => setApp d e.1 e.2) st.apps := by
        unfold IDSDRounded.fit at hfit
        split at hfit
        · cases hfit
        · split at hfit
          · cases hfit
          · split at hfit
            · cases hfit
            · exact deepen_apps _ hfit
      rw [hap]
      apply head_fold _ hst
      intro e he
      rw [pairs_length (reduce_nominal hf (ties := cfg.ties) cfg.cats) e he, reduce_nrows]
      exact hn
where
  deepen_apps {TP FP n : Nat} {mask : Bits} {sels : List Selector} (cs : List Nat) : ∀ {st st' : IDSDState},
      IDSDRounded.deepen ρ cfg TP FP mask sels n cs st = .ok st' → st'.apps = st.apps := by
    induction cs with
    | nil => intro st st' h; cases h; rfl
    | cons c cs ih =>
      intro st st' h
      rw [IDSDRounded.deepen] at h
      split at h
      · cases h
      · rename_i st1 hg
        rw [ih h]
        unfold IDSDRounded.growTree at hg
        split at hg
        · cases hg
        · rename_i hv
          cases hg
          exact IDSDRounded.visit_apps hv
        · rename_i hv
          exact (IDSDRounded.growLoop_apps _ hg).trans (IDSDRounded.visit_apps hv)

/-- C109: after any `fit`s on data sets that have at least as many rows, `fit` gives the list of a new object, evaluating the same
patterns in the same order; the counters are the previous ones plus those of a new object. -/
theorem C109_history (hρ : RoundsFor ρ df.nrows) (h : List (Frame × (Str × Str)))
    (hh : ∀ c ∈ h, NominalFrame c.1 c.2 ∧ OccursIn c.1 [targetSel c.2] ∧ df.nrows ≤ c.1.nrows)
    (hf : NominalFrame df target) (ht : OccursIn df [targetSel target]) (hnum : 0 < cfg.num) :
    ∃ r st', IDSDRounded.fit ρ cfg .init df target = .ok r ∧ IDSDRounded.fit ρ cfg (idsdHistoryRounded ρ cfg h .init) df target = .ok st' ∧ st'.top = r.top ∧ st'.calls = r.calls ∧
      st'.visited = (idsdHistoryRounded ρ cfg h .init).visited + r.visited ∧ st'.pruned = (idsdHistoryRounded ρ cfg h .init).pruned + r.pruned := by
  obtain ⟨r, N, h1, _⟩ := idsdRounded_fit (ρ := ρ) (cfg := cfg) hρ hf ht hnum (st := .init) (by simp [IDSDState.init])
  obtain ⟨A, _, h2⟩ := IDSDRounded.fit_shift (ρ := ρ) (cfg := cfg) hf ht (idsdHistoryRounded ρ cfg h .init) (historyRounded_head h hh .init (by simp [IDSDState.init]))
  rw [h1] at h2
  exact ⟨r, _, h1, h2, rfl, rfl, rfl, rfl⟩


/-! ## the contribution -/

theorem IDSDRounded.sub_eq (a b : XF) : IDSDRounded.sub ρ a b = roundX ρ (a.sub b) := by
  cases a <;> cases b <;> rfl

theorem IDSDRounded.loop_eq (orOf : Pattern → Except PyErr XF) (p : Pattern) (o : XF) (w : Selector → XF) (l : List Selector)
    (hw : ∀ s ∈ l, orOf (p.copy.remove s) = .ok (w s)) (mn mx : XF) :
    IDSDRounded.loop ρ orOf p o l mn mx =
      .ok (l.foldl (fun a s => a.pyMin (roundX ρ (o.sub (w s)))) mn, l.foldl (fun a s => a.pyMax (roundX ρ (o.sub (w s)))) mx) := by
  induction l generalizing mn mx with
  | nil => rfl
  | cons s l ih =>
    rw [IDSDRounded.loop, hw s (by simp)]
    simp only [IDSDRounded.sub_eq]
    rw [ih (fun t ht => hw t (by simp [ht]))]
    rfl

theorem IDSDRounded.ratio_eq {mn mx : XF} (h1 : mn ≠ .nan) (h2 : mx ≠ .nan) (hle : mn.le mx = true) :
    ∃ r, IDSDRounded.ratio ρ mn mx = .ok r ∧ IsComputedRatio ρ mx mn r := by
  cases mn with
  | nan => exact absurd rfl h1
  | inf =>
    cases mx <;> simp_all [XF.le, IDSDRounded.ratio, XF.eqv, IsComputedRatio]
  | ninf =>
    cases mx <;> simp_all [IDSDRounded.ratio, XF.eqv, IsComputedRatio, IDSDRounded.div, XF.div]
  | fin x =>
    by_cases hx : x = 0
    · subst hx
      exact ⟨.inf, by simp [IDSDRounded.ratio, XF.eqv], by simp +contextual [IsComputedRatio]⟩
    · cases mx with
      | nan => exact absurd rfl h2
      | ninf => simp [XF.le] at hle
      | fin y =>
        refine ⟨.fin (ρ (y / x)), by simp [IDSDRounded.ratio, XF.eqv, IDSDRounded.div, hx], ?_⟩
        simp +contextual [IsComputedRatio, hx]
      | inf =>
        refine ⟨if 0 < x then .inf else .ninf, by simp [IDSDRounded.ratio, XF.eqv, IDSDRounded.div, XF.div, hx], ?_⟩
        simp only [IsComputedRatio, XF.fin.injEq]
        refine ⟨fun h => absurd h hx, fun h => by simp at h, fun _ _ _ _ h => by simp at h, ?_, ?_, fun h => by simp at h⟩
        · rintro z rfl hz _; rw [if_pos hz]
        · rintro z rfl hz _; rw [if_neg (not_lt.2 hz.le)]

theorem computedOdds_congr {X Y : List Selector} (h : ∀ s, s ∈ X ↔ s ∈ Y) : computedOdds ρ df target X = computedOdds ρ df target Y := by
  have e1 : tpOf df target X = tpOf df target Y := by
    unfold tpOf Covers
    congr 1
    apply List.filter_congr
    intro i _
    exact decide_eq_decide.2 (by simp only [h])
  have e2 : fpOf df target X = fpOf df target Y := by
    unfold fpOf Covers
    congr 1
    apply List.filter_congr
    intro i _
    exact decide_eq_decide.2 (by simp only [h])
  unfold computedOdds
  rw [e1, e2]

/-- C109: the calculated absolute contribution of a pattern of at least two selectors is the least of the rounded differences between its calculated odds ratio and those of the patterns without one
selector, and the contribution ratio is the rounded quotient of the greatest difference by the least one (when no difference is the undefined difference of two infinities); it is 1 and 1 for one
selector. -/
theorem C109_contribution (X : List Selector) (hX : ∀ s ∈ X, TextEq s) :
    ((Pattern.new X).len = 1 → computedContrib ρ df target (Pattern.new X) = (.fin 1, .fin 1)) ∧
    (2 ≤ (Pattern.new X).len →
      (∀ s ∈ X, (computedOdds ρ df target X).sub (computedOdds ρ df target (X.filter (fun t => t ≠ s))) ≠ .nan) →
      ∃ m, (∃ s ∈ X, (computedContrib ρ df target (Pattern.new X)).1 = roundX ρ ((computedOdds ρ df target X).sub (computedOdds ρ df target (X.filter (fun t => t ≠ s))))) ∧
        (∀ s ∈ X, Le (computedContrib ρ df target (Pattern.new X)).1 (roundX ρ ((computedOdds ρ df target X).sub (computedOdds ρ df target (X.filter (fun t => t ≠ s)))))) ∧
        (∃ s ∈ X, m = roundX ρ ((computedOdds ρ df target X).sub (computedOdds ρ df target (X.filter (fun t => t ≠ s))))) ∧
        (∀ s ∈ X, Le (roundX ρ ((computedOdds ρ df target X).sub (computedOdds ρ df target (X.filter (fun t => t ≠ s))))) m) ∧
        IsComputedRatio ρ m (computedContrib ρ df target (Pattern.new X)).1 (computedContrib ρ df target (Pattern.new X)).2) := by
  constructor
  · intro hl
    unfold computedContrib IDSDRounded.compute
    rw [if_neg (by omega), if_pos hl]
  intro hlen hnan
  obtain ⟨h1, h2⟩ := new_text hX
  generalize ho : computedOdds ρ df target X = o at hnan ⊢
  have ho' : computedOdds ρ df target (Pattern.new X).sels = o := by rw [computedOdds_congr h2, ho]
  generalize hwd : (fun s => computedOdds ρ df target (X.filter (fun t => t ≠ s))) = w
  have hwe : ∀ s, computedOdds ρ df target (X.filter (fun t => t ≠ s)) = w s := fun s => by rw [← hwd]
  simp only [hwe] at hnan ⊢
  have hw' : ∀ s ∈ (Pattern.new X).sels, (fun q : Pattern => (Except.ok (computedOdds ρ df target q.sels) : Except PyErr XF)) ((Pattern.new X).copy.remove s) = .ok (w s) := by
    intro s hs
    rw [remove_new hX ((h2 s).1 hs), ← hwe s]
    have hf : ∀ t ∈ X.filter (fun t => t ≠ s), TextEq t := fun t ht => hX t (List.mem_of_mem_filter ht)
    simp only [computedOdds_congr (new_text hf).2]
  have hfold := fold_minmax (fun s => roundX ρ (o.sub (w s))) (Pattern.new X).sels .inf .ninf (by simp) (by simp)
  simp only at hfold
  obtain ⟨b1, b2, _, _, b5, b6, b7⟩ := hfold
  have hne : ∃ s, s ∈ (Pattern.new X).sels := by
    have : 0 < (Pattern.new X).sels.length := by simp only [Pattern.len] at hlen; omega
    exact ⟨_, List.getElem_mem this⟩
  obtain ⟨s0, hs0⟩ := hne
  have hn : ∀ s ∈ (Pattern.new X).sels, roundX ρ (o.sub (w s)) ≠ .nan := by
    intro s hs
    have := hnan s ((h2 s).1 hs)
    cases h : o.sub (w s) <;> simp_all [roundX]
  generalize hmn : (Pattern.new X).sels.foldl (fun (a : XF) s => a.pyMin (roundX ρ (o.sub (w s)))) XF.inf = mn at b1 b5 b6
  generalize hmx : (Pattern.new X).sels.foldl (fun (a : XF) s => a.pyMax (roundX ρ (o.sub (w s)))) XF.ninf = mx at b2 b5 b7
  obtain ⟨r, hr, hr'⟩ := IDSDRounded.ratio_eq (ρ := ρ) b1 b2 (XF.le_trans (b5 s0 hs0 (hn s0 hs0)).1 (b5 s0 hs0 (hn s0 hs0)).2)
  have hc : computedContrib ρ df target (Pattern.new X) = (mn, r) := by
    unfold computedContrib IDSDRounded.compute
    rw [if_neg (by omega), if_neg (by omega)]
    simp only [ho']
    rw [IDSDRounded.loop_eq _ _ o w _ hw', hmn, hmx]
    simp only [hr]
  rw [hc]
  refine ⟨mx, ?_, ?_, ?_, ?_, hr'⟩
  · rcases b6 with h | ⟨s, hs, _, h⟩
    · refine ⟨s0, (h2 _).1 hs0, ?_⟩
      have := (b5 s0 hs0 (hn s0 hs0)).1
      simp only
      rw [h] at this ⊢
      exact XF.le_antisymm this (XF.le_inf (hn s0 hs0))
    · exact ⟨s, (h2 _).1 hs, h⟩
  · intro s hs
    have hs := (h2 s).2 hs
    exact (XF.le_iff _ _).1 (b5 s hs (hn s hs)).1
  · rcases b7 with h | ⟨s, hs, _, h⟩
    · refine ⟨s0, (h2 _).1 hs0, ?_⟩
      have := (b5 s0 hs0 (hn s0 hs0)).2
      rw [h] at this ⊢
      exact XF.le_antisymm (XF.ninf_le (hn s0 hs0)) this
    · exact ⟨s, (h2 _).1 hs, h⟩
  · intro s hs
    have hs := (h2 s).2 hs
    exact (XF.le_iff _ _).1 (b5 s hs (hn s hs)).2

/-- the hypotheses are met, for floats as well -/
example : ∃ st', IDSDRounded.fit Float64.fl IDSDWitness.cfgA .init IDSDWitness.dfA IDSDWitness.tA = .ok st' ∧ st'.top.length ≤ 10 ∧ (st'.top.map (·.pat)).Nodup ∧
    st'.top.Pairwise (fun a b => NotBetter b a) :=
  C109_list (C109_roundings _ (by decide)).2.1 IDSDWitness.nominalA IDSDWitness.occursA (by decide)

end

/-! ## differences -/

namespace IDSDWitness
/-- 14 rows: `a = x` in 3 of the 4 rows with the target and in 5 of the 10 others; `b = y` in one row of each kind -/
def df14 : Frame :=
  ⟨14, [(c!"a", [.str c!"x", .str c!"x", .str c!"x", .str c!"w", .str c!"x", .str c!"x", .str c!"x", .str c!"x", .str c!"x", .str c!"w", .str c!"w", .str c!"w", .str c!"w", .str c!"w"]),
    (c!"b", [.str c!"z", .str c!"z", .str c!"z", .str c!"y", .str c!"z", .str c!"z", .str c!"z", .str c!"z", .str c!"z", .str c!"y", .str c!"z", .str c!"z", .str c!"z", .str c!"z"]),
    (c!"t", [.str c!"1", .str c!"1", .str c!"1", .str c!"1", .str c!"0", .str c!"0", .str c!"0", .str c!"0", .str c!"0", .str c!"0", .str c!"0", .str c!"0", .str c!"0", .str c!"0"])]⟩
/-- one selector at most, the odds ratio is to be at least 3 -/
def cfg14 : IDSDConfig := ⟨2, -1, 1, 0, 3, 1, 0, 5, fun _ _ _ _ => .fin 1, .first⟩

theorem nominal14 : NominalFrame df14 tA := by
  refine ⟨by unfold WF; decide, by decide, ?_, by decide⟩
  intro c hc v hv
  have h : df14.nominal = true := by decide
  simp only [Frame.nominal, List.all_eq_true] at h
  have := h c hc v hv
  cases v <;> simp_all [Val.isStr]

theorem occurs14 : OccursIn df14 [targetSel tA] :=
  ⟨0, by decide, fun s hs => by
    rw [List.mem_singleton.1 hs]
    exact ⟨_, _, rfl, rfl, rfl⟩⟩
end IDSDWitness
open IDSDWitness

/-- C109: the list calculated with floats may differ from the exact one: two subgroups have the odds ratio 3 of the threshold, and with floats one of them fails it. -/
theorem C109_differs : ∃ (cfg : IDSDConfig) (df : Frame) (target : Str × Str), NominalFrame df target ∧ OccursIn df [targetSel target] ∧ 0 < cfg.num ∧
    shown (IDSD.fit cfg .init df target) = [([⟨c!"a", .equal, .str c!"x"⟩], 5), ([⟨c!"b", .equal, .str c!"y"⟩], 5)] ∧
    shown (IDSDRounded.fit Float64.fl cfg .init df target) = [([⟨c!"b", .equal, .str c!"y"⟩], 5), ([⟨c!"a", .equal, .str c!"x"⟩], 1)] :=
  ⟨cfg14, df14, tA, nominal14, occurs14, by decide, by decide +kernel, by decide +kernel⟩

end Verif
