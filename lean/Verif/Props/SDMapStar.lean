import Verif.Props.SDMap
import Verif.Props.Quality
import Verif.Lemmas.SDMapStar
/-! Properties C26 - C28: SDMapStar. -/
namespace Verif
open Spec
section
open Classical

/-! ## C26: without top-k -/

theorem fit_zero {cfg : SDMapStarConfig} (h0 : cfg.num = 0) (st : StarState) (df : Frame) (target : Str × Str) :
    cfg.fit st df target =
      match fitOrder (fun t => t.header.map (·.1)) cfg.toSDMapConfig st.base df target with
      | .error e => .error e
      | .ok b => .ok { st with base := b } := by
  unfold SDMapStarConfig.fit fitOrder
  rw [if_pos h0]
  cases nominalResults (fun t => t.header.map (·.1)) cfg.th df target with
  | error e => rfl
  | ok r =>
    obtain ⟨o, TP, FP⟩ := r
    cases o with
    | none => rfl
    | some rs => rfl

theorem calls_perm {th : Thresholds} {df : Frame} {target : Str × Str} {c d : List (Pattern × Cnt)} (h : CallsExact th df target c)
    (h' : CallsExact th df target d) : c.Perm d := by
  rw [List.perm_ext_iff_of_nodup (List.Nodup.of_map _ h.distinct) (List.Nodup.of_map _ h'.distinct)]
  have : ∀ {c d : List (Pattern × Cnt)}, CallsExact th df target c → CallsExact th df target d → ∀ r ∈ c, r ∈ d := by
    intro c d h h' r hr
    obtain ⟨h1, h2⟩ := h.sound r hr
    obtain ⟨r', hr', he⟩ := h'.complete _ h1
    have h3 := (h'.sound r' hr').2
    rw [he, ← h2] at h3
    have : r' = r := by
      obtain ⟨⟨s⟩, x⟩ := r
      obtain ⟨⟨s'⟩, x'⟩ := r'
      simp only at he h3
      subst he h3
      rfl
    rwa [← this]
  exact fun r => ⟨this h h' r, this h' h r⟩

/-- C26: with `num_subgroups = 0`, SDMapStar succeeds exactly when SDMap does, evaluates the same descriptions with the same counts,
writes the same lines (both up to the order) and has the same counters. -/
theorem C26 (cfg : SDMapStarConfig) (h0 : cfg.num = 0) (df : Frame) (target : Str × Str) (hf : NominalFrame df target)
    (hk : KeysFaithful df target) (st : StarState) :
    ((∃ st', cfg.fit st df target = .ok st') ↔ ∃ sd, cfg.toSDMapConfig.fit st.base df target = .ok sd) ∧
    ∀ st' sd, cfg.fit st df target = .ok st' → cfg.toSDMapConfig.fit st.base df target = .ok sd →
      st' = { st with base := st'.base } ∧
      (∃ c d, st'.base.calls = st.base.calls ++ c ∧ sd.calls = st.base.calls ++ d ∧ c.Perm d) ∧
      st'.base.file.Perm sd.file ∧ st'.base.selected = sd.selected ∧ st'.base.unselected = sd.unselected := by
  have hord : ∀ t : FPTree Selector, t.sorted = t.sortHeader.sorted → ((fun t : FPTree Selector => t.header.map (·.1)) t).Perm (t.header.map (·.1)) :=
    fun t _ => List.Perm.refl _
  constructor
  · rw [show (∃ sd, cfg.toSDMapConfig.fit st.base df target = .ok sd) ↔ _ from
      fitOrder_total (order := FPTree.sorted) sorted_order_perm cfg.toSDMapConfig df target hf hk st.base,
      ← fitOrder_total hord cfg.toSDMapConfig df target hf hk st.base, fit_zero h0]
    constructor
    · rintro ⟨st', h⟩
      split at h
      · cases h
      · exact ⟨_, by assumption⟩
    · rintro ⟨b, h⟩
      rw [h]; exact ⟨_, rfl⟩
  · intro st' sd h1 h2
    rw [fit_zero h0] at h1
    cases hb : fitOrder (fun t => t.header.map (·.1)) cfg.toSDMapConfig st.base df target with
    | error e => rw [hb] at h1; cases h1
    | ok b =>
      rw [hb] at h1
      cases h1
      simp only
      obtain ⟨c, c1, c2, c3, c4, c5⟩ := fitOrder_spec hord hf hk hb
      obtain ⟨d, d1, d2, d3, d4, d5⟩ := fit_spec hf hk h2
      have hp := calls_perm c1 d1
      refine ⟨trivial, ⟨c, d, c2, d2, hp⟩, ?_⟩
      by_cases hc : c = []
      · have hd : d = [] := by
          rw [hc] at hp
          exact List.nil_perm.1 hp
        rw [c4 hc, d4 hd]
        exact ⟨List.Perm.refl _, rfl, rfl⟩
      · have hd : d ≠ [] := by
          intro hd
          rw [hd] at hp
          exact hc (List.perm_nil.1 hp)
        obtain ⟨e1, e2, e3⟩ := c5 hc
        obtain ⟨f1, f2, f3⟩ := d5 hd
        have hpf : b.file.Perm sd.file := by
          rw [List.perm_ext_iff_of_nodup (List.Nodup.of_map _ (c1.distinct.sublist e2)) (List.Nodup.of_map _ (d1.distinct.sublist f2))]
          intro l
          rw [e3, f3]
        have := hpf.length_eq
        have := hp.length_eq
        exact ⟨hpf, by omega, by omega⟩

/-! ## C27: the best qualities -/

/-- C27: after any sequence of updates the list of best qualities is in ascending order, has `min k (number of values seen)` elements,
and the values seen that it leaves out are not greater than those it holds. -/
theorem C27_updates (k : Nat) (hk : 0 < k) (qs : List Rat) :
    ∃ ks, qs.foldlM (SDMapStarConfig.pushK k) [] = .ok ks ∧ ks.Pairwise (· ≤ ·) ∧ ks.length = min k qs.length ∧
      ∃ rest, qs.Perm (rest ++ ks) ∧ ∀ a ∈ rest, ∀ b ∈ ks, a ≤ b := by
  have : ∀ (qs seen ks : List Rat), SDMapStarConfig.BestOf k seen ks →
      ∃ ks', qs.foldlM (SDMapStarConfig.pushK k) ks = .ok ks' ∧ SDMapStarConfig.BestOf k (seen ++ qs) ks' := by
    intro qs
    induction qs with
    | nil => intro seen ks h; exact ⟨ks, rfl, by simpa using h⟩
    | cons q qs ih =>
      intro seen ks h
      obtain ⟨ks1, h1, _⟩ := SDMapStarConfig.pushK_ok hk q h
      obtain ⟨ks', h2, h3⟩ := ih _ _ (SDMapStarConfig.pushK_best h h1)
      refine ⟨ks', ?_, by simpa using h3⟩
      rw [List.foldlM_cons, h1]
      exact h2
  obtain ⟨ks, h1, h2⟩ := this qs [] [] ⟨by simp, by simp, [], by simp, by simp⟩
  exact ⟨ks, h1, h2.sorted, by simpa using h2.length, by simpa using h2.rest⟩

/-! ## the run of `fit` with top-k -/

/-- the optimistic estimate bounds the quality of all refinements, by their counts (as in property C16) -/
def Spec.ValidEstimate (cfg : SDMapStarConfig) (TP FP : Nat) : Prop :=
  ∀ tp fp tp' fp' : Nat, tp ≤ TP → fp ≤ FP → tp' ≤ tp → fp' ≤ fp → 0 < tp' + fp' → ∀ q o,
    cfg.measure (paramsFor tp' fp' TP FP cfg.extraOE) = .ok q → cfg.estimate (paramsFor tp fp TP FP cfg.extraOE) = .ok o → q ≤ o

/-- the quality of `X` in the data, with the parameters that the top-k list uses -/
noncomputable def Spec.starQuality (cfg : SDMapStarConfig) (df : Frame) (target : Str × Str) (X : List Selector) : Except PyErr Rat :=
  cfg.measure (paramsFor (tpOf df target X) (fpOf df target X) (tpOf df target []) (fpOf df target []) cfg.extraOE)

/-- a `fit` with top-k, on the data -/
theorem star_fit {cfg : SDMapStarConfig} (h0 : 0 < cfg.num) {df : Frame} {target : Str × Str} (hf : NominalFrame df target)
    (hk : KeysFaithful df target) {st st' : StarState} (h : cfg.fit st df target = .ok st') :
    ∃ us, ((us = [] ∧ st' = st) ∨
        cfg.Steps target (tpOf df target []) (fpOf df target []) { st with base := { st.base with file := [] } } us st') ∧
      (∀ u ∈ us, Describes target u.1.1 ∧ u.1.1.Nodup ∧ OccursIn df u.1.1 ∧
        u.1.2 ≤ (tpOf df target u.1.1, fpOf df target u.1.1) ∧ Frequent cfg.th u.1.2.1 u.1.2.2) ∧
      (us.map (·.1)).Pairwise (fun e f => ¬ ∀ x, x ∈ e.1 ↔ x ∈ f.1) ∧
      st.condPruned ≤ st'.condPruned ∧
      (st'.condPruned = st.condPruned → ∃ F, ExactOn cfg.th df target F ∧ SDMapStarConfig.Accounted us F) := by
  obtain ⟨mask, h1, hl, hm⟩ := targetMask_ok hf
  have hcount := count_true_mask hf hl hm
  have g := root_good hf hk cfg.th hl hm
  have hnom := nominal_of hf
  obtain ⟨o, e1, e2, e3⟩ := nominalResults_exact (order := cfg.orderStar (tpOf df target []) (fpOf df target [])) (th := cfg.th)
    (fun t _ => SDMapStarConfig.orderStar_perm t) hf hk
  unfold nominalResults at e1
  unfold SDMapStarConfig.fit at h
  rw [if_neg (by omega), if_neg (by rw [hnom]; simp), h1] at h
  rw [if_neg (by rw [hnom]; simp), h1] at e1
  simp only at h e1
  have hFP : df.nrows - mask.count true = fpOf df target [] := by
    split at e1 <;> exact (Prod.ext_iff.1 (Prod.ext_iff.1 (Except.ok.inj e1)).2).2
  rw [hFP] at h
  rw [hcount.1] at h
  set t := FPTree.buildTree Selector.dictKey (frequentSelectors cfg.th df target.1 mask) (keyRows df target.1 mask) with ht
  by_cases hemp : t.isEmpty = true
  · rw [if_pos hemp] at h e1
    cases h
    have ho := (Prod.ext_iff.1 (Except.ok.inj e1)).1
    simp only at ho
    rw [← ho] at e2
    refine ⟨[], Or.inl ⟨rfl, rfl⟩, by simp, by simp, le_refl _, fun _ => ⟨[], e2, by simp, by simp⟩⟩
  · rw [if_neg hemp] at h e1
    obtain ⟨us, a1, a2, a3, a4⟩ := SDMapStarConfig.fpgrowthStar_run (injOn_dictKey hk) _ _ _ _ _ h g
    have hun : SDMapStarConfig.under [] us = us := by simp [SDMapStarConfig.under]
    rw [hun] at a1
    refine ⟨us, Or.inr a1, ?_, a3.distinct, a2, ?_⟩
    · intro u hu
      obtain ⟨b1, b2, ⟨r, hr, b3⟩, b4, b5⟩ := a3.sound u.1 (List.mem_map_of_mem hu)
      have hmem : ∀ x ∈ u.1.1, x ∈ (frequentSelectors cfg.th df target.1 mask).map (·.2.1) := by
        intro x hx
        obtain ⟨i, hi, rfl⟩ := List.mem_map.1 hr
        exact ((mem_rootRow hf hk cfg.th mask i x).1 (b3 x hx)).2
      rw [supp_rootDB hf hk cfg.th hm u.1.1 hmem] at b4
      refine ⟨⟨b1, fun s hs => rootDict_describes hf hk (hmem s hs)⟩, b2, ?_, b4, (ok_iff_frequent cfg.th _ _).1 b5⟩
      obtain ⟨i, hi, rfl⟩ := List.mem_map.1 hr
      refine ⟨i, List.mem_range.1 hi, ?_⟩
      intro s hs
      obtain ⟨c1, c2, c3⟩ := rootDict_describes hf hk (hmem s hs)
      rw [← mem_rowSels_iff hf c1 c2 c3]
      exact ((mem_rootRow hf hk cfg.th mask i s).1 (b3 s hs)).1
    · intro hcp
      have ho := (Prod.ext_iff.1 (Except.ok.inj e1)).1
      simp only at ho
      rw [← ho] at e2
      exact ⟨_, e2, a4 hcp⟩

/-- C27: after a `fit` on a fresh object the list of best qualities holds, in ascending order, the `min k n` greatest of the
qualities of the `n` descriptions visited. -/
theorem C27_fit (cfg : SDMapStarConfig) (h0 : 0 < cfg.num) (df : Frame) (target : Str × Str) (hf : NominalFrame df target)
    (hk : KeysFaithful df target) (st st' : StarState) (hks : st.ks = []) (hvs : st.visits = []) (h : cfg.fit st df target = .ok st') :
    ∃ qs : List Rat, st'.visits.map (fun v => cfg.measure (paramsFor v.2.1 v.2.2 (tpOf df target []) (fpOf df target []) cfg.extraOE)) = qs.map .ok ∧
      st'.ks.Pairwise (· ≤ ·) ∧ st'.ks.length = min cfg.num qs.length ∧
      ∃ rest, qs.Perm (rest ++ st'.ks) ∧ ∀ a ∈ rest, ∀ b ∈ st'.ks, a ≤ b := by
  obtain ⟨us, h1, _⟩ := star_fit h0 hf hk h
  rcases h1 with ⟨_, rfl⟩ | h1
  · rw [hks, hvs]; exact ⟨[], rfl, by simp, by simp, [], by simp, by simp⟩
  · obtain ⟨qs, a1, a2⟩ := h1.best (seen := []) (by simp only; rw [hks]; exact ⟨by simp, by simp, [], by simp, by simp⟩)
    refine ⟨qs, ?_, a2.sorted, by simpa using a2.length, by simpa using a2.rest⟩
    rw [h1.base.2.1]
    simp only [hvs, List.nil_append, List.map_map]
    exact a1

/-! ## C28 -/

theorem star_calls {cfg : SDMapStarConfig} {target : Str × Str} {TP FP : Nat} {st st' : StarState} {us : List (Emission Selector × Bool)}
    (h : (us = [] ∧ st' = st) ∨ cfg.Steps target TP FP { st with base := { st.base with file := [] } } us st') :
    st'.base.calls = st.base.calls ++ (us.filter (fun v => v.2)).map (fun v => (Pattern.new v.1.1, v.1.2)) := by
  rcases h with ⟨rfl, rfl⟩ | h
  · simp
  · exact (foldlM_handle _ _ _ h.base.1).1

/-- C28, part that holds in every case: what SDMapStar reports with top-k is a sorted description that covers some row, no description
is reported twice, the reported tp and fp are never greater than the exact ones, and they meet the thresholds.
Missing: the counts can be too small (`C28_wrong_counts`) and subgroups can be lost (`C28_loses_the_best`). -/
theorem C28_sound_partial (cfg : SDMapStarConfig) (h0 : 0 < cfg.num) (df : Frame) (target : Str × Str) (hf : NominalFrame df target)
    (hk : KeysFaithful df target) (st st' : StarState) (h : cfg.fit st df target = .ok st') :
    ∃ calls, st'.base.calls = st.base.calls ++ calls ∧ (calls.map (·.1)).Nodup ∧
      ∀ r ∈ calls, Reportable cfg.th df target r.1.sels ∧ r.2.1 ≤ tpOf df target r.1.sels ∧ r.2.2 ≤ fpOf df target r.1.sels ∧
        Frequent cfg.th r.2.1 r.2.2 := by
  obtain ⟨us, h1, h2, h3, _⟩ := star_fit h0 hf hk h
  refine ⟨_, star_calls h1, ?_, ?_⟩
  · rw [List.map_map, List.Nodup, List.pairwise_map]
    have h3' : (us.filter (fun v => v.2)).Pairwise (fun u v => ¬ ∀ x, x ∈ u.1.1 ↔ x ∈ v.1.1) :=
      (List.pairwise_map.1 h3).sublist List.filter_sublist
    refine h3'.imp_of_mem ?_
    intro e f he hf' hd hh
    apply hd
    intro x
    have ne := (new_text (textEq_of_describes (h2 e (List.mem_filter.1 he).1).1)).2 x
    have nf := (new_text (textEq_of_describes (h2 f (List.mem_filter.1 hf').1).1)).2 x
    simp only [Function.comp_apply] at hh
    rw [← ne, ← nf, hh]
  · intro r hr
    obtain ⟨u, hu, rfl⟩ := List.mem_map.1 hr
    obtain ⟨a1, a2, a3, a4, a5⟩ := h2 u (List.mem_filter.1 hu).1
    obtain ⟨n1, n2⟩ := new_text (textEq_of_describes a1)
    obtain ⟨b1, b2⟩ := Prod.le_def.1 a4
    simp only at b1 b2 ⊢
    have e1 := tpOf_congr (df := df) (target := target) n2
    have e2 := fpOf_congr (df := df) (target := target) n2
    rw [e1, e2]
    refine ⟨⟨⟨?_, fun s hs => a1.2 s ((n2 s).1 hs)⟩, ?_, ?_, ?_⟩, b1, b2, a5⟩
    · intro hn
      obtain ⟨x, l, hxl⟩ := List.exists_cons_of_ne_nil a1.1
      have := (n2 x).2 (by rw [hxl]; simp)
      rw [hn] at this; simp at this
    · exact (sorted_iff_lt (fun s hs => textEq_of_describes a1 s ((n2 s).1 hs))).2 n1
    · obtain ⟨i, hi, hc⟩ := a3
      exact ⟨i, hi, (covers_congr n2 i).2 hc⟩
    · rw [e1, e2]
      exact frequent_mono b1 b2 a5

/-- C28, with the observable counter `conditional_pruned_branches` unchanged by `fit`: with a valid optimistic estimate, everything reported
carries its exact tp and fp, no description twice, and a frequent description that is not reported is beaten, strictly, by `k` reported
descriptions.
Missing: runs in which a branch of a conditional tree is pruned, for which the claim is false (`C28_wrong_counts`, `C28_loses_the_best`). -/
theorem C28_unpruned_partial (cfg : SDMapStarConfig) (h0 : 0 < cfg.num) (df : Frame) (target : Str × Str) (hf : NominalFrame df target)
    (hk : KeysFaithful df target) (hval : ValidEstimate cfg (tpOf df target []) (fpOf df target []))
    (st st' : StarState) (hks : st.ks = []) (h : cfg.fit st df target = .ok st') (hcp : st'.condPruned = st.condPruned) :
    ∃ calls, st'.base.calls = st.base.calls ++ calls ∧ (calls.map (·.1)).Nodup ∧
      (∀ r ∈ calls, Reportable cfg.th df target r.1.sels ∧ r.2 = (tpOf df target r.1.sels, fpOf df target r.1.sels)) ∧
      ∀ X, Reportable cfg.th df target X → (∃ r ∈ calls, r.1.sels = X) ∨
        ∀ q, starQuality cfg df target X = .ok q →
          ∃ best : List (Pattern × Cnt), best.Sublist calls ∧ best.length = cfg.num ∧
            ∀ r ∈ best, ∃ q', starQuality cfg df target r.1.sels = .ok q' ∧ q < q' := by
  obtain ⟨us, h1, h2, h3, _, h5⟩ := star_fit h0 hf hk h
  obtain ⟨calls', hc1, hc2, hc3⟩ := C28_sound_partial cfg h0 df target hf hk st st' h
  have hcalls : calls' = (us.filter (fun v => v.2)).map (fun v => (Pattern.new v.1.1, v.1.2)) := by
    have := star_calls h1
    rw [hc1] at this
    exact List.append_cancel_left this
  obtain ⟨F, hF, hsub, hacc⟩ := h5 hcp
  -- counts are exact
  have hex : ∀ u ∈ us, u.1.2 = (tpOf df target u.1.1, fpOf df target u.1.1) := by
    intro u hu
    exact (hF.sound u.1 (hsub.subset (List.mem_map_of_mem hu))).2.2.2.1
  have hnew : ∀ u ∈ us, tpOf df target (Pattern.new u.1.1).sels = tpOf df target u.1.1 ∧
      fpOf df target (Pattern.new u.1.1).sels = fpOf df target u.1.1 := by
    intro u hu
    have n2 := (new_text (textEq_of_describes (h2 u hu).1)).2
    exact ⟨tpOf_congr n2, fpOf_congr n2⟩
  refine ⟨calls', hc1, hc2, ?_, ?_⟩
  · intro r hr
    refine ⟨(hc3 r hr).1, ?_⟩
    rw [hcalls] at hr
    obtain ⟨u, hu, rfl⟩ := List.mem_map.1 hr
    have hu' := (List.mem_filter.1 hu).1
    simp only
    rw [hex u hu', (hnew u hu').1, (hnew u hu').2]
  · rintro X ⟨x1, x2, x3, x4⟩
    obtain ⟨e, he, hx⟩ := hF.complete X x1 x3 x4
    rcases hacc e he with hh | ⟨v, hv, hvx⟩
    · left
      refine ⟨(Pattern.new e.1, e.2), ?_, ?_⟩
      · rw [hcalls]
        exact List.mem_map.2 ⟨(e, true), List.mem_filter.2 ⟨hh, rfl⟩, rfl⟩
      · have ht : ∀ s ∈ e.1, TextEq s := fun s hs => textEq_of_describes x1 s ((hx s).1 hs)
        obtain ⟨n1, n2⟩ := new_text ht
        exact sorted_ext n1 ((sorted_iff_lt (textEq_of_describes x1)).1 x2) (fun s hs => ht s ((n2 s).1 hs))
          (fun s => (n2 s).trans (hx s))
    · right
      intro q hq
      rcases h1 with ⟨rfl, _⟩ | h1
      · simp at hv
      have hle : ∀ Y, (tpOf df target Y, fpOf df target Y) ≤ (tpOf df target [], fpOf df target []) := fun Y =>
        Prod.le_def.2 ⟨tpOf_mono (by simp), fpOf_mono (by simp)⟩
      have hpos : ∀ Y, OccursIn df Y → 0 < tpOf df target Y + fpOf df target Y := by
        rintro Y ⟨i, hi, hc⟩
        by_cases hm : MatchesAt df (targetSel target) i
        · have : 0 < tpOf df target Y := by
            unfold tpOf
            apply List.length_pos_of_mem (a := i)
            rw [List.mem_filter]
            exact ⟨List.mem_range.2 hi, by simp [hc, hm]⟩
          omega
        · have : 0 < fpOf df target Y := by
            unfold fpOf
            apply List.length_pos_of_mem (a := i)
            rw [List.mem_filter]
            exact ⟨List.mem_range.2 hi, by simp [hc, hm]⟩
          omega
      have hgood : ∀ u ∈ us, u.1.2 ≤ (tpOf df target [], fpOf df target []) ∧ 0 < u.1.2.1 + u.1.2.2 := by
        intro u hu
        rw [hex u hu]
        exact ⟨hle _, hpos _ (h2 u hu).2.2.1⟩
      have hbound : cfg.Bound (tpOf df target []) (fpOf df target []) := by
        intro c c' g1 g2 g3 q o g4 g5
        exact hval c.1 c.2 c'.1 c'.2 g1.1 g1.2 g2.1 g2.2 g3 q o g4 g5
      have hb0 : SDMapStarConfig.BestOf cfg.num [] ({ st with base := { st.base with file := [] } } : StarState).ks := by
        simp only; rw [hks]; exact ⟨by simp, by simp, [], by simp, by simp⟩
      obtain ⟨o, m, p1, p2, p3, p4⟩ := h1.prunedBound hbound hgood hb0 (P := []) (by simp) v (Or.inr hv)
      -- the quality of X is below the smallest of the best qualities
      have hqm : q < m := by
        refine lt_of_le_of_lt ?_ p4
        have hvu := hex _ hv
        simp only at hvu
        have hmono : ∀ s ∈ v.1, s ∈ X := fun s hs => (hx s).1 (hvx s hs)
        refine hbound v.2 (tpOf df target X, fpOf df target X) (hgood _ hv).1 ?_ (hpos X x3) q o hq p1
        rw [hvu]
        exact Prod.le_def.2 ⟨tpOf_mono hmono, fpOf_mono hmono⟩
      obtain ⟨qs, b1, b2⟩ := h1.best hb0
      simp only [List.nil_append] at b2
      obtain ⟨rest, r1, r2⟩ := b2.rest
      -- the qualities above m all come from handled descriptions
      let Q : Emission Selector × Bool → Rat := fun u => match cfg.kQuality (tpOf df target []) (fpOf df target []) u.1.2 with | .ok q => q | .error _ => 0
      have hQ : us.map Q = qs := by
        have hlen : us.length = qs.length := by have := congrArg List.length b1; simpa using this
        apply List.ext_getElem (by simpa using hlen)
        intro i hi hi'
        have hi2 : i < us.length := by simpa using hi
        have := congrArg (fun l => l[i]?) b1
        simp only [List.getElem?_map, List.getElem?_eq_getElem hi2, List.getElem?_eq_getElem hi', Option.map_some, Option.some.injEq] at this
        rw [List.getElem_map]
        show (match cfg.kQuality _ _ (us[i]).1.2 with | .ok q => q | .error _ => 0) = _
        rw [this]
      have hQk : ∀ u ∈ us, cfg.kQuality (tpOf df target []) (fpOf df target []) u.1.2 = .ok (Q u) := by
        intro u hu
        have : cfg.kQuality (tpOf df target []) (fpOf df target []) u.1.2 ∈ qs.map Except.ok := by
          rw [← b1]; exact List.mem_map_of_mem hu
        obtain ⟨x, _, hx⟩ := List.mem_map.1 this
        show _ = Except.ok (match cfg.kQuality _ _ u.1.2 with | .ok q => q | .error _ => 0)
        rw [← hx]
      have hun : ∀ u ∈ us, u.2 = false → Q u < m := by
        intro u hu hu2
        have hu' : (u.1, false) ∈ us := by rw [← hu2]; exact hu
        obtain ⟨o', m', p1', p2', _, p4'⟩ := h1.prunedBound hbound hgood hb0 (P := []) (by simp) u.1 (Or.inr hu')
        have : m' = m := Option.some.inj (p2'.symm.trans p2)
        rw [this] at p4'
        exact lt_of_le_of_lt (hbound _ _ (hgood u hu).1 (le_refl _) (hgood u hu).2 _ _ (hQk u hu) p1') p4'
      have hksge : ∀ b ∈ st'.ks, m ≤ b := by
        intro b hb
        have hs := b2.sorted
        cases hkl : st'.ks with
        | nil => rw [hkl] at hb; simp at hb
        | cons y l =>
          rw [hkl] at hb hs p2
          simp at p2
          rw [← p2]
          rcases List.mem_cons.1 hb with rfl | hb
          · exact le_refl _
          · exact (List.pairwise_cons.1 hs).1 b hb
      have hcount : cfg.num ≤ (us.filter (fun u => decide (m ≤ Q u))).length := by
        have e1 : (us.filter (fun u => decide (m ≤ Q u))).length = (qs.filter (fun q => decide (m ≤ q))).length := by
          rw [← hQ, List.filter_map, List.length_map]
          rfl
        rw [e1, (r1.filter _).length_eq, List.filter_append, List.length_append]
        have e2 : (st'.ks.filter (fun q => decide (m ≤ q))) = st'.ks := by
          rw [List.filter_eq_self]
          intro b hb
          simpa using hksge b hb
        rw [e2, p3]
        omega
      have hall : us.filter (fun u => decide (m ≤ Q u)) = (us.filter (fun v => v.2)).filter (fun u => decide (m ≤ Q u)) := by
        rw [List.filter_filter]
        apply List.filter_congr
        intro u hu
        cases hu2 : u.2 with
        | true => simp
        | false => simp only [Bool.and_false]; exact decide_eq_false (not_le.2 (hun u hu hu2))
      rw [hall] at hcount
      refine ⟨(((us.filter (fun v => v.2)).filter (fun u => decide (m ≤ Q u))).take cfg.num).map (fun v => (Pattern.new v.1.1, v.1.2)), ?_, ?_, ?_⟩
      · rw [hcalls]
        exact ((List.take_sublist _ _).trans List.filter_sublist).map _
      · rw [List.length_map, List.length_take]
        omega
      · intro r hr
        obtain ⟨u, hu, rfl⟩ := List.mem_map.1 hr
        have hu1 := List.mem_filter.1 (List.mem_of_mem_take hu)
        have hu2 := (List.mem_filter.1 hu1.1).1
        refine ⟨Q u, ?_, lt_of_lt_of_le hqm (by simpa using hu1.2)⟩
        unfold starQuality
        simp only
        rw [(hnew u hu2).1, (hnew u hu2).2]
        have := hQk u hu2
        rw [hex u hu2] at this
        exact this

/-- C28: the estimates of the library meet the hypothesis of the theorem above (without additional parameters). -/
theorem C28_valid_estimates (TP FP : Nat) (cfg : SDMapStarConfig) (hx : cfg.extraOE = []) :
    (cfg.measure = Quality.wracc → cfg.estimate = Quality.wraccOE1 → ValidEstimate cfg TP FP) ∧
    (cfg.measure = Quality.piatetskyShapiro → cfg.estimate = Quality.psOE1 → ValidEstimate cfg TP FP) ∧
    (cfg.measure = Quality.piatetskyShapiro → cfg.estimate = Quality.psOE2 → ValidEstimate cfg TP FP) := by
  have hp : ∀ tp fp : Nat, paramsFor tp fp TP FP [] = counts tp fp TP FP := fun _ _ => rfl
  refine ⟨?_, ?_, ?_⟩ <;> intro h1 h2 tp fp tp' fp' a1 a2 a3 a4 a5 q o b1 b2 <;> rw [hx, hp] at b1 b2 <;>
    obtain ⟨⟨q0, o1, o2, c1, c2, c3, c4, c5⟩, ⟨q3, o3, d1, d2, d3⟩⟩ := C16_bound tp fp TP FP tp' fp' a1 a2 a3 a4 a5
  · rw [h1] at b1; rw [h2] at b2
    have e1 : q3 = q := Except.ok.inj (d1.symm.trans b1)
    have e2 : o3 = o := Except.ok.inj (d2.symm.trans b2)
    rw [← e1, ← e2]; exact d3
  · rw [h1] at b1; rw [h2] at b2
    have e1 : q0 = q := Except.ok.inj (c1.symm.trans b1)
    have e2 : o1 = o := Except.ok.inj (c2.symm.trans b2)
    rw [← e1, ← e2]; exact le_trans c4 c5
  · rw [h1] at b1; rw [h2] at b2
    have e1 : q0 = q := Except.ok.inj (c1.symm.trans b1)
    have e2 : o2 = o := Except.ok.inj (c3.symm.trans b2)
    rw [← e1, ← e2]; exact c4

end
/-! ## witnesses -/

/-- seven rows with three attributes; the conjunction `a = 'q' and b = 'q'` covers exactly the positive rows -/
def Spec.lossFrame : Frame :=
  ⟨7, [(c!"a", [.str c!"q", .str c!"q", .str c!"q", .str c!"p", .str c!"p", .str c!"p", .str c!"p"]),
    (c!"b", [.str c!"q", .str c!"q", .str c!"p", .str c!"q", .str c!"q", .str c!"q", .str c!"q"]),
    (c!"c", [.str c!"p", .str c!"q", .str c!"p", .str c!"p", .str c!"q", .str c!"p", .str c!"q"]),
    (c!"t", [.str c!"y", .str c!"y", .str c!"n", .str c!"n", .str c!"n", .str c!"n", .str c!"n"])]⟩

/-- three rows with three attributes -/
def Spec.countFrame : Frame :=
  ⟨3, [(c!"a", [.str c!"q", .str c!"q", .str c!"q"]), (c!"b", [.str c!"p", .str c!"q", .str c!"q"]),
    (c!"c", [.str c!"p", .str c!"q", .str c!"p"]), (c!"t", [.str c!"y", .str c!"y", .str c!"n"])]⟩

theorem lossFrame_ok : NominalFrame lossFrame (c!"t", c!"y") ∧ KeysFaithful lossFrame (c!"t", c!"y") := by
  have h : NominalFrame lossFrame (c!"t", c!"y") := by
    refine ⟨?_, by decide +kernel, ?_, by decide +kernel⟩
    · intro c hc; simp [lossFrame] at hc; rcases hc with rfl | rfl | rfl | rfl <;> rfl
    · intro c hc; simp [lossFrame] at hc
      rcases hc with rfl | rfl | rfl | rfl <;> simp
  refine ⟨h, keysFaithful_of_no_quotes h ?_⟩
  intro c hc; simp [lossFrame] at hc
  rcases hc with rfl | rfl | rfl | rfl <;> decide +kernel

theorem countFrame_ok : NominalFrame countFrame (c!"t", c!"y") ∧ KeysFaithful countFrame (c!"t", c!"y") := by
  have h : NominalFrame countFrame (c!"t", c!"y") := by
    refine ⟨?_, by decide +kernel, ?_, by decide +kernel⟩
    · intro c hc; simp [countFrame] at hc; rcases hc with rfl | rfl | rfl | rfl <;> rfl
    · intro c hc; simp [countFrame] at hc
      rcases hc with rfl | rfl | rfl | rfl <;> simp
  refine ⟨h, keysFaithful_of_no_quotes h ?_⟩
  intro c hc; simp [countFrame] at hc
  rcases hc with rfl | rfl | rfl | rfl <;> decide +kernel

/-- a fresh `SDMapStar(measure, estimate, num_subgroups = 1, minimum quality -1, minimum_tp = 0, minimum_fp = 0)` -/
def Spec.starCfg (m e : Params → Except PyErr Rat) : SDMapStarConfig :=
  { measure := m, minQuality := -1, th := .tpFp 0 0, extra := [], estimate := e, extraOE := [], num := 1 }

def Spec.freshStar : StarState := ⟨⟨0, 0, [], []⟩, [], 0, 0, []⟩

/-- observable part of a run -/
def Spec.starRun (cfg : SDMapStarConfig) (df : Frame) : Option (List (List Selector × Cnt) × Nat) :=
  match cfg.fit freshStar df (c!"t", c!"y") with
  | .ok st => some (st.base.calls.map (fun r => (r.1.sels, r.2)), st.condPruned)
  | .error _ => none

def Spec.sdRun (cfg : SDMapStarConfig) (df : Frame) : Option (List (List Selector × Cnt)) :=
  match cfg.toSDMapConfig.fit ⟨0, 0, [], []⟩ df (c!"t", c!"y") with
  | .ok st => some (st.calls.map (fun r => (r.1.sels, r.2)))
  | .error _ => none

def eqSel (a v : Str) : Selector := ⟨a, .equal, .str v⟩

theorem sdRun_exact {cfg : SDMapStarConfig} {df : Frame} (hf : NominalFrame df (c!"t", c!"y")) (hk : KeysFaithful df (c!"t", c!"y"))
    {L : List (List Selector × Cnt)} (h : sdRun cfg df = some L) :
    (∀ r ∈ L, Reportable cfg.th df (c!"t", c!"y") r.1 ∧ r.2 = (tpOf df (c!"t", c!"y") r.1, fpOf df (c!"t", c!"y") r.1)) ∧
    ∀ X, Reportable cfg.th df (c!"t", c!"y") X → ∃ r ∈ L, r.1 = X := by
  unfold sdRun at h
  split at h
  · rename_i st hst
    cases h
    obtain ⟨calls, h1, h2, _⟩ := fit_spec hf hk hst
    simp only [List.nil_append] at h2
    rw [h2]
    constructor
    · intro r hr
      obtain ⟨c, hc, rfl⟩ := List.mem_map.1 hr
      exact h1.sound c hc
    · intro X hX
      obtain ⟨c, hc, rfl⟩ := h1.complete X hX
      exact ⟨_, List.mem_map.2 ⟨c, hc, rfl⟩, rfl⟩
  · cases h

/-- C28 fails: with a valid estimate SDMapStar can report too few false positives (here 0 instead of 1), hence a wrong quality. -/
theorem C28_wrong_counts : ∃ (cfg : SDMapStarConfig) (df : Frame) (target : Str × Str) (st' : StarState),
    NominalFrame df target ∧ KeysFaithful df target ∧ 0 < cfg.num ∧ ValidEstimate cfg (tpOf df target []) (fpOf df target []) ∧
    cfg.fit freshStar df target = .ok st' ∧ ∃ r ∈ st'.base.calls, r.2 = (1, 0) ∧ tpOf df target r.1.sels = 1 ∧ fpOf df target r.1.sels = 1 := by
  obtain ⟨hf, hk⟩ := countFrame_ok
  have hrun : (starRun (starCfg Quality.wracc Quality.wraccOE1) countFrame).map
      (fun r => decide (([eqSel c!"a" c!"q", eqSel c!"c" c!"p"], (1, 0)) ∈ r.1)) = some true := by decide +kernel
  have hsd : (sdRun (starCfg Quality.wracc Quality.wraccOE1) countFrame).map
      (fun r => decide (([eqSel c!"a" c!"q", eqSel c!"c" c!"p"], (1, 1)) ∈ r)) = some true := by decide +kernel
  obtain ⟨L, hL, hmem⟩ := Option.map_eq_some_iff.1 hsd
  have hex := (sdRun_exact hf hk hL).1 _ (of_decide_eq_true hmem)
  unfold starRun at hrun
  split at hrun
  · rename_i st hst
    simp only [Option.map_some, Option.some.injEq, decide_eq_true_eq] at hrun
    obtain ⟨r, hr, he⟩ := List.mem_map.1 hrun
    have he1 : r.1.sels = [eqSel c!"a" c!"q", eqSel c!"c" c!"p"] := (Prod.ext_iff.1 he).1
    refine ⟨starCfg Quality.wracc Quality.wraccOE1, countFrame, (c!"t", c!"y"), st, hf, hk, by decide,
      (C28_valid_estimates _ _ _ rfl).1 rfl rfl, hst, r, hr, (Prod.ext_iff.1 he).2, ?_, ?_⟩
    · rw [he1]; exact (Prod.ext_iff.1 hex.2).1.symm
    · rw [he1]; exact (Prod.ext_iff.1 hex.2).2.symm
  · simp at hrun

/-- C28 fails: with a valid estimate and `num_subgroups = 1`, the frequent description with the strictly greatest quality may be lost. -/
theorem C28_loses_the_best : ∃ (cfg : SDMapStarConfig) (df : Frame) (target : Str × Str) (st' : StarState) (X : List Selector) (q : Rat),
    NominalFrame df target ∧ KeysFaithful df target ∧ cfg.num = 1 ∧ ValidEstimate cfg (tpOf df target []) (fpOf df target []) ∧
    cfg.fit freshStar df target = .ok st' ∧ Reportable cfg.th df target X ∧ starQuality cfg df target X = .ok q ∧ cfg.minQuality ≤ q ∧
    (∀ Y, Reportable cfg.th df target Y → Y ≠ X → ∃ q', starQuality cfg df target Y = .ok q' ∧ q' < q) ∧
    ∀ r ∈ st'.base.calls, r.1.sels ≠ X := by
  obtain ⟨hf, hk⟩ := lossFrame_ok
  have hrun : (starRun (starCfg Quality.piatetskyShapiro Quality.psOE2) lossFrame).map
      (fun r => decide ([eqSel c!"a" c!"q", eqSel c!"b" c!"q"] ∉ r.1.map (·.1))) = some true := by decide +kernel
  have hsd : (sdRun (starCfg Quality.piatetskyShapiro Quality.psOE2) lossFrame).map
      (fun r => decide (([eqSel c!"a" c!"q", eqSel c!"b" c!"q"], (2, 0)) ∈ r ∧ ([], (0, 0)) ∉ r ∧
        ∀ e ∈ r, e.1 ≠ [eqSel c!"a" c!"q", eqSel c!"b" c!"q"] →
          (match Quality.piatetskyShapiro (paramsFor e.2.1 e.2.2 2 5 []) with
          | .ok q => decide (q < 10/7) | .error _ => false) = true)) = some true := by decide +kernel
  obtain ⟨L, hL, hmem⟩ := Option.map_eq_some_iff.1 hsd
  obtain ⟨hm1, _, hm2⟩ := of_decide_eq_true hmem
  obtain ⟨hs, hc⟩ := sdRun_exact hf hk hL
  have hex := hs _ hm1
  have hT : tpOf lossFrame (c!"t", c!"y") [] = 2 ∧ fpOf lossFrame (c!"t", c!"y") [] = 5 := by
    obtain ⟨mask, h1, hl, hm⟩ := targetMask_ok hf
    obtain ⟨h2, h3⟩ := count_true_mask hf hl hm
    have : targetMask lossFrame (c!"t", c!"y") = .ok [true, true, false, false, false, false, false] := by decide +kernel
    rw [this] at h1
    cases h1
    rw [← h2, ← h3]
    decide
  have hq : ∀ e ∈ L, starQuality (starCfg Quality.piatetskyShapiro Quality.psOE2) lossFrame (c!"t", c!"y") e.1 =
      Quality.piatetskyShapiro (paramsFor e.2.1 e.2.2 2 5 []) := by
    intro e he
    unfold starQuality
    rw [hT.1, hT.2, (hs e he).2]
    rfl
  unfold starRun at hrun
  split at hrun
  · rename_i st hst
    simp only [Option.map_some, Option.some.injEq, decide_eq_true_eq] at hrun
    refine ⟨starCfg Quality.piatetskyShapiro Quality.psOE2, lossFrame, (c!"t", c!"y"), st, _, 10/7, hf, hk, rfl,
      (C28_valid_estimates _ _ _ rfl).2.2 rfl rfl, hst, hex.1, ?_, by decide +kernel, ?_, ?_⟩
    · rw [hq _ hm1]; decide +kernel
    · intro Y hY hne
      obtain ⟨e, he, rfl⟩ := hc Y hY
      have := hm2 e he hne
      rw [hq e he]
      split at this
      · rename_i q hq'
        exact ⟨q, hq', of_decide_eq_true this⟩
      · cases this
    · intro r hr hx
      apply hrun
      rw [List.mem_map]
      exact ⟨_, List.mem_map.2 ⟨r, hr, rfl⟩, hx⟩
  · simp at hrun

/-- a run in which nothing is pruned in the conditional trees: the hypotheses of `C28_unpruned_partial` are met -/
example : NominalFrame demoFrame (c!"t", c!"yes") ∧ (match (starCfg Quality.wracc Quality.wraccOE1).fit freshStar demoFrame (c!"t", c!"yes") with
    | .ok st => some (st.base.calls.map (fun r => r.2), st.condPruned, st.ks)
    | .error _ => none) = some ([(2, 1), (1, 1), (1, 0), (1, 0), (1, 2)], 0, [1/8]) := by
  refine ⟨?_, by decide +kernel⟩
  refine ⟨?_, by decide +kernel, ?_, by decide +kernel⟩
  · intro c hc; simp [demoFrame] at hc; rcases hc with rfl | rfl | rfl <;> rfl
  · intro c hc; simp [demoFrame] at hc
    rcases hc with rfl | rfl | rfl <;> simp

example : [(3 : Rat), 1, 2, 5].foldlM (SDMapStarConfig.pushK 2) [] = .ok [3, 5] := by decide +kernel

end Verif
