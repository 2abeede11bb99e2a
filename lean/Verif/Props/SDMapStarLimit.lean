import Verif.Props.SDMapStar
import Verif.Lemmas.FPHeap
import Verif.Lemmas.VLSD
/-! Property C28: what still holds for `SDMapStar` with `num_subgroups > 0` (descriptions with one selector), and what does not
even with a number of subgroups that is never reached. -/
namespace Verif
open Spec
namespace SDMapStarConfig
variable {cfg : SDMapStarConfig} {target : Str × Str} {TP FP : Nat}

theorem visit_visits {st : StarState} {X : List Selector} {c : Cnt} {r : StarState × Bool} (h : cfg.visit target TP FP st X c = .ok r) :
    r.1.visits = st.visits ++ [(X, c)] := by
  obtain ⟨_, _, _, _, _, _, _, _, h5, _⟩ := visit_cases (b := r.2) (st1 := r.1) h
  exact h5

theorem visitAll_visits (alpha : List Selector) (t : FPTree Selector) (L : List (List Selector)) (st st' : StarState)
    (h : L.foldlM (fun st beta => do
        let r ← cfg.visit target TP FP st (beta ++ alpha) (t.leastFrequentCnt beta)
        return r.1) st = .ok st') :
    st'.visits = st.visits ++ L.map (fun beta => (beta ++ alpha, t.leastFrequentCnt beta)) := by
  induction L generalizing st with
  | nil => simp only [List.foldlM_nil] at h; cases h; simp
  | cons beta L ih =>
    rw [List.foldlM_cons] at h
    cases hv : cfg.visit target TP FP st (beta ++ alpha) (t.leastFrequentCnt beta) with
    | error e => rw [hv] at h; cases h
    | ok r =>
      rw [hv] at h
      rw [ih r.1 h, visit_visits hv]
      simp

/-- one turn of the loop over the header table -/
def turn (cfg : SDMapStarConfig) (target : Str × Str) (TP FP fuel : Nat) (t : FPTree Selector) (alpha : List Selector) (st : StarState) (a : Selector) :
    Except PyErr StarState := do
  let r ← cfg.visit target TP FP st (a :: alpha) ((t.header.lookup a).getD (0, 0))
  if r.2 then do
    let c ← cfg.condTreeStar TP FP (r.1.ks.headD 0) t a
    let st := { r.1 with condPruned := r.1.condPruned + c.2 }
    if !c.1.isEmpty then cfg.fpgrowthStar target TP FP fuel st c.1 (a :: alpha) else .ok st
  else .ok r.1

/-- below `alpha` only longer descriptions are visited -/
theorem deep_visits (fuel : Nat) (st : StarState) (t : FPTree Selector) (alpha : List Selector) (st' : StarState)
    (h : cfg.fpgrowthStar target TP FP fuel st t alpha = .ok st') :
    ∃ vs, st'.visits = st.visits ++ vs ∧ ∀ v ∈ vs, alpha.length < v.1.length := by
  induction fuel generalizing st t alpha st' with
  | zero => simp only [fpgrowthStar] at h; cases h; exact ⟨[], by simp, by simp⟩
  | succ fuel ih =>
    unfold fpgrowthStar at h
    by_cases hs : t.singlePath = true
    · rw [if_pos hs] at h
      refine ⟨_, visitAll_visits _ _ _ _ _ h, ?_⟩
      intro v hv
      obtain ⟨b, hb, rfl⟩ := List.mem_map.1 hv
      have := (FPHeap.combinations_erase hb).1
      have := List.length_pos_iff.2 this
      simp only [List.length_append]
      omega
    · rw [if_neg hs] at h
      cases hord : cfg.oeOrder TP FP t with
      | error e => rw [hord] at h; cases h
      | ok order =>
        rw [hord] at h
        have h' : order.foldlM (cfg.turn target TP FP fuel t alpha) st = .ok st' := h
        clear h hord
        induction order generalizing st with
        | nil => simp only [List.foldlM_nil] at h'; cases h'; exact ⟨[], by simp, by simp⟩
        | cons a l ihl =>
          rw [List.foldlM_cons] at h'
          cases hb : cfg.turn target TP FP fuel t alpha st a with
          | error e => rw [hb] at h'; cases h'
          | ok s1 =>
            rw [hb] at h'
            obtain ⟨ws, w1, w2⟩ := ihl s1 h'
            have : ∃ vs, s1.visits = st.visits ++ vs ∧ ∀ v ∈ vs, alpha.length < v.1.length := by
              unfold turn at hb
              cases hv : cfg.visit target TP FP st (a :: alpha) ((t.header.lookup a).getD (0, 0)) with
              | error e => rw [hv] at hb; cases hb
              | ok r =>
                rw [hv] at hb
                have hvv := visit_visits hv
                simp only [bind, Except.bind] at hb
                split at hb
                · cases hc : cfg.condTreeStar TP FP (r.1.ks.headD 0) t a with
                  | error e => rw [hc] at hb; cases hb
                  | ok c =>
                    rw [hc] at hb
                    simp only at hb
                    split at hb
                    · obtain ⟨vs, v1, v2⟩ := ih _ _ _ _ hb
                      refine ⟨(a :: alpha, (t.header.lookup a).getD (0, 0)) :: vs, by rw [v1]; simp only; rw [hvv]; simp, ?_⟩
                      intro v hv
                      rcases List.mem_cons.1 hv with rfl | hv
                      · simp
                      · have := v2 v hv
                        simp only [List.length_cons] at this
                        omega
                    · cases hb
                      exact ⟨_, hvv, by simp⟩
                · cases hb
                  exact ⟨_, hvv, by simp⟩
            obtain ⟨vs, v1, v2⟩ := this
            refine ⟨vs ++ ws, by rw [w1, v1]; simp, ?_⟩
            intro v hv
            rcases List.mem_append.1 hv with hv | hv
            · exact v2 v hv
            · exact w2 v hv

/-- one turn visits the description itself and then longer ones -/
theorem turn_visits {fuel : Nat} {t : FPTree Selector} {alpha : List Selector} {st s1 : StarState} {a : Selector}
    (hb : cfg.turn target TP FP fuel t alpha st a = .ok s1) :
    ∃ vs, s1.visits = st.visits ++ (a :: alpha, (t.header.lookup a).getD (0, 0)) :: vs ∧ ∀ v ∈ vs, alpha.length + 1 < v.1.length := by
  unfold turn at hb
  cases hv : cfg.visit target TP FP st (a :: alpha) ((t.header.lookup a).getD (0, 0)) with
  | error e => rw [hv] at hb; cases hb
  | ok r =>
    rw [hv] at hb
    have hvv := visit_visits hv
    simp only [bind, Except.bind] at hb
    split at hb
    · cases hc : cfg.condTreeStar TP FP (r.1.ks.headD 0) t a with
      | error e => rw [hc] at hb; cases hb
      | ok c =>
        rw [hc] at hb
        simp only at hb
        split at hb
        · obtain ⟨vs, v1, v2⟩ := deep_visits _ _ _ _ _ hb
          refine ⟨vs, by rw [v1]; simp only; rw [hvv]; simp, ?_⟩
          intro v hv
          have := v2 v hv
          simpa using this
        · cases hb
          exact ⟨[], hvv, by simp⟩
    · cases hb
      exact ⟨[], hvv, by simp⟩

/-- the descriptions with one selector that the search visits are all those of the tree, with their exact counts -/
theorem single_visits {S : Selector → Prop} {R : Selector → Selector → Prop} {D : FPTree.DB Selector} (fuel : Nat) (st : StarState)
    (t : FPTree Selector) (st' : StarState) (g : FPTree.Good S cfg.th R t D)
    (h : cfg.fpgrowthStar target TP FP (fuel + 1) st t [] = .ok st') :
    ∃ vs, st'.visits = st.visits ++ vs ∧ (∀ v ∈ vs, v.1.length = 1 → v.2 = FPTree.supp D v.1 ∧ ∃ r ∈ D, ∀ x ∈ v.1, x ∈ r.1) ∧
      ∀ s, (∃ r ∈ D, s ∈ r.1) → ([s], FPTree.supp D [s]) ∈ vs := by
  unfold fpgrowthStar at h
  by_cases hs : t.singlePath = true
  · rw [if_pos hs] at h
    have hE := FPTree.singlePath_exact g hs
    have hres : t.singlePathResults [] = ((allCombinations t.sorted).erase []).map (fun beta => (beta ++ [], t.leastFrequentCnt beta)) := by
      simp [FPTree.singlePathResults]
    refine ⟨_, visitAll_visits _ _ _ _ _ h, ?_, ?_⟩
    · intro v hv _
      rw [← hres] at hv
      exact ⟨(hE.sound v hv).2.2.2.1, (hE.sound v hv).2.2.1⟩
    · intro s hsD
      rw [← hres]
      have hfr := g.freq s hsD
      obtain ⟨e, he, hx⟩ := hE.complete [s] (by simp) (by obtain ⟨r, hr, h1⟩ := hsD; exact ⟨r, hr, by simpa using h1⟩) (by
        have : FPTree.supp D [s] = wsum D (fun l => s ∈ l) := by apply wsum_congr; intro e _; simp
        rw [this]; exact hfr)
      obtain ⟨a1, a2, _, a4, _⟩ := hE.sound e he
      have : e.1 = [s] := by
        have hm : ∀ x ∈ e.1, x = s := fun x hx' => by simpa using (hx x).1 hx'
        match hl : e.1, a1, a2 with
        | [x], _, _ => rw [hm x (by rw [hl]; simp)]
        | x :: y :: r, _, hn =>
          have h1 := hm x (by rw [hl]; simp)
          have h2 := hm y (by rw [hl]; simp)
          rw [h1, h2] at hn
          simp at hn
      have h2 : e = ([s], FPTree.supp D [s]) := by
        rw [← this, ← a4]
      rw [← h2]; exact he
  · rw [if_neg hs] at h
    cases hord : cfg.oeOrder TP FP t with
    | error e => rw [hord] at h; cases h
    | ok order =>
      rw [hord] at h
      have hperm := oeOrder_perm hord
      have hmem : ∀ s, s ∈ order ↔ ∃ r ∈ D, s ∈ r.1 := fun s => by rw [hperm.mem_iff, FPTree.mem_header g.holds]
      have hhd : ∀ s, s ∈ order → (t.header.lookup s).getD (0, 0) = FPTree.supp D [s] := by
        intro s hs'
        rw [FPTree.header_lookup g.holds g.nodup, if_pos ((hmem s).1 hs')]
        apply wsum_congr; intro e _; simp
      have h' : order.foldlM (cfg.turn target TP FP fuel t []) st = .ok st' := h
      have key : ∀ l : List Selector, (∀ a ∈ l, a ∈ order) → ∀ st st', l.foldlM (cfg.turn target TP FP fuel t []) st = .ok st' →
          ∃ vs, st'.visits = st.visits ++ vs ∧ (∀ v ∈ vs, v.1.length = 1 → v.2 = FPTree.supp D v.1 ∧ ∃ r ∈ D, ∀ x ∈ v.1, x ∈ r.1) ∧
            ∀ s ∈ l, ([s], FPTree.supp D [s]) ∈ vs := by
        intro l
        induction l with
        | nil => intro _ st st' h; simp only [List.foldlM_nil] at h; cases h; exact ⟨[], by simp, by simp, by simp⟩
        | cons a l ihl =>
          intro hl st st' h
          rw [List.foldlM_cons] at h
          cases hb : cfg.turn target TP FP fuel t [] st a with
          | error e => rw [hb] at h; cases h
          | ok s1 =>
            rw [hb] at h
            obtain ⟨ws, w1, w2, w3⟩ := ihl (fun x hx => hl x (by simp [hx])) s1 st' h
            obtain ⟨vs, v1, v2⟩ := turn_visits hb
            rw [hhd a (hl a (by simp))] at v1
            refine ⟨(([a], FPTree.supp D [a]) :: vs) ++ ws, by rw [w1, v1]; simp, ?_, ?_⟩
            · intro v hv hlen
              rcases List.mem_append.1 hv with hv | hv
              · rcases List.mem_cons.1 hv with rfl | hv
                · refine ⟨rfl, ?_⟩
                  obtain ⟨r, hr, h1⟩ := (hmem a).1 (hl a (by simp))
                  exact ⟨r, hr, by simpa using h1⟩
                · have := v2 v hv
                  simp only [List.length_nil] at this
                  omega
              · exact w2 v hv hlen
            · intro s hs'
              rcases List.mem_cons.1 hs' with rfl | hs'
              · simp
              · exact List.mem_append_right _ (w3 s hs')
      obtain ⟨vs, v1, v2, v3⟩ := key order (fun a ha => ha) st st' h'
      exact ⟨vs, v1, v2, fun s hs' => v3 s ((hmem s).2 hs')⟩

/-- a pruned visit with exact counts: at the end the list of best qualities is full and its smallest value greater than the estimate -/
theorem Steps.prunedOne {st st' : StarState} {vs : List (Emission Selector × Bool)} (h : cfg.Steps target TP FP st vs st')
    (hv : cfg.Bound TP FP) (e : Emission Selector) (hg : e.2 ≤ (TP, FP) ∧ 0 < e.2.1 + e.2.2) {seen : List Rat} (hb : BestOf cfg.num seen st.ks)
    (he : (∃ o m, cfg.oe TP FP e.2 = .ok o ∧ st.ks.head? = some m ∧ st.ks.length = cfg.num ∧ o < m) ∨ (e, false) ∈ vs) :
    ∃ o m, cfg.oe TP FP e.2 = .ok o ∧ st'.ks.head? = some m ∧ st'.ks.length = cfg.num ∧ o < m := by
  induction h generalizing seen with
  | nil =>
    rcases he with he | he
    · exact he
    · simp at he
  | @cons st st1 st2 X c b n vs hvis _ ih =>
    obtain ⟨q, o, m, rest, h1, h2, h3, h4, h5, h6, h7⟩ := visit_cases hvis
    have hb1 := pushK_best hb h3
    rw [← h4] at hb1
    apply ih (seen := seen ++ [q]) hb1
    rcases he with ⟨o', m', e1, e2, e3, e4⟩ | he
    · left
      refine ⟨o', m, e1, by simp only; rw [h4]; rfl, ?_, ?_⟩
      · simp only
        rw [hb1.length, List.length_append]
        have := hb.length
        omega
      · exact lt_of_lt_of_le e4 (pushK_head_mono hb e3 h3 e2 rfl)
    · rcases List.mem_cons.1 he with he | he
      · left
        cases he
        rcases h7 with ⟨_, hmo, _⟩ | ⟨h7, _⟩
        · refine ⟨o, m, h2, by simp only; rw [h4]; rfl, ?_, hmo⟩
          simp only
          by_contra hne
          have hlt : st1.ks.length < cfg.num := by have := hb1.length; omega
          obtain ⟨rest', r1, r2⟩ := hb1.rest
          have hr0 : rest' = [] := by
            have e1 := hb1.length
            have e2 := r1.length_eq
            simp only [List.length_append] at e1 e2
            have : rest'.length = 0 := by omega
            simpa using this
          have hq : q ∈ st1.ks := by
            have : q ∈ seen ++ [q] := by simp
            have := r1.mem_iff.1 this
            simpa [hr0] using this
          have hmq : m ≤ q := by
            have := hb1.sorted
            rw [h4] at this hq
            rcases List.mem_cons.1 hq with rfl | hq
            · exact le_refl _
            · exact (List.pairwise_cons.1 this).1 q hq
          have := hv c c hg.1 (le_refl _) hg.2 q o h1 h2
          exact absurd hmo (not_lt.2 (le_trans hmq this))
        · cases h7
      · right; exact he

end SDMapStarConfig

/-- **C28, descriptions with one selector.** With `num_subgroups > 0`, the lines for descriptions with one selector carry the exact tp and fp, and
a frequent description with one selector is reported unless the list of the best qualities is full in the end and its smallest value is greater.
Missing: descriptions with several selectors, for which the claim is false (`C28_wrong_counts`, `C28_loses_the_best`, `C28_never_full_loses`). -/
theorem C28_singles_partial (cfg : SDMapStarConfig) (h0 : 0 < cfg.num) (df : Frame) (target : Str × Str) (hf : NominalFrame df target)
    (hk : KeysFaithful df target) (hval : ValidEstimate cfg (tpOf df target []) (fpOf df target []))
    (st st' : StarState) (hks : st.ks = []) (h : cfg.fit st df target = .ok st') :
    ∃ calls, st'.base.calls = st.base.calls ++ calls ∧
      (∀ r ∈ calls, r.1.sels.length = 1 → r.2 = (tpOf df target r.1.sels, fpOf df target r.1.sels)) ∧
      ∀ s, Reportable cfg.th df target [s] → (∃ r ∈ calls, r.1.sels = [s]) ∨
        ∀ q, starQuality cfg df target [s] = .ok q → st'.ks.length = cfg.num ∧ ∀ k ∈ st'.ks, q < k := by
  obtain ⟨us, h1, h2, h3, _, h5⟩ := star_fit h0 hf hk h
  obtain ⟨mask, m1, hl, hm⟩ := targetMask_ok hf
  have hcount := count_true_mask hf hl hm
  have g := root_good hf hk cfg.th hl hm
  have hnom := nominal_of hf
  unfold SDMapStarConfig.fit at h
  rw [if_neg (by omega), if_neg (by rw [hnom]; simp), m1] at h
  simp only at h
  have hvis : st'.visits = st.visits ++ us.map (·.1) := by
    rcases h1 with ⟨rfl, rfl⟩ | h1
    · simp
    · exact h1.base.2.1
  -- the descriptions with one selector among the visits
  have key : (∀ u ∈ us, u.1.1.length = 1 → u.1.2 = (tpOf df target u.1.1, fpOf df target u.1.1)) ∧
      ∀ s, Reportable cfg.th df target [s] → ([s], (tpOf df target [s], fpOf df target [s])) ∈ us.map (·.1) := by
    by_cases hemp : (FPTree.buildTree Selector.dictKey (frequentSelectors cfg.th df target.1 mask) (keyRows df target.1 mask)).isEmpty = true
    · rw [if_pos hemp] at h
      cases h
      have hus : us = [] := by simpa using hvis
      subst hus
      refine ⟨by simp, fun s hs => ?_⟩
      obtain ⟨F, hF, hacc⟩ := h5 rfl
      obtain ⟨e, he, _⟩ := hF.complete [s] hs.1 hs.2.2.1 hs.2.2.2
      rcases hacc.2 e he with h | ⟨v, h, _⟩ <;> simp at h
    · rw [if_neg hemp] at h
      obtain ⟨vs, v1, v2, v3⟩ := SDMapStarConfig.single_visits _ _ _ _ g h
      have hvs : vs = us.map (·.1) := by
        rw [v1] at hvis
        exact List.append_cancel_left hvis
      have hin : ∀ X : List Selector, (∃ r ∈ rootDB cfg.th df target.1 mask, ∀ x ∈ X, x ∈ r.1) →
          FPTree.supp (rootDB cfg.th df target.1 mask) X = (tpOf df target X, fpOf df target X) := by
        rintro X ⟨r, hr, hX⟩
        refine supp_rootDB hf hk cfg.th hm X ?_
        intro x hx
        obtain ⟨i, hi, rfl⟩ := List.mem_map.1 hr
        exact ((mem_rootRow hf hk cfg.th mask i x).1 (hX x hx)).2
      refine ⟨?_, ?_⟩
      · intro u hu h1
        obtain ⟨a1, a2⟩ := v2 u.1 (by rw [hvs]; exact List.mem_map_of_mem hu) h1
        rw [a1, hin _ a2]
      · intro s hs
        have hmem := frequent_mem hf hk cfg.th hl hm hs.1 hs.2.2.1 hs.2.2.2
        obtain ⟨i, hi, hc⟩ := hs.2.2.1
        have hd := hs.1.2 s (by simp)
        have hr : ∃ r ∈ rootDB cfg.th df target.1 mask, s ∈ r.1 := by
          refine ⟨_, List.mem_map.2 ⟨i, List.mem_range.2 hi, rfl⟩, ?_⟩
          rw [mem_rootRow hf hk]
          exact ⟨(mem_rowSels_iff hf hd.1 hd.2.1 hd.2.2 i).2 (hc s (by simp)), hmem s (by simp)⟩
        have := v3 s hr
        rw [hin [s] (by obtain ⟨r, hr, h⟩ := hr; exact ⟨r, hr, by simpa using h⟩), hvs] at this
        exact this
  have hnew : ∀ u ∈ us, (Pattern.new u.1.1).sels.length = u.1.1.length ∧ (u.1.1.length = 1 → (Pattern.new u.1.1).sels = u.1.1) := by
    intro u hu
    obtain ⟨n1, n2⟩ := new_text (textEq_of_describes (h2 u hu).1)
    have hn : (Pattern.new u.1.1).sels.Nodup := nodup_of_sorted n1
    have hp : (Pattern.new u.1.1).sels.Perm u.1.1 := (List.perm_ext_iff_of_nodup hn (h2 u hu).2.1).2 n2
    refine ⟨hp.length_eq, fun h => ?_⟩
    obtain ⟨x, hx⟩ := List.length_eq_one_iff.1 h
    rw [hx] at hp ⊢
    exact List.perm_singleton.1 hp
  refine ⟨_, star_calls h1, ?_, ?_⟩
  · intro r hr hlen
    obtain ⟨u, hu, rfl⟩ := List.mem_map.1 hr
    have hu := (List.mem_filter.1 hu).1
    simp only at hlen ⊢
    rw [(hnew u hu).1] at hlen
    rw [(hnew u hu).2 hlen]
    exact key.1 u hu hlen
  · intro s hs
    obtain ⟨u, hu, hue⟩ := List.mem_map.1 (key.2 s hs)
    cases hb : u.2 with
    | true =>
      left
      refine ⟨_, List.mem_map.2 ⟨u, List.mem_filter.2 ⟨hu, hb⟩, rfl⟩, ?_⟩
      simp only
      rw [(hnew u hu).2 (by rw [hue]; rfl), hue]
    | false =>
      right
      intro q hq
      rcases h1 with ⟨rfl, _⟩ | h1
      · simp at hu
      have hbound : cfg.Bound (tpOf df target []) (fpOf df target []) := by
        intro c c' g1 g2 g3 q o g4 g5
        exact hval c.1 c.2 c'.1 c'.2 g1.1 g1.2 g2.1 g2.2 g3 q o g4 g5
      have hb0 : SDMapStarConfig.BestOf cfg.num [] ({ st with base := { st.base with file := [] } } : StarState).ks := by
        simp only; rw [hks]; exact ⟨by simp, by simp, [], by simp, by simp⟩
      have hpos : (0 : Nat) < tpOf df target [s] + fpOf df target [s] := (occurs_iff (target := target)).2 hs.2.2.1
      have hle : (tpOf df target [s], fpOf df target [s]) ≤ (tpOf df target [], fpOf df target []) :=
        Prod.le_def.2 ⟨tpOf_mono (by simp), fpOf_mono (by simp)⟩
      obtain ⟨o, m, p1, p2, p3, p4⟩ := h1.prunedOne hbound u.1 (by rw [hue]; exact ⟨hle, hpos⟩) hb0 (Or.inr (by rw [← hb]; exact hu))
      rw [hue] at p1
      have hqm : q < m := lt_of_le_of_lt (hbound _ _ hle (le_refl _) hpos q o hq p1) p4
      obtain ⟨qs, b1, b2⟩ := h1.best hb0
      refine ⟨p3, fun k hk' => lt_of_lt_of_le hqm ?_⟩
      have hsort := b2.sorted
      cases hl : st'.ks with
      | nil => rw [hl] at p2; cases p2
      | cons x l =>
        rw [hl] at p2 hk' hsort
        obtain rfl := Option.some.inj p2
        rcases List.mem_cons.1 hk' with rfl | hk'
        · exact le_refl _
        · exact (List.pairwise_cons.1 hsort).1 k hk'

/-! ## a number of subgroups that is never reached -/

/-- four rows with three attributes -/
def Spec.fourFrame : Frame :=
  ⟨4, [(c!"a", [.str c!"p", .str c!"p", .str c!"p", .str c!"q"]), (c!"b", [.str c!"p", .str c!"q", .str c!"q", .str c!"q"]),
    (c!"c", [.str c!"q", .str c!"p", .str c!"q", .str c!"p"]), (c!"t", [.str c!"n", .str c!"y", .str c!"n", .str c!"y"])]⟩

theorem fourFrame_ok : NominalFrame fourFrame (c!"t", c!"y") ∧ KeysFaithful fourFrame (c!"t", c!"y") := by
  have h : NominalFrame fourFrame (c!"t", c!"y") := by
    refine ⟨?_, by decide +kernel, ?_, by decide +kernel⟩
    · intro c hc; simp [fourFrame] at hc; rcases hc with rfl | rfl | rfl | rfl <;> rfl
    · intro c hc; simp [fourFrame] at hc
      rcases hc with rfl | rfl | rfl | rfl <;> simp
  refine ⟨h, keysFaithful_of_no_quotes h ?_⟩
  intro c hc; simp [fourFrame] at hc
  rcases hc with rfl | rfl | rfl | rfl <;> decide +kernel

/-- as `starCfg`, with `num_subgroups = 1000` -/
def Spec.wideCfg (m e : Params → Except PyErr Rat) : SDMapStarConfig := { starCfg m e with num := 1000 }

/-- **C28 fails even when all descriptions are asked for.** On these four rows there are 19 frequent descriptions and `num_subgroups` is 1000, the estimate is valid, and
yet one with the greatest quality of all is lost, while worse ones are reported. -/
theorem C28_never_full_loses : ∃ (cfg : SDMapStarConfig) (df : Frame) (target : Str × Str) (st' : StarState) (X : List Selector) (q : Rat),
    NominalFrame df target ∧ KeysFaithful df target ∧ cfg.num = 1000 ∧ df.nrows = 4 ∧ ValidEstimate cfg (tpOf df target []) (fpOf df target []) ∧
    cfg.fit freshStar df target = .ok st' ∧ st'.base.calls.length = 16 ∧ Reportable cfg.th df target X ∧ starQuality cfg df target X = .ok q ∧ cfg.minQuality ≤ q ∧
    (∀ Y, Reportable cfg.th df target Y → ∃ q', starQuality cfg df target Y = .ok q' ∧ q' ≤ q) ∧
    ∀ r ∈ st'.base.calls, r.1.sels ≠ X := by
  obtain ⟨hf, hk⟩ := fourFrame_ok
  have hrun : (starRun (wideCfg Quality.piatetskyShapiro Quality.psOE2) fourFrame).map
      (fun r => decide (r.1.length = 16 ∧ [eqSel c!"b" c!"q", eqSel c!"c" c!"p"] ∉ r.1.map (·.1))) = some true := by decide +kernel
  have hsd : (sdRun (wideCfg Quality.piatetskyShapiro Quality.psOE2) fourFrame).map
      (fun r => decide (([eqSel c!"b" c!"q", eqSel c!"c" c!"p"], (2, 0)) ∈ r ∧
        ∀ e ∈ r, (match Quality.piatetskyShapiro (paramsFor e.2.1 e.2.2 2 2 []) with
          | .ok q => decide (q ≤ 1) | .error _ => false) = true)) = some true := by decide +kernel
  obtain ⟨L, hL, hmem⟩ := Option.map_eq_some_iff.1 hsd
  obtain ⟨hm1, hm2⟩ := of_decide_eq_true hmem
  obtain ⟨hs, hc⟩ := sdRun_exact hf hk hL
  have hex := hs _ hm1
  have hT : tpOf fourFrame (c!"t", c!"y") [] = 2 ∧ fpOf fourFrame (c!"t", c!"y") [] = 2 := by
    obtain ⟨mask, h1, hl, hm⟩ := targetMask_ok hf
    obtain ⟨h2, h3⟩ := count_true_mask hf hl hm
    have : targetMask fourFrame (c!"t", c!"y") = .ok [false, true, false, true] := by decide +kernel
    rw [this] at h1
    cases h1
    rw [← h2, ← h3]
    decide
  have hq : ∀ e ∈ L, starQuality (wideCfg Quality.piatetskyShapiro Quality.psOE2) fourFrame (c!"t", c!"y") e.1 =
      Quality.piatetskyShapiro (paramsFor e.2.1 e.2.2 2 2 []) := by
    intro e he
    unfold starQuality
    rw [hT.1, hT.2, (hs e he).2]
    rfl
  unfold starRun at hrun
  split at hrun
  · rename_i st hst
    simp only [Option.map_some, Option.some.injEq, decide_eq_true_eq, List.length_map] at hrun
    refine ⟨wideCfg Quality.piatetskyShapiro Quality.psOE2, fourFrame, (c!"t", c!"y"), st, _, 1, hf, hk, rfl, rfl,
      (C28_valid_estimates _ _ _ rfl).2.2 rfl rfl, hst, hrun.1, hex.1, ?_, by decide +kernel, ?_, ?_⟩
    · rw [hq _ hm1]; decide +kernel
    · intro Y hY
      obtain ⟨e, he, rfl⟩ := hc Y hY
      have := hm2 e he
      rw [hq e he]
      split at this
      · rename_i q hq'
        exact ⟨q, hq', of_decide_eq_true this⟩
      · cases this
    · intro r hr hx
      apply hrun.2
      rw [List.mem_map]
      exact ⟨_, List.mem_map.2 ⟨r, hr, rfl⟩, hx⟩
  · simp at hrun

/-- **C28 fails even when all descriptions are asked for:** with `num_subgroups = 1000` on seven rows a description is reported with no false positives although it has two. -/
theorem C28_never_full_counts : ∃ (cfg : SDMapStarConfig) (df : Frame) (target : Str × Str) (st' : StarState),
    NominalFrame df target ∧ KeysFaithful df target ∧ cfg.num = 1000 ∧ df.nrows = 7 ∧ ValidEstimate cfg (tpOf df target []) (fpOf df target []) ∧
    cfg.fit freshStar df target = .ok st' ∧ ∃ r ∈ st'.base.calls, r.2 = (1, 0) ∧ tpOf df target r.1.sels = 1 ∧ fpOf df target r.1.sels = 2 := by
  obtain ⟨hf, hk⟩ := lossFrame_ok
  have hrun : (starRun (wideCfg Quality.piatetskyShapiro Quality.psOE2) lossFrame).map
      (fun r => decide (([eqSel c!"b" c!"q", eqSel c!"c" c!"q"], (1, 0)) ∈ r.1)) = some true := by decide +kernel
  have hsd : (sdRun (wideCfg Quality.piatetskyShapiro Quality.psOE2) lossFrame).map
      (fun r => decide (([eqSel c!"b" c!"q", eqSel c!"c" c!"q"], (1, 2)) ∈ r)) = some true := by decide +kernel
  obtain ⟨L, hL, hmem⟩ := Option.map_eq_some_iff.1 hsd
  have hex := (sdRun_exact hf hk hL).1 _ (of_decide_eq_true hmem)
  unfold starRun at hrun
  split at hrun
  · rename_i st hst
    simp only [Option.map_some, Option.some.injEq, decide_eq_true_eq] at hrun
    obtain ⟨r, hr, he⟩ := List.mem_map.1 hrun
    have he1 : r.1.sels = [eqSel c!"b" c!"q", eqSel c!"c" c!"q"] := (Prod.ext_iff.1 he).1
    refine ⟨wideCfg Quality.piatetskyShapiro Quality.psOE2, lossFrame, (c!"t", c!"y"), st, hf, hk, rfl, rfl,
      (C28_valid_estimates _ _ _ rfl).2.2 rfl rfl, hst, r, hr, (Prod.ext_iff.1 he).2, ?_, ?_⟩
    · rw [he1]; exact (Prod.ext_iff.1 hex.2).1.symm
    · rw [he1]; exact (Prod.ext_iff.1 hex.2).2.symm
  · simp at hrun

/-- the hypotheses of `C28_singles_partial` are met by the run of `C28_never_full_loses`, in which descriptions with one selector are reported with exact counts -/
example : (starRun (wideCfg Quality.piatetskyShapiro Quality.psOE2) fourFrame).map
    (fun r => (r.1.filter (fun e => e.1.length == 1)).map (·.2)) = some [(2, 0), (2, 1), (1, 0), (1, 2), (0, 2), (0, 1)] := by decide +kernel

end Verif
