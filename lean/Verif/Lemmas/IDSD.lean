import Verif.Lemmas.IDSDData
/-! IDSD: the search. -/
namespace Verif.IDSD
open Spec BSD

/-! ### patterns of texts -/

theorem new_sels_eq {p : Pattern} {X : List Selector} (hX : ∀ s ∈ X, TextEq s) (hs : Pattern.Sorted p.sels) (h : ∀ s, s ∈ p.sels ↔ s ∈ X) :
    p = Pattern.new X := by
  obtain ⟨h1, h2⟩ := new_text hX
  have : p.sels = (Pattern.new X).sels := sorted_ext hs h1 (fun s hs => hX s ((h s).1 hs)) (fun s => by rw [h, h2])
  cases p
  simp only at this
  rw [this]

theorem add_new {Y : List Selector} {s : Selector} (hY : ∀ t ∈ Y, TextEq t) (hs : TextEq s) :
    (Pattern.new Y).copy.add s = Pattern.new (Y ++ [s]) := by
  have hYs : ∀ t ∈ Y ++ [s], TextEq t := by
    intro t ht
    rcases List.mem_append.1 ht with h | h
    · exact hY t h
    · rw [List.mem_singleton.1 h]; exact hs
  obtain ⟨n1, n2⟩ := new_text hY
  have hS : ∀ t ∈ (Pattern.new Y).copy.sels, TextEq t := fun t ht => hY t ((n2 t).1 ht)
  obtain ⟨h1, h2, h3⟩ := Pattern.add_spec (S := TextEq) (fun a b ha hb => TextEq.lt_key ha hb) hS hs n1
  apply new_sels_eq hYs h2
  intro t
  constructor
  · intro ht
    rcases h1 t ht with h | h
    · exact List.mem_append_left _ ((n2 t).1 h)
    · rw [h]; simp
  · intro ht
    have htt := hYs t ht
    obtain ⟨w, hw, hk⟩ := (h3 t.key).2 (by
      rcases List.mem_append.1 ht with h | h
      · exact .inl ⟨t, (n2 t).2 h, rfl⟩
      · rw [List.mem_singleton.1 h]; exact .inr rfl)
    have hwt : TextEq w := by
      rcases h1 w hw with h | h
      · exact hS w h
      · rw [h]; exact hs
    rw [← TextEq.key_inj hwt htt hk]; exact hw

theorem mem_new {X : List Selector} (hX : ∀ s ∈ X, TextEq s) (s : Selector) : s ∈ (Pattern.new X).sels ↔ s ∈ X := (new_text hX).2 s

theorem new_len {X : List Selector} (hX : ∀ s ∈ X, TextEq s) (hn : X.Nodup) : (Pattern.new X).len = X.length := by
  obtain ⟨h1, h2⟩ := new_text hX
  exact ((List.perm_ext_iff_of_nodup (nodup_of_sorted h1) hn).2 h2).length_eq

theorem sublist_ext {l X Y : List Selector} (hn : l.Nodup) (hX : X.Sublist l) (hY : Y.Sublist l) (h : ∀ s, s ∈ X ↔ s ∈ Y) : X = Y := by
  rw [FPTree.eq_filter_of_sublist hn hX, FPTree.eq_filter_of_sublist hn hY]
  apply List.filter_congr
  intro s _
  simp [h]

section
open Classical

variable {df : Frame} {target : Str × Str} {mask : List Bool} {cfg : IDSDConfig}

theorem covOf_congr {X Y : List Selector} (h : ∀ s, s ∈ X ↔ s ∈ Y) : covOf df target X = covOf df target Y := by
  unfold covOf; rw [tpOf_congr h, fpOf_congr h]

theorem covOf_mono (hn : 0 < df.nrows) {X Y : List Selector} (h : ∀ s ∈ X, s ∈ Y) : covOf df target Y ≤ covOf df target X := by
  unfold covOf
  have h1 : tpOf df target Y ≤ tpOf df target X := tpOf_mono h
  have h2 : fpOf df target Y ≤ fpOf df target X := fpOf_mono h
  have hp : (0 : Rat) < df.nrows := by exact_mod_cast hn
  rw [div_le_div_iff_of_pos_right hp]
  exact_mod_cast Nat.add_le_add h1 h2

/-! ### the list of the best subgroups along a search -/

/-- what holds after evaluating the patterns `C` -/
structure SInv (cfg : IDSDConfig) (df : Frame) (target : Str × Str) (C : List Pattern) (top : List IDSDEntry) : Prop where
  inv : TopInv cfg.num top
  exact : ∀ e ∈ top, e.pat ∈ C ∧ e = entryOf cfg df target e.pat
  refine : ∀ e ∈ top, ∀ f ∈ top, e.pat.len < f.pat.len → redundant e.pat f.pat = true → KeyLe f e
  dom : ∀ p ∈ C, ∃ h ∈ top, KeyLe (entryOf cfg df target p) h

theorem SInv.empty : SInv cfg df target [] [] :=
  ⟨⟨by simp, by simp, by simp, by simp⟩, by simp, by simp, by simp⟩

/-- every entry of `t` is at most one of `t'` -/
def Dom (t t' : List IDSDEntry) : Prop := ∀ e ∈ t, ∃ h ∈ t', KeyLe e h

theorem Dom.rank {t t' : List IDSDEntry} (hd : Dom t t') (h1 : ∀ e ∈ t, Num e) (h2 : ∀ e ∈ t', Num e) (h : ∃ e ∈ t, 0 < e.rank) :
    ∃ e ∈ t', 0 < e.rank := by
  obtain ⟨e, he, hr⟩ := h
  obtain ⟨f, hf, hk⟩ := hd e he
  rw [keyLe_iff (h1 e he) (h2 f hf)] at hk
  exact ⟨f, hf, by rcases hk with hk | ⟨hk, _⟩ <;> omega⟩

theorem Dom.trans {t t' t'' : List IDSDEntry} (h1 : ∀ e ∈ t, Num e) (h2 : ∀ e ∈ t', Num e) (h3 : ∀ e ∈ t'', Num e) (h : Dom t t') (h' : Dom t' t'') : Dom t t'' := by
  intro e he
  obtain ⟨f, hf, hk⟩ := h e he
  obtain ⟨g, hg, hk'⟩ := h' f hf
  exact ⟨g, hg, KeyLe.trans (h1 e he) (h2 f hf) (h3 g hg) hk hk'⟩

theorem SInv.step (hnum : 0 < cfg.num) {C : List Pattern} {top : List IDSDEntry} (hi : SInv cfg df target C top) {p : Pattern} (hp : p ∉ C)
    (hlen : ∀ q ∈ C, q.len ≤ p.len) :
    SInv cfg df target (C ++ [p]) (topKUpdate cfg.num top (entryOf cfg df target p)) ∧ Dom top (topKUpdate cfg.num top (entryOf cfg df target p)) := by
  have hfresh : (entryOf cfg df target p).pat ∉ top.map (·.pat) := by
    intro h
    obtain ⟨e, he, h⟩ := List.mem_map.1 h
    apply hp
    have := (hi.exact e he).1
    rw [h] at this
    exact this
  obtain ⟨h1, h2, h3, h4⟩ := topKUpdate_spec hnum hi.inv (entryOf_num cfg df target p) hfresh
  refine ⟨⟨h1, ?_, ?_, ?_⟩, fun e he => h4 e (.inl he)⟩
  · intro e he
    rcases h2 e he with h | h
    · exact ⟨List.mem_append_left _ (hi.exact e h).1, (hi.exact e h).2⟩
    · rw [h]
      exact ⟨by simp [entryOf], rfl⟩
  · intro e he f hf hl hr
    rcases h2 f hf with h | h
    · rcases h2 e he with h' | h'
      · exact hi.refine e h' f h hl hr
      · rw [h'] at hl
        have := hlen _ (hi.exact f h).1
        simp only [entryOf] at hl
        omega
    · subst h
      apply h3 hf e he _ hr
      intro hc
      rw [hc] at hl
      omega
  · intro q hq
    rcases List.mem_append.1 hq with hq | hq
    · obtain ⟨g, hg, hk⟩ := hi.dom q hq
      obtain ⟨f, hf, hk'⟩ := h4 g (.inl hg)
      exact ⟨f, hf, KeyLe.trans (entryOf_num cfg df target q) (hi.inv.num g hg) (h1.num f hf) hk hk'⟩
    · rw [List.mem_singleton.1 hq]
      exact h4 _ (.inr rfl)

/-! ### one node -/

theorem visit_cases (hm : MaskOK df target mask) (hn : 0 < df.nrows) (c : Nat) {p : Pattern} {X : List Selector}
    (hX : ∀ s, s ∈ p.sels ↔ s ∈ X) (hs : ∀ s ∈ X, s ∈ (selectorPairs df target.1).map (·.1)) (st : IDSDState) (ha : AppsOK df target st.apps) :
    ∃ st' b, visit cfg c (tpOf df target []) (fpOf df target []) mask p (covBits df X) st = .ok (st', b) ∧ st'.apps = st.apps ∧
      ((b = false ∧ st'.top = st.top ∧ st'.calls = st.calls ∧
          (¬ OccursIn df X ∨ (covOf df target X < cfg.covT ∧ ∃ e ∈ st.top, 0 < e.rank))) ∨
       (b = false ∧ p.len = c ∧ OccursIn df X ∧ st'.top = topKUpdate cfg.num st.top (entryOf cfg df target p) ∧ st'.calls = st.calls ++ [p]) ∨
       (b = true ∧ p.len ≠ c ∧ OccursIn df X ∧ st'.top = st.top ∧ st'.calls = st.calls)) := by
  have hcov : Quality.coverage [(kTp, ((covBits df X).ones : Rat)), (kFp, 0), (kTP, (tpOf df target [] : Rat)), (kFP, (fpOf df target [] : Rat))] =
      .ok (covOf df target X) := by
    have := coverage_eq (tp := (covBits df X).ones) (fp := 0) (TP := tpOf df target []) (FP := fpOf df target []) (by rw [nrows_eq]; exact hn)
    rw [nrows_eq, Nat.add_zero, ones_covBits (target := target), Nat.cast_zero] at this
    rw [ones_covBits (target := target)]
    exact this
  have hp : (0 : Rat) < df.nrows := by exact_mod_cast hn
  have h0 : covOf df target X = 0 ↔ ¬ OccursIn df X := by
    rw [← occurs_iff (target := target), covOf, div_eq_zero_iff]
    constructor
    · rintro (h | h)
      · have : tpOf df target X + fpOf df target X = 0 := by exact_mod_cast h
        omega
      · exact absurd h hp.ne'
    · intro h
      left
      have : tpOf df target X + fpOf df target X = 0 := by omega
      exact_mod_cast this
  unfold visit
  simp only
  rw [hcov]
  simp only
  by_cases ho : OccursIn df X
  · rw [if_neg (fun h => (h0.1 h) ho)]
    split
    · rename_i h
      refine ⟨_, _, rfl, rfl, .inl ⟨rfl, rfl, rfl, .inr ⟨lt_of_not_ge h.2.2, ?_⟩⟩⟩
      have h2 := h.2.1
      unfold lastRankPos at h2
      split at h2
      · rename_i w hw
        exact ⟨w, List.mem_of_getLast? hw, by simpa using h2⟩
      · cases h2
    · split
      · rename_i hl
        rw [covBits_congr (df := df) (fun s => (hX s).symm), handle_eq cfg hm hn (fun s h => hs s ((hX s).1 h)) _ (by exact ha)]
        exact ⟨_, _, rfl, rfl, .inr (.inl ⟨rfl, hl, ho, rfl, rfl⟩)⟩
      · rename_i hl
        exact ⟨_, _, rfl, rfl, .inr (.inr ⟨rfl, hl, ho, rfl, rfl⟩)⟩
  · rw [if_pos (h0.2 ho)]
    exact ⟨_, _, rfl, rfl, .inl ⟨rfl, rfl, rfl, .inl ho⟩⟩

/-! ### the tree -/

/-- what the search below `Y` with the selectors `l` does; `N` are the extensions that are evaluated -/
structure GrowSpec (cfg : IDSDConfig) (df : Frame) (target : Str × Str) (c : Nat) (Y l : List Selector) (st st' : IDSDState) (N : List (List Selector)) : Prop where
  apps : st'.apps = st.apps
  calls : st'.calls = st.calls ++ N.map (fun W => Pattern.new (Y ++ W))
  good : ∀ W ∈ N, W.Sublist l ∧ Y.length + W.length = c ∧ OccursIn df (Y ++ W)
  nodup : N.Nodup
  inv : SInv cfg df target st'.calls st'.top
  mono : Dom st.top st'.top
  all : ∀ W, W.Sublist l → Y.length + W.length = c → OccursIn df (Y ++ W) →
    W ∈ N ∨ (covOf df target (Y ++ W) < cfg.covT ∧ ∃ e ∈ st'.top, 0 < e.rank)

theorem growLoop_spec (hf : NominalFrame df target) (hm : MaskOK df target mask) (hn : 0 < df.nrows) (hnum : 0 < cfg.num) (c : Nat) (l : List Selector) :
    ∀ (Y : List Selector) (st : IDSDState), (Y ++ l).Sublist ((selectorPairs df target.1).map (·.1)) → Y.length < c → AppsOK df target st.apps →
      SInv cfg df target st.calls st.top → (∀ q ∈ st.calls, q.len ≤ c) →
      (∀ W, W.Sublist l → Y.length + W.length = c → Pattern.new (Y ++ W) ∉ st.calls) →
      ∃ st' N, growLoop cfg c (tpOf df target []) (fpOf df target []) mask l (Pattern.new Y) (covBits df Y) st = .ok st' ∧
        GrowSpec cfg df target c Y l st st' N := by
  have hnod := nodup_sels hf
  have htext : ∀ s ∈ (selectorPairs df target.1).map (·.1), TextEq s := fun s hs => ((mem_sels hf).1 hs).1.2
  induction l with
  | nil =>
    intro Y st _ hY _ hi _ _
    refine ⟨st, [], rfl, rfl, by simp, by simp, by simp, hi, fun e he => ⟨e, he, KeyLe.refl⟩, ?_⟩
    intro W hW hl
    rw [List.sublist_nil.1 hW] at hl
    simp at hl
    omega
  | cons s rest ih =>
    intro Y st hsub hY ha hi hlen hfresh
    have hsubY' : ((Y ++ [s]) ++ rest).Sublist ((selectorPairs df target.1).map (·.1)) := by simpa using hsub
    have hsubY : (Y ++ rest).Sublist ((selectorPairs df target.1).map (·.1)) :=
      ((List.Sublist.refl Y).append (List.sublist_cons_self s rest)).trans hsub
    have hYmem : ∀ t ∈ Y, t ∈ (selectorPairs df target.1).map (·.1) := fun t ht => hsub.subset (List.mem_append_left _ ht)
    have hsmem : s ∈ (selectorPairs df target.1).map (·.1) := hsub.subset (by simp)
    have hY'mem : ∀ t ∈ Y ++ [s], t ∈ (selectorPairs df target.1).map (·.1) := fun t ht => by
      rcases List.mem_append.1 ht with h | h
      · exact hYmem t h
      · rw [List.mem_singleton.1 h]; exact hsmem
    have hY't : ∀ t ∈ Y ++ [s], TextEq t := fun t ht => htext t (hY'mem t ht)
    have hnY : (Y ++ s :: rest).Nodup := hsub.nodup hnod
    have hnY' : (Y ++ [s]).Nodup := (List.sublist_append_left (Y ++ [s]) rest).nodup (by simpa using hnY)
    have hsY : s ∉ Y := fun h => by
      rw [List.nodup_append] at hnY
      exact hnY.2.2 s h s (by simp) rfl
    have hsrest : s ∉ rest := by
      rw [List.nodup_append] at hnY
      exact (List.nodup_cons.1 hnY.2.1).1
    have hplen : (Pattern.new (Y ++ [s])).len = Y.length + 1 := by rw [new_len hY't hnY']; simp
    rw [growLoop, ha.lookup s hsmem]
    simp only
    rw [add_new (fun t ht => htext t (hYmem t ht)) (htext s hsmem), alignAnd_covBits]
    obtain ⟨st1, b, hv, ha1, hcase⟩ := visit_cases (cfg := cfg) hm hn c (mem_new hY't) hY'mem st ha
    rw [hv]
    have happs1 : AppsOK df target st1.apps := by rw [ha1]; exact ha
    -- the subsets of `s :: rest`
    have hsplit : ∀ W : List Selector, W.Sublist (s :: rest) → W.Sublist rest ∨ ∃ W', W = s :: W' ∧ W'.Sublist rest := by
      intro W hW
      rcases List.sublist_cons_iff.1 hW with h | ⟨W', h1, h2⟩
      · exact .inl h
      · exact .inr ⟨W', h1, h2⟩
    have happ : ∀ W' : List Selector, Y ++ [s] ++ W' = Y ++ s :: W' := fun W' => by simp
    -- patterns with `s` are different from those without it
    have hdiff : ∀ W W' : List Selector, W.Sublist rest → W'.Sublist rest → Pattern.new (Y ++ W) ≠ Pattern.new (Y ++ s :: W') := by
      intro W W' h1 h2 h
      have t1 : ∀ t ∈ Y ++ W, TextEq t := fun t ht => htext t (hsubY.subset (by
        rcases List.mem_append.1 ht with h | h
        · exact List.mem_append_left _ h
        · exact List.mem_append_right _ (h1.subset h)))
      have t2 : ∀ t ∈ Y ++ s :: W', TextEq t := fun t ht => htext t (hsub.subset (by
        rcases List.mem_append.1 ht with h | h
        · exact List.mem_append_left _ h
        · rcases List.mem_cons.1 h with h | h
          · rw [h]; simp
          · exact List.mem_append_right _ (List.mem_cons_of_mem _ (h2.subset h))))
      have := (mem_new t2 s).2 (by simp)
      rw [← h, mem_new t1] at this
      rcases List.mem_append.1 this with h | h
      · exact hsY h
      · exact hsrest (h1.subset h)
    rcases hcase with ⟨rfl, ht, hcl, hno⟩ | ⟨rfl, hpl, ho, ht, hcl⟩ | ⟨rfl, hpl, ho, ht, hcl⟩
    · -- pruned
      simp only
      obtain ⟨st', N, hg, hG⟩ := ih Y st1 hsubY hY happs1 (by rw [ht, hcl]; exact hi) (by rw [hcl]; exact hlen)
        (fun W hW => by rw [hcl]; exact hfresh W (hW.cons s))
      refine ⟨st', N, hg, hG.apps.trans ha1, by rw [hG.calls, hcl], fun W hW => ⟨(hG.good W hW).1.cons s, (hG.good W hW).2⟩, hG.nodup, hG.inv,
        by rw [← ht]; exact hG.mono, ?_⟩
      intro W hW hl hoc
      rcases hsplit W hW with h | ⟨W', rfl, h⟩
      · exact hG.all W h hl hoc
      · right
        have hin : ∀ t ∈ Y ++ [s], t ∈ Y ++ s :: W' := fun t ht => by
          rcases List.mem_append.1 ht with h | h
          · exact List.mem_append_left _ h
          · rw [List.mem_singleton.1 h]; simp
        rcases hno with hno | ⟨hno, hr⟩
        · exact absurd (occursIn_mono hin hoc) hno
        · refine ⟨lt_of_le_of_lt (covOf_mono hn hin) hno, ?_⟩
          refine Dom.rank hG.mono ?_ hG.inv.inv.num ?_
          · rw [ht]; exact hi.inv.num
          · rw [ht]; exact hr
    · -- evaluated
      simp only
      have hpf : Pattern.new (Y ++ [s]) ∉ st.calls := hfresh [s] (by simp) (by rw [← hpl, hplen]; rfl)
      obtain ⟨hi1, hd1⟩ := hi.step hnum hpf (by rw [hpl]; exact hlen)
      rw [← ht, ← hcl] at hi1
      rw [← ht] at hd1
      obtain ⟨st', N, hg, hG⟩ := ih Y st1 hsubY hY happs1 hi1
        (by
          rw [hcl]
          intro q hq
          rcases List.mem_append.1 hq with hq | hq
          · exact hlen q hq
          · rw [List.mem_singleton.1 hq, hpl])
        (fun W hW hl => by
          rw [hcl, List.mem_append]
          rintro (h | h)
          · exact hfresh W (hW.cons s) hl h
          · exact hdiff W [] hW (by simp) (List.mem_singleton.1 h))
      refine ⟨st', [s] :: N, hg, hG.apps.trans ha1, ?_, ?_, ?_, hG.inv, Dom.trans hi.inv.num hi1.inv.num hG.inv.inv.num hd1 hG.mono, ?_⟩
      · rw [hG.calls, hcl]; simp
      · intro W hW
        rcases List.mem_cons.1 hW with rfl | hW
        · exact ⟨by simp, by rw [← hpl, hplen]; rfl, ho⟩
        · exact ⟨(hG.good W hW).1.cons s, (hG.good W hW).2⟩
      · rw [List.nodup_cons]
        exact ⟨fun h => hsrest ((hG.good _ h).1.subset (by simp)), hG.nodup⟩
      · intro W hW hl hoc
        rcases hsplit W hW with h | ⟨W', rfl, h⟩
        · rcases hG.all W h hl hoc with h | h
          · exact .inl (by simp [h])
          · exact .inr h
        · left
          have : W'.length = 0 := by
            simp only [List.length_cons] at hl
            omega
          rw [List.length_eq_zero_iff.1 this]
          simp
    · -- the tree grows
      simp only
      have hY'c : (Y ++ [s]).length < c := by
        rw [hplen] at hpl
        simp only [List.length_append, List.length_singleton]
        omega
      obtain ⟨st2, N1, hg1, hG1⟩ := ih (Y ++ [s]) st1 hsubY' hY'c happs1 (by rw [ht, hcl]; exact hi) (by rw [hcl]; exact hlen)
        (fun W hW hl => by
          rw [hcl, happ]
          exact hfresh (s :: W) (hW.cons_cons s) (by simpa [Nat.add_assoc, Nat.add_comm 1] using hl))
      rw [hg1]
      simp only
      have hlen2 : ∀ q ∈ st2.calls, q.len ≤ c := by
        rw [hG1.calls, hcl]
        intro q hq
        rcases List.mem_append.1 hq with hq | hq
        · exact hlen q hq
        · obtain ⟨W, hW, rfl⟩ := List.mem_map.1 hq
          obtain ⟨g1, g2, _⟩ := hG1.good W hW
          have hs2 : (Y ++ [s] ++ W).Sublist ((selectorPairs df target.1).map (·.1)) := ((List.Sublist.refl (Y ++ [s])).append g1).trans hsubY'
          rw [new_len (fun t ht => htext t (hs2.subset ht)) (hs2.nodup hnod), List.length_append]
          omega
      obtain ⟨st', N2, hg2, hG2⟩ := ih Y st2 hsubY hY (by rw [hG1.apps]; exact happs1) hG1.inv hlen2
        (fun W hW hl => by
          rw [hG1.calls, hcl, List.mem_append]
          rintro (h | h)
          · exact hfresh W (hW.cons s) hl h
          · obtain ⟨W', hW', h⟩ := List.mem_map.1 h
            rw [happ] at h
            exact hdiff W W' hW (hG1.good W' hW').1 h.symm)
      refine ⟨st', N1.map (fun W => s :: W) ++ N2, hg2, (hG2.apps.trans hG1.apps).trans ha1, ?_, ?_, ?_, hG2.inv, ?_, ?_⟩
      · rw [hG2.calls, hG1.calls, hcl]
        simp [List.map_append, List.map_map, Function.comp_def]
      · intro W hW
        rcases List.mem_append.1 hW with hW | hW
        · obtain ⟨W', hW', rfl⟩ := List.mem_map.1 hW
          obtain ⟨g1, g2, g3⟩ := hG1.good W' hW'
          refine ⟨g1.cons_cons s, ?_, by rw [← happ]; exact g3⟩
          simp only [List.length_append, List.length_nil, List.length_cons] at g2 ⊢
          omega
        · exact ⟨(hG2.good W hW).1.cons s, (hG2.good W hW).2⟩
      · rw [List.nodup_append]
        refine ⟨hG1.nodup.map (fun a b h => by simpa using h), hG2.nodup, ?_⟩
        rintro W hW W2 hW2 rfl
        obtain ⟨W', _, rfl⟩ := List.mem_map.1 hW
        exact hsrest ((hG2.good _ hW2).1.subset (by simp))
      · refine Dom.trans hi.inv.num hG1.inv.inv.num hG2.inv.inv.num ?_ hG2.mono
        rw [← ht]; exact hG1.mono
      · intro W hW hl hoc
        rcases hsplit W hW with h | ⟨W', rfl, h⟩
        · rcases hG2.all W h hl hoc with h | h
          · exact .inl (by simp [h])
          · exact .inr h
        · rw [← happ] at hoc ⊢
          rcases hG1.all W' h (by simp only [List.length_append, List.length_nil, List.length_cons] at hl ⊢; omega) hoc with h | ⟨h1, h2⟩
          · exact .inl (by simp [h])
          · exact .inr ⟨h1, Dom.rank hG2.mono hG1.inv.inv.num hG2.inv.inv.num h2⟩

/-! ### iterative deepening -/

/-- what holds after the iterations up to the complexity `c` -/
structure DeepSpec (cfg : IDSDConfig) (df : Frame) (target : Str × Str) (c : Nat) (st : IDSDState) (N : List (List Selector)) : Prop where
  calls : st.calls = N.map Pattern.new
  good : ∀ X ∈ N, X.Sublist ((selectorPairs df target.1).map (·.1)) ∧ X ≠ [] ∧ X.length ≤ c ∧ OccursIn df X
  nodup : N.Nodup
  inv : SInv cfg df target st.calls st.top
  all : ∀ X, X.Sublist ((selectorPairs df target.1).map (·.1)) → X ≠ [] → X.length ≤ c → OccursIn df X →
    X ∈ N ∨ (covOf df target X < cfg.covT ∧ ∃ e ∈ st.top, 0 < e.rank)

theorem growTree_spec (hf : NominalFrame df target) (hm : MaskOK df target mask) (hn : 0 < df.nrows) (hnum : 0 < cfg.num) (c : Nat) (st : IDSDState)
    (N : List (List Selector)) (ha : AppsOK df target st.apps) (hD : DeepSpec cfg df target c st N) :
    ∃ st' N', growTree cfg (c + 1) (tpOf df target []) (fpOf df target []) mask ((selectorPairs df target.1).map (·.1)) (Pattern.new [])
        (List.replicate df.nrows true) st = .ok st' ∧ st'.apps = st.apps ∧ DeepSpec cfg df target (c + 1) st' N' := by
  have hnod := nodup_sels hf
  have htext : ∀ s ∈ (selectorPairs df target.1).map (·.1), TextEq s := fun s hs => ((mem_sels hf).1 hs).1.2
  have hsl : ∀ X : List Selector, X.Sublist ((selectorPairs df target.1).map (·.1)) → (Pattern.new X).len = X.length := fun X hX =>
    new_len (fun t ht => htext t (hX.subset ht)) (hX.nodup hnod)
  have hlen : ∀ q ∈ st.calls, q.len ≤ c := by
    rw [hD.calls]
    intro q hq
    obtain ⟨X, hX, rfl⟩ := List.mem_map.1 hq
    rw [hsl X (hD.good X hX).1]
    exact (hD.good X hX).2.2.1
  unfold growTree
  rw [replicate_eq_covBits]
  obtain ⟨st1, b, hv, ha1, hcase⟩ := visit_cases (cfg := cfg) hm hn (c + 1) (p := Pattern.new []) (X := []) (mem_new (by simp)) (by simp) st ha
  rw [hv]
  have happs1 : AppsOK df target st1.apps := by rw [ha1]; exact ha
  have hl0 : (Pattern.new []).len = 0 := new_len (X := []) (by simp) (by simp)
  have hocc : OccursIn df [] := ⟨0, hn, fun s hs => by simp at hs⟩
  rcases hcase with ⟨rfl, ht, hcl, hno⟩ | ⟨rfl, hpl, _⟩ | ⟨rfl, hpl, ho, ht, hcl⟩
  · simp only
    refine ⟨st1, N, rfl, ha1, by rw [hcl]; exact hD.calls, fun X hX => ?_, hD.nodup, by rw [ht, hcl]; exact hD.inv, ?_⟩
    · obtain ⟨h1, h2, h3, h4⟩ := hD.good X hX
      exact ⟨h1, h2, by omega, h4⟩
    · intro X h1 h2 h3 h4
      right
      rcases hno with hno | ⟨hno, hr⟩
      · exact absurd hocc hno
      · exact ⟨lt_of_le_of_lt (covOf_mono hn (by simp)) hno, by rw [ht]; exact hr⟩
  · rw [hl0] at hpl; omega
  · simp only
    obtain ⟨st', M, hg, hG⟩ := growLoop_spec (cfg := cfg) hf hm hn hnum (c + 1) ((selectorPairs df target.1).map (·.1)) [] st1 (by simp) (by simp) happs1
      (by rw [ht, hcl]; exact hD.inv) (by rw [hcl]; intro q hq; have := hlen q hq; omega)
      (fun W hW hl hmem => by
        rw [hcl] at hmem
        have := hlen _ hmem
        simp only [List.nil_append, List.length_nil, Nat.zero_add] at this hl
        rw [hsl W hW] at this
        omega)
    refine ⟨st', N ++ M, hg, hG.apps.trans ha1, ?_, ?_, ?_, hG.inv, ?_⟩
    · rw [hG.calls, hcl, hD.calls]; simp
    · intro X hX
      rcases List.mem_append.1 hX with hX | hX
      · obtain ⟨h1, h2, h3, h4⟩ := hD.good X hX
        exact ⟨h1, h2, by omega, h4⟩
      · obtain ⟨h1, h2, h3⟩ := hG.good X hX
        simp only [List.length_nil, Nat.zero_add, List.nil_append] at h2 h3
        exact ⟨h1, by rintro rfl; simp at h2, by omega, h3⟩
    · rw [List.nodup_append]
      refine ⟨hD.nodup, hG.nodup, ?_⟩
      rintro X hX X' hX' rfl
      have h1 := (hD.good X hX).2.2.1
      have h2 := (hG.good X hX').2.1
      simp only [List.length_nil, Nat.zero_add] at h2
      omega
    · intro X h1 h2 h3 h4
      rcases Nat.lt_or_ge c X.length with h | h
      · rcases hG.all X h1 (by simp; omega) (by simpa using h4) with h | h
        · exact .inl (by simp [h])
        · exact .inr (by simpa using h)
      · rcases hD.all X h1 h2 h h4 with h | ⟨h5, h6⟩
        · exact .inl (by simp [h])
        · refine .inr ⟨h5, Dom.rank hG.mono ?_ hG.inv.inv.num ?_⟩
          · rw [ht]; exact hD.inv.inv.num
          · rw [ht]; exact h6

theorem deepen_spec (hf : NominalFrame df target) (hm : MaskOK df target mask) (hn : 0 < df.nrows) (hnum : 0 < cfg.num) (k : Nat) :
    ∀ (c : Nat) (st : IDSDState) (N : List (List Selector)), AppsOK df target st.apps → DeepSpec cfg df target c st N →
    ∃ st' N', deepen cfg (tpOf df target []) (fpOf df target []) mask ((selectorPairs df target.1).map (·.1)) df.nrows
        ((List.range k).map (fun i => c + i + 1)) st = .ok st' ∧ st'.apps = st.apps ∧ DeepSpec cfg df target (c + k) st' N' := by
  induction k with
  | zero => intro c st N _ hD; exact ⟨st, N, rfl, rfl, hD⟩
  | succ k ih =>
    intro c st N ha hD
    rw [List.range_succ_eq_map, List.map_cons, List.map_map, deepen]
    obtain ⟨st1, N1, hg, ha1, hD1⟩ := growTree_spec hf hm hn hnum c st N ha hD
    rw [Nat.add_zero, hg]
    simp only
    obtain ⟨st', N', h1, h2, h3⟩ := ih (c + 1) st1 N1 (by rw [ha1]; exact ha) hD1
    refine ⟨st', N', ?_, h2.trans ha1, ?_⟩
    · rw [← h1]
      congr 1
      apply List.map_congr_left
      intro i _
      simp only [Function.comp]
      omega
    · have : c + (k + 1) = c + 1 + k := by omega
      rw [this]; exact h3

end
end Verif.IDSD
