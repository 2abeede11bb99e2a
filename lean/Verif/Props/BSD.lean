import Verif.Lemmas.BSDFit
import Verif.Props.VLSD
/-! Properties C31–C34, C53, C54: BSD, CBSD and CPBSD. -/
namespace Verif
open Spec
section
open Classical

/-! ## specification -/
namespace Spec

/-- `_handle_individual_result` on one candidate after another -/
def handleAll (v : BSDVariant) (num : Nat) : BSDState → List BSDCand → Except PyErr BSDState
  | st, [] => .ok st
  | st, c :: cs =>
    match BSD.handle v num st c.entry c.pos c.neg with
    | .error e => .error e
    | .ok (st1, _) => handleAll v num st1 cs

/-- two candidates have the same description -/
def SameDescription (a b : BSDCand) : Prop := a.entry.pat.eq b.entry.pat = true

/-- the line of the file for an exact description -/
structure ExactBSDLine (cfg : BSDConfig) (df : Frame) (target : Str × Str) (X : List Selector) (l : BSDLine) : Prop where
  describes : Describes target X
  sorted : X.Pairwise (fun a b => a.lt b = true)
  occurs : OccursIn df X
  subgroup : l.subgroup = ⟨⟨X⟩, targetSel target⟩
  tp : l.tp = tpOf df target X
  fp : l.fp = fpOf df target X
  TP : l.TP = tpOf df target []
  FP : l.FP = fpOf df target []
  quality : bsdQuality cfg df target X = .ok l.quality

/-- a selector that the search uses: it is about another attribute than the target, occurs, and covers enough positive rows -/
def BSDFrequentSel (cfg : BSDConfig) (df : Frame) (target : Str × Str) (s : Selector) : Prop :=
  Describes target [s] ∧ OccursIn df [s] ∧ cfg.minSupport ≤ (tpOf df target [s] : Rat)

/-- what each algorithm promises about two reported descriptions with qualities `p` and `q` -/
def RowsApart (v : BSDVariant) (df : Frame) (target : Str × Str) (X Y : List Selector) (p q : Rat) : Prop :=
  match v with
  | .bsd => ¬ RowDominated df target X Y ∧ ¬ RowDominated df target Y X
  | .cbsd => p = q → ∃ i, i < df.nrows ∧ ¬ (Covers df X i ↔ Covers df Y i)
  | .cpbsd => p = q → ∃ i, i < df.nrows ∧ MatchesAt df (targetSel target) i ∧ ¬ (Covers df X i ↔ Covers df Y i)

end Spec

open BSD

theorem handleAll_run {v : BSDVariant} {num P N : Nat} (cands : List BSDCand) (hg : ∀ c ∈ cands, GoodCand P N c) (st st' : BSDState)
    (h : handleAll v num st cands = .ok st') : Run v num P st (cands.map (·.entry)) st' := by
  induction cands generalizing st with
  | nil => cases h; exact .nil _
  | cons c cs ih =>
    unfold handleAll at h
    have hc := hg c (by simp)
    have e1 : c.pos = c.entry.bits.take P := by rw [hc.bits, List.take_left' hc.pos]
    have e2 : c.neg = c.entry.bits.drop P := by rw [hc.bits, List.drop_left' hc.pos]
    cases hh : BSD.handle v num st c.entry c.pos c.neg with
    | error e => rw [hh] at h; cases h
    | ok r =>
      obtain ⟨st1, kept⟩ := r
      rw [hh] at h
      simp only at h
      rw [e1, e2] at hh
      exact .handle hh (ih (fun c' h' => hg c' (by simp [h'])) st1 h)

theorem good_real {P N : Nat} {c : BSDCand} (h : GoodCand P N c) : RealE (P + N) c.entry :=
  ⟨h.sels, by rw [h.bits, List.length_append, h.pos, h.neg], h.quality⟩

theorem kInv_fresh {num len : Nat} : KInv num len BSDState.fresh.k := ⟨Or.inl rfl, by simp [BSDState.fresh]⟩

theorem real_fresh : realEntries BSDState.fresh.k = [] := realEntries_dummy

/-- C31: after any sequence of candidates handled by a new object, the list is the dummy entry alone or at most `num` of the candidates; it
is in ascending order of quality; every candidate is counted as visited, and as either unselected or in the list. -/
theorem C31_history (v : BSDVariant) (num P N : Nat) (hn : 0 < num) (cands : List BSDCand) (hg : ∀ c ∈ cands, GoodCand P N c) (st' : BSDState)
    (h : handleAll v num .fresh cands = .ok st') :
    (st'.k = [BSDEntry.dummy] ∨ (st'.k ≠ [] ∧ ∀ e ∈ st'.k, ∃ c ∈ cands, e = c.entry)) ∧
    st'.k.length ≤ num ∧
    st'.k.Pairwise (fun a b => a.quality ≤ b.quality) ∧
    st'.visited = cands.length ∧
    st'.unselected + (realEntries st'.k).length = cands.length ∧
    st'.pruned ≤ cands.length := by
  have hr := handleAll_run cands hg _ _ h
  have hs := run_spec (N := N) hn hr kInv_fresh (by
    intro e he; obtain ⟨c, hc, rfl⟩ := List.mem_map.1 he; exact good_real (hg c hc))
  have hb : st'.skipped = 0 ∧ st'.branches = 0 := by
    clear hs
    have : ∀ (cands : List BSDCand) (st : BSDState), (∀ c ∈ cands, GoodCand P N c) → KInv num (P + N) st.k → handleAll v num st cands = .ok st' →
        st'.skipped = st.skipped ∧ st'.branches = st.branches := by
      intro cands
      induction cands with
      | nil => intro st _ _ h; cases h; exact ⟨rfl, rfl⟩
      | cons c cs ih =>
        intro st hg hk h
        unfold handleAll at h
        cases hh : BSD.handle v num st c.entry c.pos c.neg with
        | error e => rw [hh] at h; cases h
        | ok r =>
          obtain ⟨st1, kept⟩ := r
          rw [hh] at h
          simp only at h
          have hsp := (handle_spec (v := v) (st := st) (hg c (by simp)) hn hk).1 _ _ hh
          obtain ⟨i1, i2⟩ := ih st1 (fun c' h' => hg c' (by simp [h'])) hsp.inv h
          rw [i1, i2, hsp.rest]
          exact ⟨rfl, rfl⟩
    exact this cands _ hg kInv_fresh h
  refine ⟨?_, ?_, hs.inv.sorted, ?_, ?_, ?_⟩
  · rcases hs.inv.shape with h | ⟨h1, _, h3⟩
    · exact Or.inl h
    · refine Or.inr ⟨h1, fun e he => ?_⟩
      have := hs.mem e (by rw [realEntries_of h3]; exact he)
      rw [real_fresh] at this
      simp only [List.not_mem_nil, false_or, List.mem_map] at this
      obtain ⟨c, hc, rfl⟩ := this
      exact ⟨c, hc, rfl⟩
  · rcases hs.inv.shape with h | ⟨_, h2, _⟩
    · rw [h]; exact hn
    · exact h2
  · rw [hs.visited]; simp [BSDState.fresh]
  · have := hs.account
    rw [hb.1, hb.2, real_fresh] at this
    simpa [BSDState.fresh] using this
  · have := hs.pruned_le
    rw [hb.2] at this
    simpa [BSDState.fresh] using this

/-- C32, on any history: when no two candidates have the same description, no two entries of BSD's list are such that one is dominated by
the other. -/
theorem C32_history (num P N : Nat) (hn : 0 < num) (cands : List BSDCand) (hg : ∀ c ∈ cands, GoodCand P N c)
    (hd : cands.Pairwise (fun a b => ¬ SameDescription a b)) (st' : BSDState) (h : handleAll .bsd num .fresh cands = .ok st') :
    (realEntries st'.k).Pairwise (fun a b => ¬ Dominated P a b ∧ ¬ Dominated P b a) := by
  have hr := handleAll_run cands hg _ _ h
  refine run_pairs (v := .bsd) (N := N) hn hr kInv_fresh (by
    intro e he; obtain ⟨c, hc, rfl⟩ := List.mem_map.1 he; exact good_real (hg c hc)) ?_ (by rw [real_fresh]; simp) (by rw [real_fresh]; simp)
  rw [List.pairwise_map]
  exact hd.imp (fun h => by simpa [SameDescription] using h)

/-- C54, on any history: entries of equal quality of the list of CBSD have different bits, and those of CPBSD different positive bits. -/
theorem C54_history (num P N : Nat) (hn : 0 < num) (cands : List BSDCand) (hg : ∀ c ∈ cands, GoodCand P N c)
    (hd : cands.Pairwise (fun a b => ¬ SameDescription a b)) (st' : BSDState) :
    (handleAll .cbsd num .fresh cands = .ok st' → (realEntries st'.k).Pairwise (fun a b => a.quality = b.quality → a.bits ≠ b.bits)) ∧
    (handleAll .cpbsd num .fresh cands = .ok st' → (realEntries st'.k).Pairwise (fun a b => a.quality = b.quality → a.bits.take P ≠ b.bits.take P)) := by
  have key : ∀ v, handleAll v num .fresh cands = .ok st' → (realEntries st'.k).Pairwise (Apart v P) := by
    intro v h
    have hr := handleAll_run cands hg _ _ h
    refine run_pairs (v := v) (N := N) hn hr kInv_fresh (by
      intro e he; obtain ⟨c, hc, rfl⟩ := List.mem_map.1 he; exact good_real (hg c hc)) ?_ (by rw [real_fresh]; simp) (by rw [real_fresh]; simp)
    rw [List.pairwise_map]
    exact hd.imp (fun h => by simpa [SameDescription] using h)
  exact ⟨fun h => key _ h, fun h => key _ h⟩

/-! ## `fit` -/
variable {cfg : BSDConfig} {df : Frame} {target : Str × Str}

theorem isSel_describes {s : Selector} : IsSel target s ↔ Describes target [s] := by simp [IsSel, Describes]

theorem fit_fresh (hn : 0 < cfg.num) (ha : BSDAbove cfg df target) (hf : NominalFrame df target) (ht : TextsFaithful df target) {st' : BSDState}
    (h : cfg.fit .fresh df target = .ok st') : ∃ F es st1, FreqSpec cfg.minSupport df target F ∧
      BSD.SearchSpec cfg df target cfg.maxDepth ⟨[]⟩ F .fresh st1 es ∧ RunSpec cfg.num (nP df target) (nN df target) .fresh es st1 ∧
      st' = { st1 with
        selected := (realEntries st1.k).length
        file := (realEntries st1.k).map (fun e => ⟨⟨e.pat, targetSel target⟩, e.quality, e.tp, e.fp, tpOf df target [], fpOf df target []⟩) } := by
  obtain ⟨F, es, st1, h1, h2, h3⟩ := (BSD.fit_spec hn ha hf ht .fresh stOK_fresh).1 st' h
  exact ⟨F, es, st1, h1, h2, run_spec hn h2.run kInv_fresh (fun e he => exact_real ha (h2.exact e he)), h3⟩

/-- C31 for one `fit` of a new object (any of the three algorithms): the file has at most `num` lines, in ascending order of quality, each
exact and about a description handled; the counters account for every description handled, every one skipped because it covers no row and
every branch pruned (a pruned branch counts as one more unselected subgroup). -/
theorem C31_fit (hn : 0 < cfg.num) (ha : BSDAbove cfg df target) (hf : NominalFrame df target) (ht : TextsFaithful df target) (st' : BSDState)
    (h : cfg.fit .fresh df target = .ok st') :
    st'.file.length ≤ cfg.num ∧ st'.file.Pairwise (fun a b => a.quality ≤ b.quality) ∧
    (∀ l ∈ st'.file, ∃ e ∈ st'.calls, ExactBSDLine cfg df target e.pat.sels l) ∧
    st'.selected = st'.file.length ∧ st'.visited = st'.calls.length ∧
    st'.selected + st'.unselected = st'.visited + st'.skipped + st'.branches ∧
    st'.branches ≤ st'.pruned ∧ st'.pruned ≤ st'.branches + st'.visited := by
  obtain ⟨F, es, st1, _, hS, hR, rfl⟩ := fit_fresh hn ha hf ht h
  have hcalls : st1.calls = es := by rw [hR.calls]; simp [BSDState.fresh]
  refine ⟨?_, ?_, ?_, ?_, ?_, ?_, ?_, ?_⟩
  · simp only [List.length_map]; exact hR.inv.real.2
  · simp only [List.pairwise_map]; exact hR.inv.sorted.sublist List.filter_sublist
  · intro l hl
    obtain ⟨e, he, rfl⟩ := List.mem_map.1 hl
    have := hR.mem e he
    rw [real_fresh] at this
    simp only [List.not_mem_nil, false_or] at this
    have hex := hS.exact e this
    exact ⟨e, by simp only; rw [hcalls]; exact this, hex.describes, hex.sorted, hex.occurs, rfl, hex.tp, hex.fp, rfl, rfl, hex.quality⟩
  · simp
  · simp only; rw [hR.visited, hcalls]; simp [BSDState.fresh]
  · have := hR.account
    have hv := hR.visited
    rw [real_fresh] at this
    simp only [BSDState.fresh, List.length_nil] at this hv ⊢
    omega
  · have := hR.pruned
    simp only [BSDState.fresh] at this ⊢
    omega
  · have := hR.pruned_le
    have hv := hR.visited
    simp only [BSDState.fresh] at this hv ⊢
    omega

theorem sels_eq_of_keys {l m : List Selector} (hl : ∀ s ∈ l, TextEq s) (hm : ∀ s ∈ m, TextEq s) (h : l.map Selector.key = m.map Selector.key) : l = m := by
  induction l generalizing m with
  | nil => cases m with
    | nil => rfl
    | cons b m => simp at h
  | cons a l ih => cases m with
    | nil => simp at h
    | cons b m =>
      simp only [List.map_cons, List.cons.injEq] at h
      rw [TextEq.key_inj (hl a (by simp)) (hm b (by simp)) h.1, ih (fun s hs => hl s (by simp [hs])) (fun s hs => hm s (by simp [hs])) h.2]

/-- entries that are apart describe different sets of rows -/
theorem apart_rows {v : BSDVariant} {a b : BSDEntry} (ha : ExactEntry cfg df target a) (hb : ExactEntry cfg df target b) (h : Apart v (nP df target) a b) :
    RowsApart v df target a.pat.sels b.pat.sels a.quality b.quality := by
  cases v with
  | bsd => exact ⟨fun hh => h.1 ((dominated_iff ha hb).2 hh), fun hh => h.2 ((dominated_iff hb ha).2 hh)⟩
  | cbsd =>
    intro hq
    by_contra hc
    push Not at hc
    apply h hq
    rw [ha.bits, hb.bits]
    have : ∀ rows : List Nat, (∀ i ∈ rows, i < df.nrows) → bitsFor df rows a.pat.sels = bitsFor df rows b.pat.sels := by
      intro rows hr
      apply List.map_congr_left
      intro i hi
      rw [decide_eq_decide]
      exact hc i (hr i hi)
    rw [this (posRows df target) (fun i hi => List.mem_range.1 (List.mem_of_mem_filter hi)), this (negRows df target) (fun i hi => List.mem_range.1 (List.mem_of_mem_filter hi))]
  | cpbsd =>
    intro hq
    by_contra hc
    push Not at hc
    apply h hq
    rw [ha.bits, hb.bits, List.take_left' (length_bitsFor _ _), List.take_left' (length_bitsFor _ _)]
    apply List.map_congr_left
    intro i hi
    obtain ⟨h1, h2⟩ := List.mem_filter.1 hi
    rw [decide_eq_decide]
    exact hc i (List.mem_range.1 h1) (of_decide_eq_true h2)

/-- the reported descriptions are pairwise apart -/
theorem fit_apart (hn : 0 < cfg.num) (ha : BSDAbove cfg df target) (hf : NominalFrame df target) (ht : TextsFaithful df target) (st' : BSDState)
    (h : cfg.fit .fresh df target = .ok st') :
    st'.file.Pairwise (fun a b => RowsApart cfg.variant df target a.subgroup.description.sels b.subgroup.description.sels a.quality b.quality) := by
  obtain ⟨F, es, st1, _, hS, hR, rfl⟩ := fit_fresh hn ha hf ht h
  have hp := run_pairs (v := cfg.variant) (N := nN df target) hn hS.run kInv_fresh (fun e he => exact_real ha (hS.exact e he))
    (hS.nodup.imp_of_mem (fun {a b} h1 h2 hne => by
      cases he : a.pat.eq b.pat with
      | false => rfl
      | true =>
        exfalso
        apply hne
        have hk := (Pattern.eq_iff_keys _ _).1 he
        have hxa := hS.exact a h1
        have hxb := hS.exact b h2
        exact sels_eq_of_keys (fun s hs => (hxa.describes.2 s hs).2) (fun s hs => (hxb.describes.2 s hs).2) hk))
    (by rw [real_fresh]; simp) (by rw [real_fresh]; simp)
  simp only [List.pairwise_map]
  refine hp.imp_of_mem ?_
  intro a b h1 h2 hab
  have hm : ∀ e ∈ realEntries st1.k, ExactEntry cfg df target e := by
    intro e he
    have := hR.mem e he
    rw [real_fresh] at this
    simp only [List.not_mem_nil, false_or] at this
    exact hS.exact e this
  exact apart_rows (hm a h1) (hm b h2) hab

/-- C32 for one `fit` of a new object: no reported subgroup is dominated by another reported one. -/
theorem C32_fit (hv : cfg.variant = .bsd) (hn : 0 < cfg.num) (ha : BSDAbove cfg df target) (hf : NominalFrame df target) (ht : TextsFaithful df target)
    (st' : BSDState) (h : cfg.fit .fresh df target = .ok st') :
    st'.file.Pairwise (fun a b => ¬ RowDominated df target a.subgroup.description.sels b.subgroup.description.sels ∧
      ¬ RowDominated df target b.subgroup.description.sels a.subgroup.description.sels) := by
  have := fit_apart hn ha hf ht st' h
  rw [hv] at this
  exact this

/-- C54 for one `fit` of a new object: two reported subgroups of equal quality do not cover the same rows (CBSD), or not the same positive
rows (CPBSD). -/
theorem C54_fit (hn : 0 < cfg.num) (ha : BSDAbove cfg df target) (hf : NominalFrame df target) (ht : TextsFaithful df target)
    (st' : BSDState) (h : cfg.fit .fresh df target = .ok st') :
    (cfg.variant = .cbsd → st'.file.Pairwise (fun a b => a.quality = b.quality →
      ∃ i, i < df.nrows ∧ ¬ (Covers df a.subgroup.description.sels i ↔ Covers df b.subgroup.description.sels i))) ∧
    (cfg.variant = .cpbsd → st'.file.Pairwise (fun a b => a.quality = b.quality →
      ∃ i, i < df.nrows ∧ MatchesAt df (targetSel target) i ∧ ¬ (Covers df a.subgroup.description.sels i ↔ Covers df b.subgroup.description.sels i))) := by
  have := fit_apart hn ha hf ht st' h
  constructor <;> intro hv <;> rw [hv] at this <;> exact this

/-- C33: `fit` of a new object does not fail when measure and estimate are defined on the descriptions of the data and, for BSD, some row is
negative. BSD does fail on data in which every row is positive (`C33_fails`). -/
theorem C33_runs (hn : 0 < cfg.num) (ha : BSDAbove cfg df target) (hf : NominalFrame df target) (ht : TextsFaithful df target)
    (hno : BSDNoErr cfg df target) : ∃ st', cfg.fit .fresh df target = .ok st' :=
  (BSD.fit_spec hn ha hf ht .fresh stOK_fresh).2 hno

/-- C34: the frequent selectors are exactly those of the data with at least `min_support` positive rows, each once, in decreasing order of
positive rows. -/
theorem C34_frequent (hf : NominalFrame df target) (minSupport : Rat) :
    ∃ mask, targetMask df target = .ok mask ∧
    (∀ s, s ∈ BitsetBSD.frequent minSupport df target.1 mask ↔ Describes target [s] ∧ OccursIn df [s] ∧ minSupport ≤ (tpOf df target [s] : Rat)) ∧
    (BitsetBSD.frequent minSupport df target.1 mask).Nodup ∧
    (BitsetBSD.frequent minSupport df target.1 mask).Pairwise (fun a b => tpOf df target [b] ≤ tpOf df target [a]) := by
  obtain ⟨mask, hm0, hm1, hm2⟩ := targetMask_ok hf
  have hF := frequent_spec (cfg := ⟨.bsd, minSupport, fun _ => .ok 0, fun _ => .ok 0, 0, 0, [], []⟩) hf ⟨hm1, hm2⟩
  exact ⟨mask, hm0, fun s => by rw [hF.mem s, isSel_describes], hF.nodup, hF.sorted⟩

/-- C34: when the texts of the selectors are unambiguous, the bit arrays that `build_bitset` stores for a set `F` of selectors of the data
have one bit per positive, respectively negative, row, in order, which is set exactly when the selector matches the row. -/
theorem C34_bits (hf : NominalFrame df target) (ht : TextsFaithful df target) (F : List Selector)
    (hF : ∀ s ∈ F, Describes target [s] ∧ OccursIn df [s]) :
    ∃ mask, targetMask df target = .ok mask ∧ ∀ s ∈ F,
      BitsetBSD.get (BitsetBSD.build df target.1 mask F).1 s = .ok ((posRows df target).map (fun i => decide (MatchesAt df s i))) ∧
      BitsetBSD.get (BitsetBSD.build df target.1 mask F).2 s = .ok ((negRows df target).map (fun i => decide (MatchesAt df s i))) := by
  obtain ⟨mask, hm0, hm1, hm2⟩ := targetMask_ok hf
  have hB := build_spec hf ⟨hm1, hm2⟩ ht (F := F) (fun s hs => ⟨isSel_describes.2 (hF s hs).1, (hF s hs).2⟩)
  have hc : ∀ s i, Covers df [s] i ↔ MatchesAt df s i := fun s i => by simp [Covers]
  refine ⟨mask, hm0, fun s hs => ?_⟩
  rw [hB.pos s hs, hB.neg s hs]
  constructor <;> (unfold bitsFor; congr 1; apply List.map_congr_left; intro i _; rw [decide_eq_decide]; exact hc s i)

/-- C34: every description that the search of a new object handles is exact (bits, tp, fp, quality, estimate), consists of frequent
selectors, has at most `max_depth + 1` of them, and is handled only once. -/
theorem C34_exact (hn : 0 < cfg.num) (ha : BSDAbove cfg df target) (hf : NominalFrame df target) (ht : TextsFaithful df target) (st' : BSDState)
    (h : cfg.fit .fresh df target = .ok st') :
    (∀ e ∈ st'.calls, ExactEntry cfg df target e ∧ (∀ s ∈ e.pat.sels, BSDFrequentSel cfg df target s) ∧ e.pat.sels.length ≤ cfg.maxDepth + 1) ∧
    st'.calls.Pairwise (fun a b => a.pat.sels ≠ b.pat.sels) := by
  obtain ⟨F, es, st1, hF, hS, hR, rfl⟩ := fit_fresh hn ha hf ht h
  have hcalls : st1.calls = es := by rw [hR.calls]; simp [BSDState.fresh]
  simp only [hcalls]
  refine ⟨fun e he => ⟨hS.exact e he, fun s hs => ?_, ?_⟩, hS.nodup⟩
  · rcases (hS.above e he).2 s hs with h | h
    · simp at h
    · obtain ⟨g1, g2, g3⟩ := (hF.mem s).1 h
      exact ⟨isSel_describes.1 g1, g2, g3⟩
  · have := (hS.length e he).2
    simpa using this

/-- C53: the best reported quality is the best one: with an estimate that bounds the quality of refinements and, for BSD, a measure that
does not decrease with more positives and fewer negatives, every description of at most `max_depth + 1` frequent selectors that occurs in
the data has at most the quality of some reported subgroup. -/
theorem C53_best (hn : 0 < cfg.num) (ha : BSDAbove cfg df target) (hf : NominalFrame df target) (ht : TextsFaithful df target)
    (hb : BSDBounds cfg df target) (hm : cfg.variant = .bsd → BSDMonotone cfg df target) (st' : BSDState) (h : cfg.fit .fresh df target = .ok st')
    (X : List Selector) (q : Rat) (hX : X ≠ []) (hXn : X.Nodup) (hXs : ∀ s ∈ X, BSDFrequentSel cfg df target s) (hXl : X.length ≤ cfg.maxDepth + 1)
    (hXo : OccursIn df X) (hq : bsdQuality cfg df target X = .ok q) : ∃ l ∈ st'.file, q ≤ l.quality := by
  obtain ⟨F, es, st1, hF, hS, hR, rfl⟩ := fit_fresh hn ha hf ht h
  have hmono : Mono cfg df target := by
    intro hv a b hxa hxb hd
    obtain ⟨c1, c2⟩ := rowDominated_counts ((dominated_iff hxa hxb).1 hd)
    exact hm hv _ _ _ _ hxa.describes hxb.describes hxa.occurs hxb.occurs c1 c2 hxa.quality hxb.quality
  obtain ⟨e, he, hle⟩ := hS.best hmono hb X X q hX hXn
    (fun z hz => (hF.mem z).2 ⟨isSel_describes.2 (hXs z hz).1, (hXs z hz).2.1, (hXs z hz).2.2⟩) hXl (by simp) hXo hq
  have hlow := ha X q ⟨hX, fun s hs => isSel_describes.2 (hXs s hs).1⟩ hXo hq
  have her : e ∈ realEntries st1.k := by
    rcases hR.inv.shape with hk | ⟨_, _, hk⟩
    · rw [hk] at he
      rw [List.mem_singleton.1 he] at hle
      exact absurd (lt_of_lt_of_le hlow hle) (lt_irrefl _)
    · rw [realEntries_of hk]; exact he
  exact ⟨_, List.mem_map_of_mem her, hle⟩

/-- C53 for the measures of the library: WRAcc with its estimate, and Piatetsky-Shapiro with either of its estimates (on data of fewer than
99999 rows), satisfy the conditions on every data frame, whatever the additional parameters. -/
theorem C53_library (cfg : BSDConfig) (v : BSDVariant) (minS : Rat) (num depth : Nat) (x xo : Params)
    (hcfg : cfg = BSDConfig.new v minS Measure.wracc.compute Measure.wraccOE1.compute num depth x xo ∨
      ∃ oe, (oe = Measure.psOE1 ∨ oe = Measure.psOE2) ∧ cfg = BSDConfig.new v minS Measure.piatetskyShapiro.compute oe.compute num depth x xo ∧
        df.nrows < 99999) :
    BSDAbove cfg df target ∧ BSDBounds cfg df target ∧ BSDMonotone cfg df target ∧
      ∀ X, Describes target X → OccursIn df X → (∃ q, bsdQuality cfg df target X = .ok q) ∧ ∃ o, bsdEstimate cfg df target X = .ok o := by
  have hn : ∀ m, m = Measure.piatetskyShapiro ∨ m = Measure.psOE1 ∨ m = Measure.psOE2 ∨ m = Measure.wracc ∨ m = Measure.wraccOE1 →
      ∀ k ∈ needs m, k = kTp ∨ k = kFp ∨ k = kTP ∨ k = kFP := by
    rintro m (rfl | rfl | rfl | rfl | rfl) k hk <;> simp [needs] at hk <;> tauto
  have hle : ∀ X, tpOf df target X ≤ tpOf df target [] ∧ fpOf df target X ≤ fpOf df target [] :=
    fun X => ⟨tpOf_mono (by simp), fpOf_mono (by simp)⟩
  have hpos : ∀ X, OccursIn df X → 0 < tpOf df target X + fpOf df target X := fun X h => (occurs_iff (target := target)).2 h
  -- the values
  have hval : ∀ X, OccursIn df X →
      Measure.wracc.compute (counts (tpOf df target X) (fpOf df target X) (tpOf df target []) (fpOf df target [])) =
        .ok (((tpOf df target X : Rat) * fpOf df target [] - fpOf df target X * tpOf df target []) / ((tpOf df target [] : Rat) + fpOf df target []) ^ 2) ∧
      Measure.piatetskyShapiro.compute (counts (tpOf df target X) (fpOf df target X) (tpOf df target []) (fpOf df target [])) =
        .ok (((tpOf df target X : Rat) * fpOf df target [] - fpOf df target X * tpOf df target []) / ((tpOf df target [] : Rat) + fpOf df target [])) := by
    intro X hX
    have h1 := hpos X hX
    have h2 := hle X
    generalize tpOf df target X = tp at *
    generalize fpOf df target X = fp at *
    generalize tpOf df target [] = TP at *
    generalize fpOf df target [] = FP at *
    let w : Str → Rat := fun k => if k = kTp then (tp : Rat) else if k = kFp then (fp : Rat) else if k = kTP then (TP : Rat) else FP
    have n0 : (0 : Rat) < tp + fp := by exact_mod_cast h1
    have n2 : (0 : Rat) < TP + FP := by exact_mod_cast (show 0 < TP + FP by omega)
    rw [compute_eq (counts_has tp fp TP FP) .piatetskyShapiro (by simp) w rfl rfl rfl rfl,
      compute_eq (counts_has tp fp TP FP) .wracc (by simp) w rfl rfl rfl rfl]
    simp only [denoms, formula, List.mem_cons, List.not_mem_nil, or_false, show w kTp = tp from rfl,
      show w kFp = fp from rfl, show w kTP = TP from rfl, show w kFP = FP from rfl, @eq_comm Rat 0]
    rw [if_neg (by push Not; exact ⟨ne_of_gt n0, ne_of_gt n2⟩), if_neg (by push Not; exact ⟨ne_of_gt n0, ne_of_gt n2⟩)]
    constructor
    · congr 1; field_simp; ring
    · congr 1; field_simp; ring
  have hTP : tpOf df target [] ≤ df.nrows := by
    unfold tpOf
    exact (List.length_filter_le _ _).trans (by simp)
  have hb := fun X Y (hXY : ∀ s ∈ X, s ∈ Y) (hY : OccursIn df Y) =>
    C16_bound (tpOf df target X) (fpOf df target X) (tpOf df target []) (fpOf df target [])
        (tpOf df target Y) (fpOf df target Y) (hle X).1 (hle X).2 (tpOf_mono hXY) (fpOf_mono hXY) (hpos Y hY)
  have hlow : ∀ X, OccursIn df X → -(tpOf df target [] : Rat) * ((tpOf df target [] : Rat) + fpOf df target []) ≤
      (tpOf df target X : Rat) * fpOf df target [] - fpOf df target X * tpOf df target [] := by
    intro X _
    have h2 : (fpOf df target X : Rat) ≤ fpOf df target [] := by exact_mod_cast (hle X).2
    have h3 : (0 : Rat) ≤ tpOf df target [] := by positivity
    have h4 : (0 : Rat) ≤ tpOf df target X * fpOf df target [] := by positivity
    nlinarith [mul_le_mul_of_nonneg_right h2 h3]
  have hN : ∀ X, OccursIn df X → (0 : Rat) < (tpOf df target [] : Rat) + fpOf df target [] := by
    intro X hX
    have := hpos X hX
    have := hle X
    exact_mod_cast (show 0 < tpOf df target [] + fpOf df target [] by omega)
  have hcmp : ∀ X Y, tpOf df target X ≤ tpOf df target Y → fpOf df target Y ≤ fpOf df target X →
      (tpOf df target X : Rat) * fpOf df target [] - fpOf df target X * tpOf df target [] ≤
        (tpOf df target Y : Rat) * fpOf df target [] - fpOf df target Y * tpOf df target [] := by
    intro X Y h1 h2
    have h1 : (tpOf df target X : Rat) ≤ tpOf df target Y := by exact_mod_cast h1
    have h2 : (fpOf df target Y : Rat) ≤ fpOf df target X := by exact_mod_cast h2
    have h3 : (0 : Rat) ≤ tpOf df target [] := by positivity
    have h4 : (0 : Rat) ≤ fpOf df target [] := by positivity
    nlinarith [mul_le_mul_of_nonneg_right h1 h4, mul_le_mul_of_nonneg_right h2 h3]
  rcases hcfg with rfl | ⟨oe, hoe, rfl, hrows⟩
  · refine ⟨?_, ?_, ?_, ?_⟩
    · intro X q _ hX hq
      unfold bsdQuality at hq
      simp only [BSDConfig.new] at hq
      rw [paramsFor_counts _ (hn _ (by simp)), (hval X hX).1] at hq
      cases hq
      have h0 := hN X hX
      rw [lt_div_iff₀ (by positivity)]
      have h1 := hlow X hX
      have h2 : (0 : Rat) ≤ fpOf df target [] := by positivity
      have h3 : (0 : Rat) ≤ tpOf df target [] := by positivity
      nlinarith [mul_pos h0 h0, mul_nonneg h2 h0.le]
    · intro X Y o q _ hXY hY h1 h2
      obtain ⟨_, q', o', m1, m2, m3⟩ := hb X Y hXY hY
      unfold bsdEstimate at h1
      unfold bsdQuality at h2
      simp only [BSDConfig.new] at h1 h2
      rw [paramsFor_counts _ (hn _ (by simp)), m1] at h2
      rw [paramsFor_counts _ (hn _ (by simp)), m2] at h1
      cases h2; cases h1; exact m3
    · intro X Y p q _ _ hX hY h1 h2 h3 h4
      unfold bsdQuality at h3 h4
      simp only [BSDConfig.new] at h3 h4
      rw [paramsFor_counts _ (hn _ (by simp)), (hval X hX).1] at h3
      rw [paramsFor_counts _ (hn _ (by simp)), (hval Y hY).1] at h4
      cases h3; cases h4
      exact div_le_div_of_nonneg_right (hcmp X Y h1 h2) (by positivity)
    · intro X _ hX
      obtain ⟨_, q', o', m1, m2, m3⟩ := hb X X (by simp) hX
      unfold bsdEstimate bsdQuality
      simp only [BSDConfig.new]
      rw [paramsFor_counts _ (hn _ (by simp)), m1, paramsFor_counts _ (hn _ (by simp)), m2]
      exact ⟨⟨_, rfl⟩, _, rfl⟩
  · refine ⟨?_, ?_, ?_, ?_⟩
    · intro X q _ hX hq
      unfold bsdQuality at hq
      simp only [BSDConfig.new] at hq
      rw [paramsFor_counts _ (hn _ (by simp)), (hval X hX).2] at hq
      cases hq
      have h0 := hN X hX
      rw [lt_div_iff₀ h0]
      have h1 := hlow X hX
      have h3 : (tpOf df target [] : Rat) < 99999 := by exact_mod_cast (show tpOf df target [] < 99999 by omega)
      nlinarith [mul_lt_mul_of_pos_right h3 h0]
    · intro X Y o q _ hXY hY h1 h2
      obtain ⟨⟨q', o1, o2, m1, m2, m3, m4, m5⟩, _⟩ := hb X Y hXY hY
      unfold bsdEstimate at h1
      unfold bsdQuality at h2
      simp only [BSDConfig.new] at h1 h2
      rw [paramsFor_counts _ (hn _ (by simp)), m1] at h2
      cases h2
      rcases hoe with rfl | rfl
      · rw [paramsFor_counts _ (hn _ (by simp)), m2] at h1
        cases h1; exact m4.trans m5
      · rw [paramsFor_counts _ (hn _ (by simp)), m3] at h1
        cases h1; exact m4
    · intro X Y p q _ _ hX hY h1 h2 h3 h4
      unfold bsdQuality at h3 h4
      simp only [BSDConfig.new] at h3 h4
      rw [paramsFor_counts _ (hn _ (by simp)), (hval X hX).2] at h3
      rw [paramsFor_counts _ (hn _ (by simp)), (hval Y hY).2] at h4
      cases h3; cases h4
      exact div_le_div_of_nonneg_right (hcmp X Y h1 h2) (hN X hX).le
    · intro X _ hX
      obtain ⟨⟨q', o1, o2, m1, m2, m3, m4, m5⟩, _⟩ := hb X X (by simp) hX
      unfold bsdEstimate bsdQuality
      simp only [BSDConfig.new]
      rw [paramsFor_counts _ (hn _ (by simp)), m1]
      refine ⟨⟨_, rfl⟩, ?_⟩
      rcases hoe with rfl | rfl
      · rw [paramsFor_counts _ (hn _ (by simp)), m2]; exact ⟨_, rfl⟩
      · rw [paramsFor_counts _ (hn _ (by simp)), m3]; exact ⟨_, rfl⟩

/-- the texts of the selectors are unambiguous when no attribute name has a quote, or none has a blank -/
theorem textsFaithful_of {df : Frame} {target : Str × Str} (h : (∀ c ∈ df.cols, '\'' ∉ c.1) ∨ ∀ c ∈ df.cols, ' ' ∉ c.1) : TextsFaithful df target := by
  have key : ∀ a, OccursIn df [a] → ∃ c ∈ df.cols, c.1 = a.attr := by
    rintro a ⟨i, _, hi⟩
    obtain ⟨col, v, hc, _⟩ := hi a (by simp)
    exact ⟨_, mem_of_lookup hc, rfl⟩
  intro a b _ _ ha hb he
  obtain ⟨c, hc, e1⟩ := key a ha
  obtain ⟨d, hd, e2⟩ := key b hb
  rcases h with h | h
  · exact Selector.str_inj_of_no_quote (e1 ▸ h c hc) (e2 ▸ h d hd) he
  · exact Selector.str_inj_of_no_blank (e1 ▸ h c hc) (e2 ▸ h d hd) he
end

/-! ## examples -/

def Spec.bsdCfg (v : BSDVariant) (num depth : Nat) : BSDConfig := BSDConfig.new v 0 Measure.wracc.compute Measure.wraccOE1.compute num depth [] []

/-- observable part of a run -/
def Spec.bsdRun (v : BSDVariant) (num depth : Nat) (df : Frame) (target : Str × Str) :
    Except PyErr (List (Str × Rat) × Nat × Nat × Nat × Nat) :=
  match (bsdCfg v num depth).fit .fresh df target with
  | .ok st => .ok (st.file.map (fun l => (l.subgroup.description.str, l.quality)), st.visited, st.selected, st.unselected, st.pruned)
  | .error e => .error e

theorem demoFrame_ok : NominalFrame demoFrame (c!"t", c!"yes") := by
  refine ⟨?_, by decide +kernel, ?_, by decide +kernel⟩
  · intro c hc; simp [demoFrame] at hc; rcases hc with rfl | rfl | rfl <;> rfl
  · intro c hc; simp [demoFrame] at hc
    rcases hc with rfl | rfl | rfl <;> simp

example : TextsFaithful demoFrame (c!"t", c!"yes") := by
  apply textsFaithful_of
  left
  intro c hc; simp [demoFrame] at hc; rcases hc with rfl | rfl | rfl <;> decide +kernel

/-- two positive rows and no negative one -/
def Spec.allPositive : Frame := ⟨2, [(c!"a", [.str c!"x", .str c!"x"]), (c!"b", [.str c!"p", .str c!"p"]), (c!"t", [.str c!"y", .str c!"y"])]⟩

def Spec.okPart {α : Type} : Except PyErr α → Option α
  | .ok a => some a
  | .error _ => none

/-- the hypotheses are met by concrete runs of the three algorithms -/
example : okPart (bsdRun .bsd 2 1 demoFrame (c!"t", c!"yes")) = some ([(c!"[b = 'p']", 1 / 8), (c!"[a = 'y']", 1 / 8)], 6, 2, 5, 1) := by decide +kernel
example : okPart (bsdRun .cbsd 2 1 demoFrame (c!"t", c!"yes")) =
    some ([(c!"[a = 'x', b = 'p']", 0), (c!"[a = 'y', b = 'p']", 1 / 8)], 7, 2, 9, 1) := by decide +kernel
example : okPart (bsdRun .cpbsd 2 1 demoFrame (c!"t", c!"yes")) =
    some ([(c!"[a = 'x', b = 'p']", 0), (c!"[a = 'y', b = 'p']", 1 / 8)], 7, 2, 9, 1) := by decide +kernel

theorem allPositive_ok : NominalFrame allPositive (c!"t", c!"y") := by
  refine ⟨?_, by decide +kernel, ?_, by decide +kernel⟩
  · intro c hc; simp [allPositive] at hc; rcases hc with rfl | rfl | rfl <;> rfl
  · intro c hc; simp [allPositive] at hc
    rcases hc with rfl | rfl | rfl <;> simp

/-- C33 without a negative row: BSD with WRAcc and its estimate, which are defined on all descriptions, fails on data in which all rows are
positive (`bits[-0:]` is the whole array, so two arrays of different lengths are combined); CBSD and CPBSD do not. -/
theorem C33_fails : ∃ (df : Frame) (target : Str × Str) (cfg : BSDConfig), NominalFrame df target ∧ TextsFaithful df target ∧ 0 < cfg.num ∧
    BSDAbove cfg df target ∧ BSDBounds cfg df target ∧
    (∀ X, Describes target X → OccursIn df X → (∃ q, bsdQuality cfg df target X = .ok q) ∧ ∃ o, bsdEstimate cfg df target X = .ok o) ∧
    cfg.fit .fresh df target = .error .typeError ∧
    ∀ v, v ≠ .bsd → ∃ st, ({ cfg with variant := v } : BSDConfig).fit .fresh df target = .ok st := by
  have ht : TextsFaithful allPositive (c!"t", c!"y") := by
    apply textsFaithful_of
    left
    intro c hc; simp [allPositive] at hc; rcases hc with rfl | rfl | rfl <;> decide +kernel
  obtain ⟨h1, h2, _, h4⟩ := C53_library (df := allPositive) (target := (c!"t", c!"y")) (bsdCfg .bsd 2 1) .bsd 0 2 1 [] [] (Or.inl rfl)
  refine ⟨allPositive, (c!"t", c!"y"), bsdCfg .bsd 2 1, allPositive_ok, ht, by decide, h1, h2, h4, ?_, ?_⟩
  · have h : (match (bsdCfg .bsd 2 1).fit .fresh allPositive (c!"t", c!"y") with | .error .typeError => true | _ => false) = true := by decide +kernel
    split at h
    · assumption
    · simp at h
  · intro v hv
    have hc : ∀ w, ({ bsdCfg .bsd 2 1 with variant := w } : BSDConfig) = bsdCfg w 2 1 := fun _ => rfl
    rw [hc]
    obtain ⟨g1, _, _, g4⟩ := C53_library (df := allPositive) (target := (c!"t", c!"y")) (bsdCfg v 2 1) v 0 2 1 [] [] (Or.inl rfl)
    exact C33_runs (show 0 < 2 by decide) g1 allPositive_ok ht ⟨g4, fun h => absurd h hv⟩

/-- C33 with `num_subgroups = 0`: the list becomes empty and its first element is then read. -/
theorem C33_zero : ∃ v, okPart (bsdRun v 0 1 demoFrame (c!"t", c!"yes")) = none := ⟨.bsd, by decide +kernel⟩

/-- C53 does not extend from the best subgroup to the best `num` of them: CBSD drops `b = 'p'`, of quality 1/8, because a refinement has the
same quality, and reports `a = 'x', b = 'p'`, of quality 0, in second place although `a = 'y'` also has quality 1/8. -/
theorem C53_only_the_best :
    okPart (bsdRun .cbsd 2 1 demoFrame (c!"t", c!"yes")) = some ([(c!"[a = 'x', b = 'p']", 0), (c!"[a = 'y', b = 'p']", 1 / 8)], 7, 2, 9, 1) ∧
    okPart ((bsdRun .bsd 2 1 demoFrame (c!"t", c!"yes")).map (·.1)) = some [(c!"[b = 'p']", 1 / 8), (c!"[a = 'y']", 1 / 8)] := by decide +kernel

end Verif
