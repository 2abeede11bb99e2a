import Verif.Lemmas.RowLabels
import Verif.Props.SDMapStar
/-! Property C83: row labels (`DataFrame.index`) and the FP-growth algorithms. `SDMap` and `SDMapStar` read the cells by row
label; a row whose label occurs more than once is never inserted in the tree. -/
namespace Verif
open Spec FPTree
variable {ι : Type} [DecidableEq ι]

section
open Classical

/-- C83: with different row labels (of any kind, in any order) `fit` of both algorithms does not depend on the labels. -/
theorem C83_unique (ser : ι → Str → List Val → Str) (hser : SeriesText ser) (labels : List ι) (hnd : labels.Nodup) (df : Frame)
    (hwf : WF df) (hlen : labels.length = df.nrows) (target : Str × Str) :
    (∀ (cfg : SDMapConfig) st, cfg.fitL ser labels st df target = cfg.fit st df target) ∧
    (∀ (cfg : SDMapStarConfig) st, cfg.fitL ser labels st df target = cfg.fit st df target) := by
  have htree : ∀ mask, df.nominal = true → targetMask df target = .ok mask → ∀ th,
      buildTreeL ser labels df target (frequentSelectors th df target.1 mask) =
        .ok (buildTree Selector.dictKey (frequentSelectors th df target.1 mask) (keyRows df target.1 mask)) := by
    intro mask hn hm th
    rw [buildTreeL_eq hser hn (fun c hc => hwf c hc) hlen hm th, keptRows_nodup hnd hlen]
  have hres : ∀ order th, nominalResultsL ser labels order th df target = nominalResults order th df target := by
    intro order th
    unfold nominalResultsL nominalResults
    by_cases hn : df.nominal = true
    · simp only [hn]
      cases hm : targetMask df target with
      | error e => rfl
      | ok mask => simp only [htree mask hn hm th]
    · have : df.nominal = false := by simpa using hn
      simp only [this]; rfl
  constructor
  · intro cfg st
    unfold SDMapConfig.fitL SDMapConfig.fit
    rw [hres]
    rfl
  · intro cfg st
    unfold SDMapStarConfig.fitL SDMapStarConfig.fit
    rw [hres]
    by_cases h0 : cfg.num = 0
    · rw [if_pos h0, if_pos h0]
      rfl
    · rw [if_neg h0, if_neg h0]
      by_cases hn : df.nominal = true
      · simp only [hn]
        cases hm : targetMask df target with
        | error e => rfl
        | ok mask => simp only [htree mask hn hm cfg.th]
      · have : df.nominal = false := by simpa using hn
        simp only [this]; rfl

/-- C83: if every label occurs at least twice, `fit` of both algorithms finds nothing and changes nothing (no result, no file), whatever the data. -/
theorem C83_all_repeated (ser : ι → Str → List Val → Str) (hser : SeriesText ser) (labels : List ι) (df : Frame) (hwf : WF df)
    (hlen : labels.length = df.nrows) (hrep : ∀ i < df.nrows, ∃ j, j ≠ i ∧ labels[j]? = labels[i]?) (target : Str × Str)
    (hn : df.nominal = true) (ht : target.1 ∈ df.cols.map (·.1)) :
    (∀ (cfg : SDMapConfig) st, cfg.fitL ser labels st df target = .ok st) ∧
    (∀ (cfg : SDMapStarConfig) st, cfg.fitL ser labels st df target = .ok st) := by
  obtain ⟨mask, hm⟩ : ∃ mask, targetMask df target = .ok mask := by
    unfold targetMask Frame.col
    cases hl : df.cols.lookup target.1 with
    | none =>
      rw [List.lookup_eq_none_iff] at hl
      obtain ⟨c, hc, hct⟩ := List.mem_map.1 ht
      have := hl c hc
      rw [hct] at this
      simp at this
    | some w => exact ⟨_, rfl⟩
  have hrows : keptRows labels df target.1 mask = [] := by
    unfold keptRows
    rw [List.map_eq_nil_iff, List.filter_eq_nil_iff]
    intro i hi
    obtain ⟨j, hj, he⟩ := hrep i (List.mem_range.1 hi)
    simp only [decide_eq_true_eq]
    exact fun hA => hj (hA j he)
  have htree : ∀ th, buildTreeL ser labels df target (frequentSelectors th df target.1 mask) = .ok (FPTree.empty.sortHeader) := by
    intro th
    rw [buildTreeL_eq hser hn (fun c hc => hwf c hc) hlen hm th, hrows]
    rfl
  have hemp : (FPTree.empty.sortHeader : FPTree Selector).isEmpty = true := rfl
  have hres : ∀ order th, nominalResultsL ser labels order th df target = .ok (none, mask.count true, df.nrows - mask.count true) := by
    intro order th
    unfold nominalResultsL
    simp only [hn, hm, htree, hemp]
    rfl
  constructor
  · intro cfg st
    unfold SDMapConfig.fitL
    rw [hres]
  · intro cfg st
    unfold SDMapStarConfig.fitL
    rw [hres]
    by_cases h0 : cfg.num = 0
    · rw [if_pos h0]
    · rw [if_neg h0]
      simp only [hn, hm, htree, hemp]
      rfl

/-- a description, in the order of the class `Pattern`, that some row with a label of its own has -/
def Spec.Kept (labels : List ι) (df : Frame) (target : Str × Str) (X : List Selector) : Prop :=
  Describes target X ∧ X.Pairwise (fun a b => a.lt b = true) ∧ ∃ i, i < df.nrows ∧ Alone labels i ∧ Covers df X i

theorem amongCongr (P : Nat → Prop) (df : Frame) (target : Str × Str) {X Y : List Selector} (h : ∀ s, s ∈ X ↔ s ∈ Y) :
    tpAmong P df target X = tpAmong P df target Y ∧ fpAmong P df target X = fpAmong P df target Y := by
  unfold tpAmong fpAmong
  simp only [covers_congr h, and_self]

/-- a run of the FP-growth algorithms without pruning, with row labels -/
theorem keptFit {ser : ι → Str → List Val → Str} (hser : SeriesText ser) (labels : List ι) {df : Frame} {target : Str × Str}
    (hf : NominalFrame df target) (hk : KeysFaithful df target) (hlen : labels.length = df.nrows) {order : FPTree Selector → List Selector}
    (horder : ∀ t : FPTree Selector, t.sorted = t.sortHeader.sorted → (order t).Perm (t.header.map (·.1)))
    {cfg : SDMapConfig} {st st' : SDMapState}
    (h : (match nominalResultsL ser labels order cfg.th df target with
      | .error e => .error e
      | .ok (none, _, _) => .ok st
      | .ok (some rs, TP, FP) =>
        (rs.map (fun r => (Pattern.new r.1, r.2))).foldlM (cfg.handle target TP FP) { st with file := [] } : Except PyErr SDMapState) = .ok st') :
    ∃ calls, st'.calls = st.calls ++ calls ∧ (calls.map (·.1)).Nodup ∧
      (∀ r ∈ calls, Kept labels df target r.1.sels ∧ (∀ s ∈ r.1.sels, Frequent cfg.th (tpOf df target [s]) (fpOf df target [s])) ∧
        r.2 = (tpAmong (Alone labels) df target r.1.sels, fpAmong (Alone labels) df target r.1.sels)) ∧
      (∀ X, Kept labels df target X → Frequent cfg.th (tpAmong (Alone labels) df target X) (fpAmong (Alone labels) df target X) →
        ∃ r ∈ calls, r.1.sels = X) ∧
      (calls ≠ [] → ∀ l ∈ st'.file, ∃ r ∈ calls, l.subgroup = ⟨r.1, targetSel target⟩ ∧ (l.tp, l.fp) = r.2 ∧
        l.TP = tpOf df target [] ∧ l.FP = fpOf df target []) := by
  obtain ⟨o, h1, h2, _⟩ := nominalResultsL_exact (th := cfg.th) hser labels horder hf hk hlen
  rw [h1] at h
  have main : ∀ F, KeptExact labels cfg.th df target F → ((F.map (fun r => (Pattern.new r.1, r.2))).map (·.1)).Nodup ∧
      (∀ r ∈ F.map (fun r => (Pattern.new r.1, r.2)), Kept labels df target r.1.sels ∧
        (∀ s ∈ r.1.sels, Frequent cfg.th (tpOf df target [s]) (fpOf df target [s])) ∧
        r.2 = (tpAmong (Alone labels) df target r.1.sels, fpAmong (Alone labels) df target r.1.sels)) ∧
      (∀ X, Kept labels df target X → Frequent cfg.th (tpAmong (Alone labels) df target X) (fpAmong (Alone labels) df target X) →
        ∃ r ∈ F.map (fun r => (Pattern.new r.1, r.2)), r.1.sels = X) := by
    intro F hF
    refine ⟨?_, ?_, ?_⟩
    · rw [List.map_map, List.Nodup, List.pairwise_map]
      refine hF.distinct.imp_of_mem ?_
      intro e f he hf' hd hh
      apply hd
      intro x
      have ne := (new_text (textEq_of_describes (hF.sound e he).1)).2 x
      have nf := (new_text (textEq_of_describes (hF.sound f hf').1)).2 x
      simp only [Function.comp_apply] at hh
      rw [← ne, ← nf, hh]
    · intro r hr
      obtain ⟨e, he, rfl⟩ := List.mem_map.1 hr
      obtain ⟨a1, a2, ⟨i, hi, hA, hc⟩, a4, a5⟩ := hF.sound e he
      obtain ⟨n1, n2⟩ := new_text (textEq_of_describes a1)
      simp only
      obtain ⟨c1, c2⟩ := amongCongr (Alone labels) df target n2
      refine ⟨⟨⟨?_, fun s hs => a1.2 s ((n2 s).1 hs)⟩, ?_, i, hi, hA, (covers_congr n2 i).2 hc⟩, fun s hs => a4 s ((n2 s).1 hs), by rw [c1, c2]; exact a5⟩
      · intro hn
        obtain ⟨x, l, hxl⟩ := List.exists_cons_of_ne_nil a1.1
        have := (n2 x).2 (by rw [hxl]; simp)
        rw [hn] at this; simp at this
      · exact (sorted_iff_lt (fun s hs => textEq_of_describes a1 s ((n2 s).1 hs))).2 n1
    · rintro X ⟨b1, b2, b3⟩ b4
      obtain ⟨e, he, hx⟩ := hF.complete X b1 b3 b4
      refine ⟨_, List.mem_map.2 ⟨e, he, rfl⟩, ?_⟩
      have ht : ∀ s ∈ e.1, TextEq s := fun s hs => textEq_of_describes b1 s ((hx s).1 hs)
      obtain ⟨n1, n2⟩ := new_text ht
      exact sorted_ext n1 ((sorted_iff_lt (textEq_of_describes b1)).1 b2) (fun s hs => ht s ((n2 s).1 hs))
        (fun s => (n2 s).trans (hx s))
  cases o with
  | none =>
    simp only at h
    cases h
    obtain ⟨m1, m2, m3⟩ := main _ h2
    exact ⟨[], by simp, m1, m2, m3, fun hh => absurd rfl hh⟩
  | some F =>
    simp only at h
    simp only [Option.getD_some] at h2
    obtain ⟨m1, m2, m3⟩ := main F h2
    obtain ⟨g1, g2, lines, g3, g4, g5, g6⟩ := foldlM_handle _ _ _ h
    refine ⟨_, g1, m1, m2, m3, ?_⟩
    intro _ l hl
    rw [g3] at hl
    simp only [List.nil_append] at hl
    obtain ⟨r, hr, _, _, q3⟩ := (g6 l).1 hl
    refine ⟨r, hr, ?_⟩
    rw [q3]
    exact ⟨rfl, rfl, rfl, rfl⟩

/-- C83: with any row labels, `SDMap.fit` evaluates descriptions of rows that have a label of their own, made of selectors that are
frequent in the whole data, each once, with the counts `tp`, `fp` of the rows that have a label of their own only, and totals `TP`, `FP` of all the rows; all the
descriptions that reach the thresholds among the rows with a label of their own are evaluated. -/
theorem C83_counts (ser : ι → Str → List Val → Str) (hser : SeriesText ser) (labels : List ι) (df : Frame) (target : Str × Str)
    (hf : NominalFrame df target) (hk : KeysFaithful df target) (hlen : labels.length = df.nrows)
    (cfg : SDMapConfig) (st st' : SDMapState) (h : cfg.fitL ser labels st df target = .ok st') :
    ∃ calls, st'.calls = st.calls ++ calls ∧ (calls.map (·.1)).Nodup ∧
      (∀ r ∈ calls, Kept labels df target r.1.sels ∧ (∀ s ∈ r.1.sels, Frequent cfg.th (tpOf df target [s]) (fpOf df target [s])) ∧
        r.2 = (tpAmong (Alone labels) df target r.1.sels, fpAmong (Alone labels) df target r.1.sels)) ∧
      (∀ X, Kept labels df target X → Frequent cfg.th (tpAmong (Alone labels) df target X) (fpAmong (Alone labels) df target X) →
        ∃ r ∈ calls, r.1.sels = X) ∧
      (calls ≠ [] → ∀ l ∈ st'.file, ∃ r ∈ calls, l.subgroup = ⟨r.1, targetSel target⟩ ∧ (l.tp, l.fp) = r.2 ∧
        l.TP = tpOf df target [] ∧ l.FP = fpOf df target []) := by
  exact keptFit hser labels hf hk hlen sorted_order_perm h

/-- C83: the same for `SDMapStar` without a limit on the number of subgroups (with a limit it is not known which descriptions are pruned, see C28) -/
theorem C83_counts_star (ser : ι → Str → List Val → Str) (hser : SeriesText ser) (labels : List ι) (df : Frame) (target : Str × Str)
    (hf : NominalFrame df target) (hk : KeysFaithful df target) (hlen : labels.length = df.nrows)
    (cfg : SDMapStarConfig) (h0 : cfg.num = 0) (st st' : StarState) (h : cfg.fitL ser labels st df target = .ok st') :
    ∃ calls, st'.base.calls = st.base.calls ++ calls ∧ (calls.map (·.1)).Nodup ∧
      (∀ r ∈ calls, Kept labels df target r.1.sels ∧ (∀ s ∈ r.1.sels, Frequent cfg.th (tpOf df target [s]) (fpOf df target [s])) ∧
        r.2 = (tpAmong (Alone labels) df target r.1.sels, fpAmong (Alone labels) df target r.1.sels)) ∧
      (∀ X, Kept labels df target X → Frequent cfg.th (tpAmong (Alone labels) df target X) (fpAmong (Alone labels) df target X) →
        ∃ r ∈ calls, r.1.sels = X) ∧
      (calls ≠ [] → ∀ l ∈ st'.base.file, ∃ r ∈ calls, l.subgroup = ⟨r.1, targetSel target⟩ ∧ (l.tp, l.fp) = r.2 ∧
        l.TP = tpOf df target [] ∧ l.FP = fpOf df target []) := by
  unfold SDMapStarConfig.fitL at h
  rw [if_pos h0] at h
  apply keptFit hser labels hf hk hlen (order := fun t => t.header.map (·.1)) (fun t _ => List.Perm.refl _) (cfg := cfg.toSDMapConfig) (st := st.base)
  cases hr : nominalResultsL ser labels (fun t => t.header.map (·.1)) cfg.th df target with
  | error e => rw [hr] at h; cases h
  | ok v =>
    obtain ⟨o, TP, FP⟩ := v
    rw [hr] at h
    cases o with
    | none => cases h; rfl
    | some rs =>
      simp only at h ⊢
      cases hb : (rs.map (fun r => (Pattern.new r.1, r.2))).foldlM (cfg.toSDMapConfig.handle target TP FP) { st.base with file := [] } with
      | error e => rw [hb] at h; cases h
      | ok b => rw [hb] at h; cases h; rfl

end

/-! ## examples -/

/-- the text of a `Series`, up to what precedes the type -/
def Spec.demoSer (_ : Int) (_ : Str) (_ : List Val) : Str := c!"dtype: object"

theorem Spec.demoSer_ok : SeriesText demoSer := fun _ _ _ => ⟨c!"dtype: objec", 't', rfl, by decide, by decide⟩

/-- five rows; with the labels 7, 3, 3, 3, 9 only the first and the last are inserted -/
def Spec.labelFrame : Frame := ⟨5, [(c!"a", [.str c!"x", .str c!"x", .str c!"x", .str c!"y", .str c!"x"]),
  (c!"t", [.str c!"yes", .str c!"yes", .str c!"yes", .str c!"no", .str c!"no"])]⟩

/-- the measure is the support, everything is reported -/
def Spec.supportCfg : SDMapConfig := ⟨fun p => match p.lookup c!"tp" with | some k => .ok k | _ => .error .keyError, 0, .n 1, []⟩

def Spec.linesOf : Except PyErr SDMapState → Option (List (Str × List Nat))
  | .ok st => some (st.file.map (fun l => (l.subgroup.description.sels.flatMap (fun s => s.attr ++ s.val.repr), [l.tp, l.fp, l.TP, l.FP])))
  | .error _ => none

/-- C83: so, with repeated labels, the counts of the file are wrong: `a = 'x'` covers three rows with the target and one without, and is reported with
one and one; `a = 'y'` is frequent and not reported; with the same data and the labels 0 … 4 both are right. -/
theorem C83_fails :
    linesOf (supportCfg.fitL demoSer [7, 3, 3, 3, 9] ⟨0, 0, [], []⟩ labelFrame (c!"t", c!"yes")) = some [(c!"a'x'", [1, 1, 3, 2])] ∧
    linesOf (supportCfg.fitL demoSer [0, 1, 2, 3, 4] ⟨0, 0, [], []⟩ labelFrame (c!"t", c!"yes")) =
      some [(c!"a'y'", [0, 1, 3, 2]), (c!"a'x'", [3, 1, 3, 2])] := by
  decide +kernel

example : NominalFrame labelFrame (c!"t", c!"yes") ∧ KeysFaithful labelFrame (c!"t", c!"yes") := by
  have h : NominalFrame labelFrame (c!"t", c!"yes") := by
    refine ⟨?_, by decide, ?_, by decide⟩
    · intro c hc; simp [labelFrame] at hc; rcases hc with rfl | rfl <;> rfl
    · intro c hc; simp [labelFrame] at hc
      rcases hc with rfl | rfl <;> simp
  refine ⟨h, keysFaithful_of_no_quotes h ?_⟩
  intro c hc; simp [labelFrame] at hc
  rcases hc with rfl | rfl <;> simp

example : ∀ i < labelFrame.nrows, ∃ j, j ≠ i ∧ ([5, 5, 8, 8, 5] : List Int)[j]? = ([5, 5, 8, 8, 5] : List Int)[i]? := by
  intro i hi
  simp only [labelFrame] at hi
  have : i = 0 ∨ i = 1 ∨ i = 2 ∨ i = 3 ∨ i = 4 := by omega
  rcases this with rfl | rfl | rfl | rfl | rfl
  · exact ⟨1, by decide, rfl⟩
  · exact ⟨0, by decide, rfl⟩
  · exact ⟨3, by decide, rfl⟩
  · exact ⟨2, by decide, rfl⟩
  · exact ⟨0, by decide, rfl⟩

end Verif
