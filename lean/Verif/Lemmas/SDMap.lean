import Verif.Lemmas.Nominal
import Verif.Lemmas.Pattern
import Verif.Model.SDMap
/-! From the frame to the descriptions evaluated by the FP-growth algorithms. -/
set_option linter.unusedSectionVars false
namespace Verif
open Classical Spec FPTree

/-! ### patterns of `attribute = 'text'` selectors -/

/-- `attribute = 'text'` -/
def TextEq (s : Selector) : Prop := s.op = .equal ∧ ∃ v, s.val = .str v

theorem TextEq.key_inj {a b : Selector} (ha : TextEq a) (hb : TextEq b) (h : a.key = b.key) : a = b := by
  obtain ⟨a1, a2, a3⟩ := a
  obtain ⟨b1, b2, b3⟩ := b
  obtain ⟨ha1, v, ha2⟩ := ha
  obtain ⟨hb1, w, hb2⟩ := hb
  simp only at ha1 ha2 hb1 hb2
  subst ha1 ha2 hb1 hb2
  have h1 := (Selector.eq_iff_key _ _).2 h
  simp [Selector.eq, Val.eq, Op.eq] at h1
  simp [h1]

theorem TextEq.lt_key {a b : Selector} (ha : TextEq a) (hb : TextEq b) : a.lt b = true ↔ a.key < b.key := by
  apply Selector.lt_iff_key
  intro _ _
  obtain ⟨_, v, h⟩ := ha
  obtain ⟨_, w, h'⟩ := hb
  rw [h, h']; rfl

theorem new_text {X : List Selector} (hX : ∀ s ∈ X, TextEq s) :
    Pattern.Sorted (Pattern.new X).sels ∧ ∀ s, s ∈ (Pattern.new X).sels ↔ s ∈ X := by
  obtain ⟨h1, h2, h3⟩ := Pattern.new_spec (S := TextEq) (fun a b ha hb => TextEq.lt_key ha hb) hX
  refine ⟨h1, fun s => ⟨h2 s, fun hs => ?_⟩⟩
  obtain ⟨t, ht, hk⟩ := h3 s hs
  rw [← TextEq.key_inj (hX t (h2 t ht)) (hX s hs) hk]
  exact ht

theorem nodup_of_sorted {l : List Selector} (h : Pattern.Sorted l) : l.Nodup :=
  h.imp (fun {a b} (hab : a.key < b.key) hh => by rw [hh] at hab; exact lt_irrefl _ hab)

theorem sorted_ext {l m : List Selector} (hl : Pattern.Sorted l) (hm : Pattern.Sorted m) (ht : ∀ s ∈ l, TextEq s)
    (h : ∀ s, s ∈ l ↔ s ∈ m) : l = m := by
  have hk := Pattern.sorted_keys_ext hl hm (fun k => by
    constructor
    · rintro ⟨t, h1, h2⟩; exact ⟨t, (h t).1 h1, h2⟩
    · rintro ⟨t, h1, h2⟩; exact ⟨t, (h t).2 h1, h2⟩)
  have htm : ∀ s ∈ m, TextEq s := fun s hs => ht s ((h s).2 hs)
  clear hl hm h
  induction l generalizing m with
  | nil => cases m with
    | nil => rfl
    | cons => simp at hk
  | cons a l ih => cases m with
    | nil => simp at hk
    | cons b m =>
      simp only [List.map_cons, List.cons.injEq] at hk
      rw [TextEq.key_inj (ht a (by simp)) (htm b (by simp)) hk.1,
        ih (fun s hs => ht s (by simp [hs])) hk.2 (fun s hs => htm s (by simp [hs]))]

/-! ### counts depend on the set of selectors and decrease -/

theorem covers_congr {df : Frame} {X Y : List Selector} (h : ∀ s, s ∈ X ↔ s ∈ Y) (i : Nat) : Covers df X i ↔ Covers df Y i :=
  ⟨fun hh s hs => hh s ((h s).2 hs), fun hh s hs => hh s ((h s).1 hs)⟩

theorem tpOf_congr {df : Frame} {target : Str × Str} {X Y : List Selector} (h : ∀ s, s ∈ X ↔ s ∈ Y) : tpOf df target X = tpOf df target Y := by
  unfold tpOf; simp only [covers_congr h]

theorem fpOf_congr {df : Frame} {target : Str × Str} {X Y : List Selector} (h : ∀ s, s ∈ X ↔ s ∈ Y) : fpOf df target X = fpOf df target Y := by
  unfold fpOf; simp only [covers_congr h]

theorem filter_length_mono {α : Type} (l : List α) {P Q : α → Prop} [DecidablePred P] [DecidablePred Q] (h : ∀ a, P a → Q a) :
    (l.filter (fun a => decide (P a))).length ≤ (l.filter (fun a => decide (Q a))).length := by
  apply List.Sublist.length_le
  apply List.monotone_filter_right
  intro a ha
  simp only [decide_eq_true_eq] at ha ⊢
  exact h a ha

theorem tpOf_mono {df : Frame} {target : Str × Str} {X Y : List Selector} (h : ∀ s ∈ X, s ∈ Y) : tpOf df target Y ≤ tpOf df target X := by
  unfold tpOf
  apply filter_length_mono
  rintro i ⟨h1, h2⟩
  exact ⟨fun s hs => h1 s (h s hs), h2⟩

theorem fpOf_mono {df : Frame} {target : Str × Str} {X Y : List Selector} (h : ∀ s ∈ X, s ∈ Y) : fpOf df target Y ≤ fpOf df target X := by
  unfold fpOf
  apply filter_length_mono
  rintro i ⟨h1, h2⟩
  exact ⟨fun s hs => h1 s (h s hs), h2⟩

theorem frequent_mono {th : Thresholds} {a b c d : Nat} (h1 : a ≤ c) (h2 : b ≤ d) (h : Frequent th a b) : Frequent th c d := by
  cases th <;> simp only [Frequent] at h ⊢ <;> omega

/-! ### the results -/

section
variable {df : Frame} {target : Str × Str}

theorem count_true_mask (hf : NominalFrame df target) {mask : List Bool} (hl : mask.length = df.nrows)
    (hm : ∀ i, mask[i]? = some true ↔ MatchesAt df (targetSel target) i) :
    mask.count true = tpOf df target [] ∧ df.nrows - mask.count true = fpOf df target [] := by
  have h1 : mask.count true = tpOf df target [] := by
    rw [List.count_eq_countP, countP_range, hl]
    unfold tpOf
    congr 1
    apply List.filter_congr
    intro i hi
    have hlt : i < df.nrows := List.mem_range.1 hi
    congr 1
    rw [eq_iff_iff]
    constructor
    · rintro ⟨x, h1, h2⟩
      refine ⟨by intro s hs; simp at hs, (hm i).1 ?_⟩
      rw [h1]; simpa using h2
    · rintro ⟨_, h2⟩
      exact ⟨true, (hm i).2 h2, rfl⟩
  refine ⟨h1, ?_⟩
  rw [h1]
  have := filter_split (List.range df.nrows) (fun i => Covers df [] i) (fun i => MatchesAt df (targetSel target) i)
  have h3 : ((List.range df.nrows).filter (fun i => decide (Covers df [] i))).length = df.nrows := by
    rw [List.filter_eq_self.2, List.length_range]
    intro i _
    simp [Covers]
  unfold tpOf fpOf
  omega

/-- a frequent description is made of frequent selectors -/
theorem frequent_mem (hf : NominalFrame df target) (hk : KeysFaithful df target) (th : Thresholds) {mask : List Bool}
    (hl : mask.length = df.nrows) (hm : ∀ i, mask[i]? = some true ↔ MatchesAt df (targetSel target) i) {X : List Selector}
    (hX : Describes target X) (hocc : OccursIn df X) (hfr : Frequent th (tpOf df target X) (fpOf df target X)) :
    ∀ s ∈ X, s ∈ (frequentSelectors th df target.1 mask).map (·.2.1) := by
  intro s hs
  rw [mem_rootDict_iff hf hk th hl hm]
  obtain ⟨i, hi, hc⟩ := hocc
  refine ⟨hX.2 s hs, ⟨i, hi, ?_⟩, ?_⟩
  · intro t ht; rw [List.mem_singleton.1 ht]; exact hc s hs
  · rw [ok_iff_frequent]
    have : ∀ t ∈ [s], t ∈ X := fun t ht => by rw [List.mem_singleton.1 ht]; exact hs
    exact frequent_mono (tpOf_mono this) (fpOf_mono this) hfr

/-- the enumeration is exact with respect to the data -/
structure ExactOn (th : Thresholds) (df : Frame) (target : Str × Str) (F : List (Emission Selector)) : Prop where
  sound : ∀ e ∈ F, Describes target e.1 ∧ e.1.Nodup ∧ OccursIn df e.1 ∧ e.2 = (tpOf df target e.1, fpOf df target e.1) ∧
    Frequent th e.2.1 e.2.2
  complete : ∀ X, Describes target X → OccursIn df X → Frequent th (tpOf df target X) (fpOf df target X) →
    ∃ e ∈ F, ∀ x, x ∈ e.1 ↔ x ∈ X
  distinct : F.Pairwise (fun e f => ¬ ∀ x, x ∈ e.1 ↔ x ∈ f.1)

theorem path_le_nodes {σ : Type} [DecidableEq σ] {t : FPTree σ} {D : DB σ} (h : Holds t D) : ∀ r ∈ D, r.1.length ≤ t.nodes.length := by
  intro r hr
  have h1 : (prefixes [] r.1) ⊆ t.nodes.map (·.1) := by
    intro q hq
    obtain ⟨x, h1, h2, rfl⟩ := (mem_prefixes _ _ _).1 hq
    rw [mem_nodes h]
    exact ⟨by simpa using h1, r, hr, by simpa using h2⟩
  have h2 := (List.subperm_of_subset (prefixes_nodup [] r.1) h1).length_le
  have h3 : ∀ (p l : List σ), (prefixes p l).length = l.length := by
    intro p l
    induction l generalizing p with
    | nil => rfl
    | cons a l ih => simp [prefixes, ih]
  rw [h3, List.length_map] at h2
  exact h2

theorem nominalResults_exact {order : FPTree Selector → List Selector} {th : Thresholds}
    (horder : ∀ t : FPTree Selector, t.sorted = t.sortHeader.sorted → (order t).Perm (t.header.map (·.1)))
    (hf : NominalFrame df target) (hk : KeysFaithful df target) :
    ∃ o, nominalResults order th df target = .ok (o, tpOf df target [], fpOf df target []) ∧
      ExactOn th df target (o.getD []) ∧ (o = none ↔ o.getD [] = []) := by
  obtain ⟨mask, h1, hl, hm⟩ := targetMask_ok hf
  have hcount := count_true_mask hf hl hm
  have g := root_good hf hk th hl hm
  set d := frequentSelectors th df target.1 mask with hd
  set t := FPTree.buildTree Selector.dictKey d (keyRows df target.1 mask) with ht
  -- rows of the database
  have hrow : ∀ X, Describes target X → OccursIn df X → Frequent th (tpOf df target X) (fpOf df target X) →
      ∃ r ∈ rootDB th df target.1 mask, ∀ x ∈ X, x ∈ r.1 := by
    intro X hX hocc hfr
    have hmem := frequent_mem hf hk th hl hm hX hocc hfr
    obtain ⟨i, hi, hc⟩ := hocc
    refine ⟨_, List.mem_map.2 ⟨i, List.mem_range.2 hi, rfl⟩, ?_⟩
    intro x hx
    have hh := hX.2 x hx
    rw [mem_rootRow hf hk, mem_rowSels_iff hf hh.1 hh.2.1 hh.2.2]
    exact ⟨hc x hx, hmem x hx⟩
  have hres : nominalResults order th df target =
      if t.isEmpty then .ok (none, tpOf df target [], fpOf df target [])
      else .ok (some (FPTree.fpgrowth order Selector.dictKey th (t.nodes.length + 1) t []), tpOf df target [], fpOf df target []) := by
    unfold nominalResults
    rw [if_neg (by rw [nominal_of hf]; simp), h1]
    simp only [← hd, ← ht, hcount.1, hcount.2]
    rw [← hcount.2, hcount.1]
  by_cases hemp : t.isEmpty = true
  · refine ⟨none, by rw [hres, if_pos hemp], ⟨by simp, ?_, by simp⟩, by simp⟩
    intro X hX hocc hfr
    obtain ⟨r, hr, hx⟩ := hrow X hX hocc hfr
    obtain ⟨x, X', rfl⟩ := List.exists_cons_of_ne_nil hX.1
    have := (isEmpty_iff g.holds).1 hemp r hr
    have := hx x (by simp)
    simp_all
  · refine ⟨some (FPTree.fpgrowth order Selector.dictKey th (t.nodes.length + 1) t []), by rw [hres, if_neg hemp], ?_, ?_⟩
    all_goals
      have hne : rootDB th df target.1 mask ≠ [] := by
        intro hh
        apply hemp
        rw [isEmpty_iff g.holds, hh]
        simp
      have he := fpgrowth_exact (injOn_dictKey hk) (order := order) horder (t.nodes.length + 1) g
        (fun r hr => Nat.lt_succ_of_le (path_le_nodes g.holds r hr)) hne
    · refine ⟨?_, ?_, he.distinct⟩
      · intro e hee
        obtain ⟨a1, a2, ⟨r, hr, a3⟩, a4, a5⟩ := he.sound e hee
        have hmem : ∀ x ∈ e.1, x ∈ d.map (·.2.1) := by
          intro x hx
          obtain ⟨i, hi, rfl⟩ := List.mem_map.1 hr
          exact ((mem_rootRow hf hk th mask i x).1 (a3 x hx)).2
        have hcnt := supp_rootDB hf hk th hm e.1 hmem
        rw [hcnt] at a4
        refine ⟨⟨a1, ?_⟩, a2, ?_, a4, ?_⟩
        · intro s hs
          exact rootDict_describes hf hk (hmem s hs)
        · obtain ⟨i, hi, rfl⟩ := List.mem_map.1 hr
          refine ⟨i, List.mem_range.1 hi, ?_⟩
          intro s hs
          obtain ⟨b1, b2, b3⟩ := rootDict_describes hf hk (hmem s hs)
          rw [← mem_rowSels_iff hf b1 b2 b3]
          exact ((mem_rootRow hf hk th mask i s).1 (a3 s hs)).1
        · exact (ok_iff_frequent th _ _).1 a5
      · intro X hX hocc hfr
        have hmem := frequent_mem hf hk th hl hm hX hocc hfr
        apply he.complete X hX.1 (hrow X hX hocc hfr)
        rw [supp_rootDB hf hk th hm X hmem]
        exact (ok_iff_frequent th _ _).2 hfr
    · simp only [Option.getD_some, reduceCtorEq, false_iff]
      intro hnil
      rw [isEmpty_iff g.holds] at hemp
      push Not at hemp
      obtain ⟨r, hr, hrn⟩ := hemp
      obtain ⟨s, l, hsl⟩ := List.exists_cons_of_ne_nil hrn
      obtain ⟨e, hee, _⟩ := he.complete [s] (by simp) ⟨r, hr, by simp [hsl]⟩ (by
        have := g.freq s ⟨r, hr, by simp [hsl]⟩
        rw [← this]
        congr 1
        apply wsum_congr; intro e _; simp)
      rw [hnil] at hee
      simp at hee

end
end Verif
