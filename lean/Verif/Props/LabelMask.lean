import Verif.Lemmas.LabelMask
import Verif.Props.Subgroup
/-! C91: `Pattern.is_contained`, `Subgroup.filter` and `filter_by_list_of_selectors` on data frames whose row labels are not `0..n-1`. -/
namespace Verif
open Spec
variable {ι : Type} [DecidableEq ι]

/-- `x` is one of the numbers `0..n-1` -/
def Numbered (pos : Nat → ι) (n : Nat) (x : ι) : Prop := ∃ j < n, x = pos j

/-- C91: with the labels `0..n-1` (a default index), the result is the one of `C08`, with those labels, whatever `ord` is -/
theorem C91_default (pos : Nat → ι) (ord : List (ι × Bool) → List (ι × Bool)) (p : Pattern) (df : Frame) (hw : WF df) :
    p.isContainedL pos ord ((List.range df.nrows).map pos) df =
      (p.isContained df).map (fun m => ((List.range df.nrows).map pos).zip m) := by
  have key : ∀ (l : List Selector) (m : List Bool), m.length = df.nrows →
      containedLoopL ord ((List.range df.nrows).map pos) df l (((List.range df.nrows).map pos).zip m) =
        (containedLoop df l m).map (fun m => ((List.range df.nrows).map pos).zip m) := by
    intro l
    induction l with
    | nil => intro m _; rfl
    | cons s l ih =>
      intro m hm
      rw [containedLoopL, containedLoop]
      have hany : (((List.range df.nrows).map pos).zip m).any (·.2) = m.any id := by
        rw [show (fun e : ι × Bool => e.2) = id ∘ Prod.snd from rfl, ← List.any_map, List.map_snd_zip (by simp [hm])]
      rw [hany]
      by_cases h : m.any id = true
      · rw [if_pos h, if_pos h]
        cases hc : df.col s.attr with
        | error e => rfl
        | ok col =>
          dsimp only
          cases hs : s.matchSeries col with
          | error e => rfl
          | ok ms =>
            dsimp only
            have h1 : ms.length = df.nrows := by rw [(matchSeries_get hc hs).1, Frame.col_length hw hc]
            have h2 : alignAnd ord (((List.range df.nrows).map pos).zip m) (((List.range df.nrows).map pos).zip ms) =
                ((List.range df.nrows).map pos).zip (List.zipWith (· && ·) m ms) := by
              rw [alignAnd, if_pos ((zip_label_names (by simp [hm])).trans (zip_label_names (by simp [h1])).symm)]
              apply List.ext_getElem
              · simp [hm, h1]
              · intro i _ _; simp
            rw [h2]
            exact ih _ (by simp [hm, h1])
      · rw [if_neg h, if_neg h]; rfl
  have h0 : allTrue pos df.nrows = ((List.range df.nrows).map pos).zip (List.replicate df.nrows true) := by
    apply List.ext_getElem
    · simp [allTrue]
    · intro i _ _; simp [allTrue]
  show containedLoopL ord _ df p.sels (allTrue pos df.nrows) = _
  rw [h0]
  exact key _ _ (by simp)

section
variable (pos : Nat → ι) (hpos : Function.Injective pos) (ord : List (ι × Bool) → List (ι × Bool)) (hord : ∀ l, (ord l).Perm l)
variable (labels : List ι) (hn : labels.Nodup)
include hpos hord hn

/-- C91: with any different row labels, the result of a non-empty pattern says `True` for a label iff it is the label of a covered row
*and* is one of the numbers `0..n-1` -/
theorem C91_covered (p : Pattern) (hne : p.sels ≠ []) (df : Frame) (hw : WF df) (hlen : labels.length = df.nrows)
    (r : List (ι × Bool)) (h : p.isContainedL pos ord labels df = .ok r) (x : ι) :
    (x, true) ∈ r ↔ ∃ i : Nat, labels[i]? = some x ∧ Covers df p.sels i ∧ Numbered pos df.nrows x := by
  obtain ⟨_, h2, _⟩ := containedLoopL_spec hord hw hn hlen _ _ _ (allTrue_nodup hpos _) h
  rw [h2 x, allTrue_mem]
  constructor
  · rintro ⟨h3, h4⟩
    obtain ⟨i, i1, _, i3⟩ := h4 hne
    exact ⟨i, i1, i3, h3⟩
  · rintro ⟨i, i1, i2, i3⟩
    refine ⟨i3, fun _ => ⟨i, i1, ?_, i2⟩⟩
    have := (List.getElem?_eq_some_iff.1 i1).1
    omega

/-- C91: the result of a non-empty pattern has exactly one entry for each label that is a row label or one of `0..n-1` -/
theorem C91_entries (p : Pattern) (hne : p.sels ≠ []) (df : Frame) (hw : WF df) (hlen : labels.length = df.nrows)
    (r : List (ι × Bool)) (h : p.isContainedL pos ord labels df = .ok r) :
    (r.map (·.1)).Nodup ∧ ∀ x, x ∈ r.map (·.1) ↔ x ∈ labels ∨ Numbered pos df.nrows x := by
  obtain ⟨h1, _, h3⟩ := containedLoopL_spec hord hw hn hlen _ _ _ (allTrue_nodup hpos _) h
  refine ⟨h1, fun x => (h3 x).trans ?_⟩
  rw [allTrue_names]
  have hN : x ∈ (List.range df.nrows).map pos ↔ Numbered pos df.nrows x := by
    simp [Numbered, eq_comm]
  rw [hN, or_comm]
  refine or_congr_left ⟨fun hh => hh.2.2, fun hx => ⟨hne, ?_, hx⟩⟩
  have : 0 < df.nrows := by
    rw [← hlen]; exact List.length_pos_of_mem hx
  exact ⟨pos 0, (allTrue_mem _ _ _).2 ⟨0, this, rfl⟩⟩

/-- C91 (exactly when the result is right for every row): iff each covered row has a label among `0..n-1` -/
theorem C91_right_exact (p : Pattern) (hne : p.sels ≠ []) (df : Frame) (hw : WF df) (hlen : labels.length = df.nrows)
    (r : List (ι × Bool)) (h : p.isContainedL pos ord labels df = .ok r) :
    (∀ (i : Nat) (x : ι), labels[i]? = some x → ((x, true) ∈ r ↔ Covers df p.sels i)) ↔
    (∀ (i : Nat) (x : ι), labels[i]? = some x → Covers df p.sels i → Numbered pos df.nrows x) := by
  have hc := C91_covered pos hpos ord hord labels hn p hne df hw hlen r h
  have huniq : ∀ (i j : Nat) (x : ι), labels[i]? = some x → labels[j]? = some x → i = j := by
    intro i j x hi hj
    obtain ⟨hi', hi⟩ := List.getElem?_eq_some_iff.1 hi
    obtain ⟨hj', hj⟩ := List.getElem?_eq_some_iff.1 hj
    exact (hn.getElem_inj_iff).1 (hi.trans hj.symm)
  constructor
  · intro hh i x hx hcov
    obtain ⟨_, _, _, h3⟩ := (hc x).1 ((hh i x hx).2 hcov)
    exact h3
  · intro hh i x hx
    rw [hc x]
    constructor
    · rintro ⟨j, hj, hcov, _⟩
      rw [huniq i j x hx hj]; exact hcov
    · intro hcov
      exact ⟨i, hx, hcov, hh i x hx hcov⟩

/-- C91 (exactly when the result has one entry per row): iff the row labels are the numbers `0..n-1` in some order. Otherwise it is longer. -/
theorem C91_length_exact (p : Pattern) (hne : p.sels ≠ []) (df : Frame) (hw : WF df) (hlen : labels.length = df.nrows)
    (r : List (ι × Bool)) (h : p.isContainedL pos ord labels df = .ok r) :
    df.nrows ≤ r.length ∧ (r.length = df.nrows ↔ labels.Perm ((List.range df.nrows).map pos)) := by
  obtain ⟨h1, h2⟩ := C91_entries pos hpos ord hord labels hn p hne df hw hlen r h
  have hsub : labels.Subperm (r.map (·.1)) := List.subperm_of_subset hn (fun x hx => (h2 x).2 (.inl hx))
  have hN : ∀ x, x ∈ (List.range df.nrows).map pos ↔ Numbered pos df.nrows x := fun x => by simp [Numbered, eq_comm]
  have hsub2 : ((List.range df.nrows).map pos).Subperm (r.map (·.1)) :=
    List.subperm_of_subset (List.Nodup.map hpos List.nodup_range) (fun x hx => (h2 x).2 (.inr ((hN x).1 hx)))
  have hle := hsub.length_le
  rw [List.length_map] at hle
  refine ⟨by omega, fun he => ?_, fun hp => ?_⟩
  · have p1 := hsub.perm_of_length_le (by rw [List.length_map]; omega)
    have p2 := hsub2.perm_of_length_le (by rw [List.length_map]; simp; omega)
    exact p1.trans p2.symm
  · have : (r.map (·.1)).Subperm labels := List.subperm_of_subset h1 (fun x hx => by
      rcases (h2 x).1 hx with hx | hx
      · exact hx
      · exact hp.mem_iff.2 ((hN x).2 hx))
    have := this.length_le
    rw [List.length_map] at this
    omega

/-- C91 (`filter_by_list_of_selectors`, non-empty list): the rows that are covered and have a label among `0..n-1`, in order; the other covered rows are lost -/
theorem C91_filterRows (l : List Selector) (hne : l ≠ []) (df : Frame) (hw : WF df) (hlen : labels.length = df.nrows) :
    (∃ e, filterByListOfSelectorsL pos ord labels df l = .raises e ∧
      ((e = .keyError ∧ ∃ s ∈ l, df.cols.lookup s.attr = none) ∨
       (∃ s ∈ l, ∃ col, df.cols.lookup s.attr = some col ∧ ∃ v ∈ col, s.op.evaluate v s.val = .error e))) ∨
    ∃ rows, filterByListOfSelectorsL pos ord labels df l = .rows rows ∧ rows.Pairwise (· < ·) ∧
      ∀ i, i ∈ rows ↔ i < df.nrows ∧ Covers df l i ∧ ∃ x, labels[i]? = some x ∧ Numbered pos df.nrows x := by
  unfold filterByListOfSelectorsL
  cases h : containedLoopL ord labels df l (allTrue pos df.nrows) with
  | error e => exact .inl ⟨e, rfl, containedLoopL_error _ _ h⟩
  | ok r =>
    right
    have h' : (⟨l⟩ : Pattern).isContainedL pos ord labels df = .ok r := h
    obtain ⟨h1, h2⟩ := C91_entries pos hpos ord hord labels hn ⟨l⟩ hne df hw hlen r h'
    have h3 := C91_covered pos hpos ord hord labels hn ⟨l⟩ hne df hw hlen r h'
    refine ⟨(List.range labels.length).filter (fun i => (labels[i]?.bind (fun x => r.lookup x)) == some true), ?_,
      List.pairwise_lt_range.filter _, fun i => ?_⟩
    · show maskRows labels r = _
      unfold maskRows
      rw [if_pos]
      rw [List.all_eq_true]
      intro x hx
      rw [List.contains_iff_mem]
      exact (h2 x).2 (.inl hx)
    · rw [List.mem_filter, List.mem_range, hlen]
      refine and_congr_right fun hi => ?_
      have hx : labels[i]? = some labels[i] := List.getElem?_eq_getElem (by omega)
      have hlook : ∀ (m : List (ι × Bool)) (y : ι), (m.map (·.1)).Nodup → (m.lookup y = some true ↔ (y, true) ∈ m) := by
        intro m y hm
        induction m with
        | nil => simp
        | cons e m ih =>
          obtain ⟨z, b⟩ := e
          simp only [List.map_cons, List.nodup_cons] at hm
          rw [List.lookup_cons, List.mem_cons]
          by_cases hz : y = z
          · subst hz
            have : (y, true) ∉ m := fun hh => hm.1 (List.mem_map_of_mem (f := (·.1)) hh)
            cases b <;> simp [this]
          · have : (y == z) = false := by simpa using hz
            simp only [this]
            rw [ih hm.2]
            simp [hz]
      rw [hx, Option.bind_some, beq_iff_eq, hlook r _ h1, h3]
      constructor
      · rintro ⟨j, hj, hc, hN⟩
        have : i = j := by
          obtain ⟨hj', hj⟩ := List.getElem?_eq_some_iff.1 hj
          exact ((hn.getElem_inj_iff).1 hj).symm
        subst this
        exact ⟨hc, _, rfl, hN⟩
      · rintro ⟨hc, x, hx', hN⟩
        cases hx'
        exact ⟨i, hx, hc, hN⟩

omit hpos hord hn in
/-- C91 (`filter_by_list_of_selectors`, empty list): all rows if each row label is one of `0..n-1`, else pandas raises its `IndexingError` -/
theorem C91_filterRows_empty (df : Frame) (hlen : labels.length = df.nrows) :
    ((∀ x ∈ labels, Numbered pos df.nrows x) → filterByListOfSelectorsL pos ord labels df [] = .rows (List.range df.nrows)) ∧
    (¬ (∀ x ∈ labels, Numbered pos df.nrows x) → filterByListOfSelectorsL pos ord labels df [] = .unalignable) := by
  have hN : ∀ x, Numbered pos df.nrows x ↔ x ∈ (allTrue pos df.nrows).map (·.1) := fun x => by
    rw [show (allTrue pos df.nrows).map (·.1) = names (allTrue pos df.nrows) from rfl, allTrue_names]
    simp [Numbered, eq_comm]
  have hunf : filterByListOfSelectorsL pos ord labels df [] = maskRows labels (allTrue pos df.nrows) := rfl
  rw [hunf, maskRows]
  constructor
  · intro h
    rw [if_pos (by rw [List.all_eq_true]; exact fun x hx => List.contains_iff_mem.2 ((hN x).1 (h x hx)))]
    rw [hlen]
    congr 1
    rw [List.filter_eq_self]
    intro i hi
    rw [List.mem_range] at hi
    have hx : labels[i]? = some labels[i] := List.getElem?_eq_getElem (by omega)
    rw [hx, Option.bind_some, beq_iff_eq]
    have hm := (hN _).1 (h labels[i] (List.getElem_mem _))
    have hall : ∀ (m : List (ι × Bool)) (y : ι), (∀ e ∈ m, e.2 = true) → y ∈ m.map (·.1) → m.lookup y = some true := by
      intro m y hm hy
      induction m with
      | nil => simp at hy
      | cons e m ih =>
        obtain ⟨z, b⟩ := e
        rw [List.lookup_cons]
        by_cases hz : y = z
        · subst hz
          have := hm (y, b) (by simp)
          simp_all
        · have : (y == z) = false := by simpa using hz
          simp only [this]
          refine ih (fun e he => hm e (by simp [he])) ?_
          simpa [hz] using hy
    exact hall _ _ (by simp [allTrue]) hm
  · intro h
    rw [if_neg]
    rw [List.all_eq_true]
    intro hh
    exact h fun x hx => (hN x).2 (List.contains_iff_mem.1 (hh x hx))

omit hpos hord in
/-- the entries `True` of a `Series` with different labels are as many as the rows they stand for -/
private theorem count_rows {a : List (ι × Bool)} (hna : (a.map (·.1)).Nodup) {P : Nat → Prop}
    (h : ∀ x, (x, true) ∈ a ↔ ∃ i : Nat, labels[i]? = some x ∧ P i) :
    ∃ rows : List Nat, rows.Nodup ∧ (∀ i, i ∈ rows ↔ i < labels.length ∧ P i) ∧ (a.filter (·.2)).length = rows.length := by
  have huniq : ∀ (i j : Nat) (x : ι), labels[i]? = some x → labels[j]? = some x → i = j := by
    intro i j x hi hj
    obtain ⟨hi', hi⟩ := List.getElem?_eq_some_iff.1 hi
    obtain ⟨hj', hj⟩ := List.getElem?_eq_some_iff.1 hj
    exact (hn.getElem_inj_iff).1 (hi.trans hj.symm)
  let rows := (List.range labels.length).filter (fun i => decide (∃ x ∈ labels[i]?, (x, true) ∈ a))
  have hrows : ∀ i, i ∈ rows ↔ i < labels.length ∧ P i := by
    intro i
    rw [List.mem_filter, List.mem_range]
    refine and_congr_right fun hi => ?_
    rw [decide_eq_true_eq]
    constructor
    · rintro ⟨x, hx, hm⟩
      obtain ⟨j, hj, hp⟩ := (h x).1 hm
      rw [huniq i j x hx hj]; exact hp
    · intro hp
      exact ⟨labels[i], List.getElem?_eq_getElem hi, (h _).2 ⟨i, List.getElem?_eq_getElem hi, hp⟩⟩
  refine ⟨rows, List.nodup_range.filter _, hrows, ?_⟩
  have hnr : rows.Nodup := List.nodup_range.filter _
  have hperm : ((a.filter (·.2)).map (fun e => some e.1)).Perm (rows.map (fun i => labels[i]?)) := by
    rw [List.perm_ext_iff_of_nodup]
    · intro y
      constructor
      · intro hy
        obtain ⟨⟨x, b⟩, he, rfl⟩ := List.mem_map.1 hy
        rw [List.mem_filter] at he
        obtain ⟨i, hi, hp⟩ := (h x).1 (by simpa [show b = true from he.2] using he.1)
        exact List.mem_map.2 ⟨i, (hrows i).2 ⟨(List.getElem?_eq_some_iff.1 hi).1, hp⟩, hi⟩
      · intro hy
        obtain ⟨i, hi, rfl⟩ := List.mem_map.1 hy
        obtain ⟨h1, h2⟩ := (hrows i).1 hi
        have hx : labels[i]? = some labels[i] := List.getElem?_eq_getElem h1
        exact List.mem_map.2 ⟨(labels[i], true), List.mem_filter.2 ⟨(h _).2 ⟨i, hx, h2⟩, rfl⟩, hx.symm⟩
    · have : ((a.filter (·.2)).map (·.1)).Nodup := (List.filter_sublist.map _).nodup hna
      rw [show (fun e : ι × Bool => some e.1) = some ∘ (·.1) from rfl, ← List.map_map]
      exact List.Nodup.map (Option.some_injective _) this
    · refine List.Nodup.map_on (fun i hi j hj hij => ?_) hnr
      have h1 := ((hrows i).1 hi).1
      exact huniq i j labels[i] (List.getElem?_eq_getElem h1) (by rw [← hij]; exact List.getElem?_eq_getElem h1)
  simpa using hperm.length_eq

/-- C91 (`Subgroup.filter`): the third series has the labels of the data frame and is right; the first two say `True` only for rows whose label is
among `0..n-1`, so the numbers of true and false positives that are read off them count only these rows -/
theorem C91_filter (s : Subgroup) (df : Frame) (hw : WF df) (hlen : labels.length = df.nrows) (a b t : List (ι × Bool))
    (h : s.filterL pos ord labels df = .ok (a, b, t)) :
    (t.map (·.1) = labels ∧ ∀ x, (x, true) ∈ t ↔ ∃ i : Nat, labels[i]? = some x ∧ MatchesAt df s.target i) ∧
    (∀ x, (x, true) ∈ a ↔ ∃ i : Nat, labels[i]? = some x ∧ Numbered pos df.nrows x ∧
      (Covers df s.description.sels i ∧ ∀ u ∈ s.description.sels, u.attr ≠ s.target.attr) ∧ MatchesAt df s.target i) ∧
    (∀ x, (x, true) ∈ b ↔ ∃ i : Nat, labels[i]? = some x ∧ Numbered pos df.nrows x ∧
      (Covers df s.description.sels i ∧ ∀ u ∈ s.description.sels, u.attr ≠ s.target.attr) ∧ ¬ MatchesAt df s.target i) ∧
    (∃ rows : List Nat, rows.Nodup ∧ (a.filter (·.2)).length = rows.length ∧
      ∀ i, i ∈ rows ↔ i < df.nrows ∧ (∃ x, labels[i]? = some x ∧ Numbered pos df.nrows x) ∧
        (Covers df s.description.sels i ∧ ∀ u ∈ s.description.sels, u.attr ≠ s.target.attr) ∧ MatchesAt df s.target i) ∧
    (∃ rows : List Nat, rows.Nodup ∧ (b.filter (·.2)).length = rows.length ∧
      ∀ i, i ∈ rows ↔ i < df.nrows ∧ (∃ x, labels[i]? = some x ∧ Numbered pos df.nrows x) ∧
        (Covers df s.description.sels i ∧ ∀ u ∈ s.description.sels, u.attr ≠ s.target.attr) ∧ ¬ MatchesAt df s.target i) := by
  unfold Subgroup.filterL at h
  cases hdrop : Subgroup.dropColumn df s.target.attr with
  | error e => rw [hdrop] at h; cases h
  | ok rest =>
  cases hcol : df.col s.target.attr with
  | error e => simp only [hdrop, hcol] at h; cases h
  | ok tc =>
  cases hcont : s.description.isContainedL pos ord labels rest with
  | error e => simp only [hdrop, hcol, hcont] at h; cases h
  | ok m =>
  cases hmt : s.target.matchSeries tc with
  | error e => simp only [hdrop, hcol, hcont, hmt] at h; cases h
  | ok tm =>
  simp only [hdrop, hcol, hcont, hmt] at h
  cases h
  have hrest : rest = ⟨df.nrows, df.cols.filter (fun c => c.1 != s.target.attr)⟩ := by
    unfold Subgroup.dropColumn at hdrop
    split at hdrop
    · cases hdrop; rfl
    · cases hdrop
  have hwr : WF rest := by
    rw [hrest]; intro c hc; exact hw c (List.mem_of_mem_filter hc)
  have hnr : rest.nrows = df.nrows := by rw [hrest]
  have hcov : ∀ i, Covers rest s.description.sels i ↔
      (Covers df s.description.sels i ∧ ∀ u ∈ s.description.sels, u.attr ≠ s.target.attr) := by
    intro i
    have hone : ∀ u : Selector, MatchesAt rest u i ↔ MatchesAt df u i ∧ u.attr ≠ s.target.attr := by
      intro u
      unfold MatchesAt
      rw [hrest]
      simp only
      by_cases hu : u.attr = s.target.attr
      · rw [hu, lookup_filter_eq]; simp
      · rw [lookup_filter_ne hu]; simp [hu]
    unfold Covers
    simp only [hone]
    exact ⟨fun h => ⟨fun u hu => (h u hu).1, fun u hu => (h u hu).2⟩, fun h u hu => ⟨h.1 u hu, h.2 u hu⟩⟩
  obtain ⟨c1, c2, _⟩ := containedLoopL_spec hord hwr hn (hlen.trans hnr.symm) _ _ _ (allTrue_nodup hpos _) hcont
  obtain ⟨t1, t2⟩ := matchSeries_get hcol hmt
  have hcl := Frame.col_length hw hcol
  have huniq : ∀ (i j : Nat) (x : ι), labels[i]? = some x → labels[j]? = some x → i = j := by
    intro i j x hi hj
    obtain ⟨hi', hi⟩ := List.getElem?_eq_some_iff.1 hi
    obtain ⟨hj', hj⟩ := List.getElem?_eq_some_iff.1 hj
    exact (hn.getElem_inj_iff).1 (hi.trans hj.symm)
  have hlt : ∀ {i : Nat} {x : ι}, labels[i]? = some x → i < df.nrows := fun hi => by
    have := (List.getElem?_eq_some_iff.1 hi).1; omega
  have ht : ∀ x, (x, true) ∈ labels.zip tm ↔ ∃ i : Nat, labels[i]? = some x ∧ MatchesAt df s.target i := fun x => by
    rw [series_true hw hcol hmt]
    exact exists_congr fun i => and_congr_right fun hi => by simp [hlt hi]
  have hf : ∀ x, (x, true) ∈ labels.zip (tm.map (!·)) ↔ ∃ i : Nat, labels[i]? = some x ∧ ¬ MatchesAt df s.target i := fun x => by
    rw [zip_label_true]
    refine exists_congr fun i => and_congr_right fun hi => ?_
    have := hlt hi
    rw [List.getElem?_map, List.getElem?_eq_getElem (by omega), ← t2 i (by omega)]
    simp
  have nt : names (labels.zip tm) = labels := zip_label_names (by omega)
  have nf : names (labels.zip (tm.map (!·))) = labels := zip_label_names (by rw [List.length_map]; omega)
  -- each of the two series, for a condition `Q` on the rows
  have both : ∀ (z : List (ι × Bool)) (Q : Nat → Prop), names z = labels →
      (∀ x, (x, true) ∈ z ↔ ∃ i : Nat, labels[i]? = some x ∧ Q i) → ∀ x, (x, true) ∈ alignAnd ord m z ↔
        ∃ i : Nat, labels[i]? = some x ∧ Numbered pos df.nrows x ∧
          (Covers df s.description.sels i ∧ ∀ u ∈ s.description.sels, u.attr ≠ s.target.attr) ∧ Q i := by
    intro z Q hz hQ x
    rw [alignAnd_true hord c1 (by rw [hz]; exact hn), c2, hQ, allTrue_mem, hnr]
    constructor
    · rintro ⟨⟨h1, h2⟩, i, h3, h4⟩
      refine ⟨i, h3, h1, ?_, h4⟩
      rw [← hcov i]
      by_cases hs : s.description.sels = []
      · rw [hs]; simp [Covers]
      · obtain ⟨j, j1, _, j3⟩ := h2 hs
        rw [huniq i j x h3 j1]; exact j3
    · rintro ⟨i, h1, h2, h3, h4⟩
      exact ⟨⟨h2, fun _ => ⟨i, h1, hlt h1, (hcov i).2 h3⟩⟩, i, h1, h4⟩
  have count : ∀ (z : List (ι × Bool)) (Q : Nat → Prop), names z = labels →
      (∀ x, (x, true) ∈ z ↔ ∃ i : Nat, labels[i]? = some x ∧ Q i) →
      ∃ rows : List Nat, rows.Nodup ∧ ((alignAnd ord m z).filter (·.2)).length = rows.length ∧
      ∀ i, i ∈ rows ↔ i < df.nrows ∧ (∃ x, labels[i]? = some x ∧ Numbered pos df.nrows x) ∧
        (Covers df s.description.sels i ∧ ∀ u ∈ s.description.sels, u.attr ≠ s.target.attr) ∧ Q i := by
    intro z Q hz hQ
    obtain ⟨rows, r1, r2, r3⟩ := count_rows labels hn (alignAnd_names hord c1 (by rw [hz]; exact hn)).1
      (P := fun i => (∃ x, labels[i]? = some x ∧ Numbered pos df.nrows x) ∧
        (Covers df s.description.sels i ∧ ∀ u ∈ s.description.sels, u.attr ≠ s.target.attr) ∧ Q i) (fun x => by
          rw [both z Q hz hQ x]
          refine exists_congr fun i => and_congr_right fun hi => and_congr_left fun _ => ?_
          constructor
          · intro hN; exact ⟨x, hi, hN⟩
          · rintro ⟨y, hy, hN⟩; rw [hi] at hy; cases hy; exact hN)
    exact ⟨rows, r1, r3, fun i => by rw [r2 i, hlen]⟩
  exact ⟨⟨nt, ht⟩, both _ _ nt ht, both _ _ nf hf, count _ _ nt ht, count _ _ nf hf⟩

end

/-- C91: an exception is one of `C08`: the `KeyError` of an absent attribute or the `TypeError` of an impossible comparison -/
theorem C91_errors (pos : Nat → ι) (ord : List (ι × Bool) → List (ι × Bool)) (labels : List ι) (p : Pattern) (df : Frame) (e : PyErr)
    (h : p.isContainedL pos ord labels df = .error e) :
    (e = .keyError ∧ ∃ s ∈ p.sels, df.cols.lookup s.attr = none) ∨
    (∃ s ∈ p.sels, ∃ col, df.cols.lookup s.attr = some col ∧ ∃ v ∈ col, s.op.evaluate v s.val = .error e) :=
  containedLoopL_error _ _ h

/-- C91: nothing is raised when all attributes are present and their cells can be compared with the values of the selectors, whatever the labels
(even repeated ones) -/
theorem C91_total (pos : Nat → ι) (ord : List (ι × Bool) → List (ι × Bool)) (labels : List ι) (p : Pattern) (df : Frame)
    (h : ∀ s ∈ p.sels, ∃ col, df.cols.lookup s.attr = some col ∧ ∀ v ∈ col, ∃ b, s.op.evaluate v s.val = .ok b) :
    ∃ r, p.isContainedL pos ord labels df = .ok r := by
  cases hr : p.isContainedL pos ord labels df with
  | ok r => exact ⟨r, rfl⟩
  | error e =>
    exfalso
    rcases C91_errors pos ord labels p df e hr with ⟨_, s, hs, hl⟩ | ⟨s, hs, col, hl, v, hv, he⟩
    · obtain ⟨col, h1, _⟩ := h s hs
      rw [hl] at h1; cases h1
    · obtain ⟨col', h1, h2⟩ := h s hs
      rw [hl] at h1; cases h1
      obtain ⟨b, hb⟩ := h2 v hv
      rw [he] at hb; cases hb

/-- the data of the witnesses: two rows, both with the value `x` in the column `a` -/
def splitFrame : Frame := ⟨2, [(c!"a", [.str c!"x", .str c!"x"]), (c!"t", [.str c!"y", .str c!"n"])]⟩

/-- the witness pattern `[a = 'x']`, which covers both rows -/
def splitPattern : Pattern := Pattern.new [⟨c!"a", .equal, .str c!"x"⟩]

/-- C91 (what a user would expect is false): on a part of a larger data frame, here two rows with the labels 7 and 0 or 7 and 8, the covered rows whose label
is not 0 or 1 are reported as not covered; the true positives are lost, `filter_by_list_of_selectors` drops covered rows, and with no selector at all it
fails -/
theorem C91_fails :
    (∀ i < 2, Covers splitFrame splitPattern.sels i) ∧
    splitPattern.isContainedL (fun i => i) id [7, 0] splitFrame = .ok [(0, true), (1, false), (7, false)] ∧
    splitPattern.isContainedL (fun i => i) id [7, 8] splitFrame = .ok [(0, false), (1, false), (7, false), (8, false)] ∧
    ((⟨splitPattern, ⟨c!"t", .equal, .str c!"y"⟩⟩ : Subgroup).filterL (fun i => i) id [7, 0] splitFrame).map (fun r => (r.1.filter (·.2)).length) = .ok 0 ∧
    ((⟨splitPattern, ⟨c!"t", .equal, .str c!"y"⟩⟩ : Subgroup).filterL (fun i => i) id [0, 1] splitFrame).map (fun r => (r.1.filter (·.2)).length) = .ok 1 ∧
    filterByListOfSelectorsL (fun i => i) id [7, 0] splitFrame splitPattern.sels = .rows [1] ∧
    filterByListOfSelectorsL (fun i => i) id [7, 8] splitFrame [] = .unalignable := by
  refine ⟨?_, by decide +kernel, by decide +kernel, by decide +kernel, by decide +kernel, by decide +kernel, by decide +kernel⟩
  intro i hi s hs
  have hs' : s = ⟨c!"a", .equal, .str c!"x"⟩ := by
    have : splitPattern.sels = [⟨c!"a", .equal, .str c!"x"⟩] := by decide +kernel
    rw [this] at hs
    simpa using hs
  subst hs'
  rcases (by omega : i = 0 ∨ i = 1) with rfl | rfl
  · exact ⟨[.str c!"x", .str c!"x"], .str c!"x", by decide +kernel, rfl, by decide +kernel⟩
  · exact ⟨[.str c!"x", .str c!"x"], .str c!"x", by decide +kernel, rfl, by decide +kernel⟩

/-- C91 (repeated labels): two rows with the label 0; each further selector doubles the number of entries `True` -/
theorem C91_repeated :
    (splitPattern.isContainedL (fun i => i) id [0, 0] splitFrame).map (fun r => (r.filter (·.2)).length) = .ok 2 ∧
    ((Pattern.new [⟨c!"a", .equal, .str c!"x"⟩, ⟨c!"a", .notEqual, .str c!"y"⟩]).isContainedL (fun i => i) id [0, 0] splitFrame).map
      (fun r => (r.filter (·.2)).length) = .ok 4 ∧
    ((Pattern.new [⟨c!"a", .equal, .str c!"x"⟩, ⟨c!"a", .notEqual, .str c!"y"⟩, ⟨c!"a", .notEqual, .str c!"z"⟩]).isContainedL (fun i => i) id [0, 0] splitFrame).map
      (fun r => (r.filter (·.2)).length) = .ok 8 :=
  ⟨by decide +kernel, by decide +kernel, by decide +kernel⟩

/-- non-vacuity: the hypotheses of the theorems above hold for a shuffled frame (labels 1, 0) and for a split one (labels 7, 0) -/
example : WF splitFrame ∧ splitPattern.sels ≠ [] ∧ [1, 0].Nodup ∧ [7, 0].Nodup ∧ [7, 0].length = splitFrame.nrows ∧
    splitPattern.isContainedL (fun i => i) id [1, 0] splitFrame = .ok [(0, true), (1, true)] :=
  ⟨by intro c hc; simp [splitFrame] at hc; rcases hc with rfl | rfl <;> rfl, by decide +kernel, by decide, by decide, rfl, by decide +kernel⟩

end Verif
