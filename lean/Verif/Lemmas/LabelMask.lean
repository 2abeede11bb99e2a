import Verif.Model.LabelMask
import Verif.Lemmas.Contained
import Mathlib.Data.List.Nodup
/-! Lemmas about the alignment of Boolean `Series` and the loop of `is_contained` with row labels. -/
namespace Verif
open Spec
variable {ι : Type} [DecidableEq ι]

/-- the labels of a `Series` -/
abbrev names (l : List (ι × Bool)) : List ι := l.map (·.1)

theorem mem_names {l : List (ι × Bool)} {x : ι} : x ∈ names l ↔ ∃ b, (x, b) ∈ l := by
  simp [names]

theorem unique_entry {l : List (ι × Bool)} (h : (names l).Nodup) {x : ι} {a b : Bool} (ha : (x, a) ∈ l) (hb : (x, b) ∈ l) : a = b := by
  induction l with
  | nil => cases ha
  | cons e l ih =>
    simp only [names, List.map_cons, List.nodup_cons, List.mem_map, not_exists, not_and] at h
    rcases List.mem_cons.1 ha with rfl | ha' <;> rcases List.mem_cons.1 hb with h2 | hb'
    · cases h2; rfl
    · exact absurd (show (x, b).1 = (x, a).1 from rfl) (h.1 (x, b) hb')
    · subst h2; exact absurd (show (x, a).1 = (x, b).1 from rfl) (h.1 (x, a) ha')
    · exact ih h.2 ha' hb'

theorem filter_label {r : List (ι × Bool)} (h : (names r).Nodup) {x : ι} {b : Bool} (hb : (x, b) ∈ r) :
    r.filter (fun e => decide (e.1 = x)) = [(x, b)] := by
  induction r with
  | nil => cases hb
  | cons e r ih =>
    simp only [names, List.map_cons, List.nodup_cons, List.mem_map, not_exists, not_and] at h
    rcases List.mem_cons.1 hb with rfl | hb'
    · rw [List.filter_cons_of_pos (by simp)]
      congr 1
      rw [List.filter_eq_nil_iff]
      intro e he
      simpa using h.1 e he
    · rw [List.filter_cons_of_neg (by simpa using fun hh => h.1 _ hb' hh.symm)]
      exact ih h.2 hb'

theorem filter_label_none {r : List (ι × Bool)} {x : ι} (h : x ∉ names r) : r.filter (fun e => decide (e.1 = x)) = [] := by
  rw [List.filter_eq_nil_iff]
  intro e he
  simp only [decide_eq_true_eq]
  rintro rfl
  exact h (List.mem_map_of_mem he)

theorem joinAt_some {r : List (ι × Bool)} (h : (names r).Nodup) {x : ι} {a b : Bool} (hb : (x, b) ∈ r) :
    joinAt r (x, a) = [(x, a && b)] := by
  simp [joinAt, filter_label h hb]

theorem joinAt_none {r : List (ι × Bool)} {x : ι} {a : Bool} (h : x ∉ names r) : joinAt r (x, a) = [(x, false)] := by
  simp [joinAt, filter_label_none h]

/-- with different labels on the right side, the join has one entry per entry of the left side -/
theorem joinAt_flat {r : List (ι × Bool)} (h : (names r).Nodup) (l : List (ι × Bool)) :
    names (l.flatMap (joinAt r)) = names l := by
  induction l with
  | nil => rfl
  | cons e l ih =>
    obtain ⟨x, a⟩ := e
    by_cases hx : x ∈ names r
    · obtain ⟨b, hb⟩ := mem_names.1 hx
      rw [List.flatMap_cons, joinAt_some h hb]
      simpa [names] using ih
    · rw [List.flatMap_cons, joinAt_none hx]
      simpa [names] using ih

theorem zip_names {l r : List (ι × Bool)} (h : names l = names r) :
    names (List.zipWith (fun a b => (a.1, a.2 && b.2)) l r) = names l := by
  induction l generalizing r with
  | nil => simp
  | cons e l ih =>
    cases r with
    | nil => simp at h
    | cons f r =>
      simp only [names, List.map_cons, List.cons.injEq] at h
      simpa [names] using ih h.2

theorem zip_true {l r : List (ι × Bool)} (h : names l = names r) (hl : (names l).Nodup) (x : ι) :
    (x, true) ∈ List.zipWith (fun a b => (a.1, a.2 && b.2)) l r ↔ (x, true) ∈ l ∧ (x, true) ∈ r := by
  induction l generalizing r with
  | nil => simp
  | cons e l ih =>
    cases r with
    | nil => simp at h
    | cons f r =>
      obtain ⟨y, a⟩ := e
      obtain ⟨z, b⟩ := f
      simp only [names, List.map_cons, List.cons.injEq] at h
      obtain ⟨rfl, h⟩ := h
      simp only [names, List.map_cons, List.nodup_cons] at hl
      rw [List.zipWith_cons_cons, List.mem_cons, ih h hl.2, List.mem_cons, List.mem_cons]
      by_cases hx : x = y
      · subst hx
        have h1 : (x, true) ∉ l := fun hm => hl.1 (List.mem_map_of_mem (f := (·.1)) hm)
        have h2 : (x, true) ∉ r := fun hm => hl.1 (by rw [show l.map (·.1) = r.map (·.1) from h]; exact List.mem_map_of_mem (f := (·.1)) hm)
        cases a <;> cases b <;> simp [h1, h2]
      · simp [hx]

section
variable {ord : List (ι × Bool) → List (ι × Bool)} (hord : ∀ l, (ord l).Perm l)
include hord

theorem alignAnd_names {l r : List (ι × Bool)} (hl : (names l).Nodup) (hr : (names r).Nodup) :
    (names (alignAnd ord l r)).Nodup ∧ ∀ x, x ∈ names (alignAnd ord l r) ↔ x ∈ names l ∨ x ∈ names r := by
  unfold alignAnd
  split
  · rename_i h
    rw [zip_names h]
    exact ⟨hl, fun x => by rw [show names l = names r from h]; simp⟩
  · have hp : (names (ord (l.flatMap (joinAt r) ++ (r.filter (fun b => !(names l).contains b.1)).map (fun b => (b.1, false))))).Perm
        (names l ++ names (r.filter (fun b => !(names l).contains b.1))) := by
      refine ((hord _).map _).trans ?_
      rw [List.map_append, show (l.flatMap (joinAt r)).map (·.1) = names l from joinAt_flat hr l, List.map_map]
      exact List.Perm.refl _
    refine ⟨hp.nodup_iff.2 ?_, fun x => ?_⟩
    · refine List.nodup_append.2 ⟨hl, (List.filter_sublist.map _).nodup hr, ?_⟩
      rintro a ha b hb rfl
      obtain ⟨e, he, rfl⟩ := List.mem_map.1 hb
      rw [List.mem_filter] at he
      have h2 := he.2
      rw [List.contains_iff_mem.2 ha] at h2
      cases h2
    · rw [hp.mem_iff, List.mem_append]
      constructor
      · rintro (h | h)
        · exact .inl h
        · exact .inr ((List.filter_sublist.map _).subset h)
      · rintro (h | h)
        · exact .inl h
        · by_cases hx : x ∈ names l
          · exact .inl hx
          · right
            obtain ⟨b, hb⟩ := mem_names.1 h
            refine List.mem_map.2 ⟨(x, b), List.mem_filter.2 ⟨hb, ?_⟩, rfl⟩
            simpa using hx

theorem alignAnd_true {l r : List (ι × Bool)} (hl : (names l).Nodup) (hr : (names r).Nodup) (x : ι) :
    (x, true) ∈ alignAnd ord l r ↔ (x, true) ∈ l ∧ (x, true) ∈ r := by
  unfold alignAnd
  split
  · rename_i h
    exact zip_true h hl x
  · rw [(hord _).mem_iff, List.mem_append]
    have h2 : (x, true) ∉ (r.filter (fun b => !(names l).contains b.1)).map (fun b => (b.1, false)) := by simp
    simp only [h2, or_false, List.mem_flatMap]
    constructor
    · rintro ⟨⟨y, a⟩, ha, hm⟩
      by_cases hy : y ∈ names r
      · obtain ⟨b, hb⟩ := mem_names.1 hy
        rw [joinAt_some hr hb] at hm
        simp only [List.mem_singleton, Prod.mk.injEq] at hm
        obtain ⟨rfl, h3⟩ := hm
        have := h3.symm
        rw [Bool.and_eq_true] at this
        obtain ⟨rfl, rfl⟩ := this
        exact ⟨ha, hb⟩
      · rw [joinAt_none hy] at hm
        simp at hm
    · rintro ⟨ha, hb⟩
      exact ⟨_, ha, by rw [joinAt_some hr hb]; simp⟩

end

theorem zip_label_true {labels : List ι} {m : List Bool} {x : ι} :
    (x, true) ∈ labels.zip m ↔ ∃ i : Nat, labels[i]? = some x ∧ m[i]? = some true := by
  rw [List.mem_iff_getElem?]
  refine exists_congr fun i => ?_
  rw [List.getElem?_zip_eq_some]

theorem zip_label_names {labels : List ι} {m : List Bool} (h : m.length = labels.length) : names (labels.zip m) = labels :=
  List.map_fst_zip (by omega)

theorem series_true {df : Frame} (hw : WF df) {labels : List ι} {s : Selector} {col : List Val} {m : List Bool}
    (hc : df.col s.attr = .ok col) (hm : s.matchSeries col = .ok m) (x : ι) :
    (x, true) ∈ labels.zip m ↔ ∃ i : Nat, labels[i]? = some x ∧ i < df.nrows ∧ MatchesAt df s i := by
  obtain ⟨h1, h2⟩ := matchSeries_get hc hm
  have h3 := Frame.col_length hw hc
  rw [zip_label_true]
  refine exists_congr fun i => and_congr_right fun _ => ?_
  rw [List.getElem?_eq_some_iff]
  constructor
  · rintro ⟨hi, ht⟩
    exact ⟨by omega, (h2 i hi).1 ht⟩
  · rintro ⟨hi, ht⟩
    exact ⟨by omega, (h2 i (by omega)).2 ht⟩

variable {ord : List (ι × Bool) → List (ι × Bool)} (hord : ∀ l, (ord l).Perm l)
include hord

/-- the loop, from a `Series` with different labels -/
theorem containedLoopL_spec {df : Frame} (hw : WF df) {labels : List ι} (hn : labels.Nodup) (hlen : labels.length = df.nrows)
    (l : List Selector) (acc r : List (ι × Bool)) (hacc : (names acc).Nodup)
    (h : containedLoopL ord labels df l acc = .ok r) :
    (names r).Nodup ∧
    (∀ x, (x, true) ∈ r ↔ (x, true) ∈ acc ∧ (l ≠ [] → ∃ i : Nat, labels[i]? = some x ∧ i < df.nrows ∧ Covers df l i)) ∧
    (∀ x, x ∈ names r ↔ x ∈ names acc ∨ (l ≠ [] ∧ (∃ y, (y, true) ∈ acc) ∧ x ∈ labels)) := by
  induction l generalizing acc with
  | nil =>
    cases h
    exact ⟨hacc, fun x => by simp, fun x => by simp⟩
  | cons s l ih =>
    rw [containedLoopL] at h
    by_cases hany : acc.any (·.2) = true
    · rw [if_pos hany] at h
      have htrue : ∃ y, (y, true) ∈ acc := by
        obtain ⟨⟨y, b⟩, he, hb⟩ := List.any_eq_true.1 hany
        exact ⟨y, by simpa [show b = true from hb] using he⟩
      split at h
      · cases h
      rename_i col hc
      split at h
      · cases h
      rename_i ms hms
      have hsn : names (labels.zip ms) = labels := by
        refine zip_label_names ?_
        rw [(matchSeries_get hc hms).1, Frame.col_length hw hc, hlen]
      have hsn' : (names (labels.zip ms)).Nodup := by rw [hsn]; exact hn
      obtain ⟨g1, g2⟩ := alignAnd_names hord hacc hsn'
      obtain ⟨i1, i2, i3⟩ := ih _ g1 h
      refine ⟨i1, fun x => ?_, fun x => ?_⟩
      · rw [i2 x, alignAnd_true hord hacc hsn', series_true hw hc hms, and_assoc]
        refine and_congr_right fun _ => ?_
        simp only [ne_eq, reduceCtorEq, not_false_eq_true, true_imp_iff]
        constructor
        · rintro ⟨⟨i, h1, h2, h3⟩, h4⟩
          refine ⟨i, h1, h2, ?_⟩
          intro t ht
          rcases List.mem_cons.1 ht with rfl | ht
          · exact h3
          · obtain ⟨j, j1, j2, j3⟩ := h4 (fun he => by simp [he] at ht)
            have : i = j := by
              rw [List.getElem?_eq_some_iff] at h1 j1
              obtain ⟨hi, h1⟩ := h1
              obtain ⟨hj, j1⟩ := j1
              exact (hn.getElem_inj_iff).1 (h1.trans j1.symm)
            subst this
            exact j3 t ht
        · rintro ⟨i, h1, h2, h3⟩
          exact ⟨⟨i, h1, h2, h3 s (by simp)⟩, fun _ => ⟨i, h1, h2, fun t ht => h3 t (by simp [ht])⟩⟩
      · rw [i3 x, g2 x, hsn]
        simp only [ne_eq, reduceCtorEq, not_false_eq_true, true_and, htrue]
        tauto
    · rw [if_neg hany] at h
      have hno : ∀ y, (y, true) ∉ acc := fun y hy => hany (List.any_eq_true.2 ⟨(y, true), hy, rfl⟩)
      cases h
      refine ⟨hacc, fun x => ?_, fun x => ?_⟩
      · simp [hno]
      · simp [hno]

omit hord in
theorem allTrue_names (pos : Nat → ι) (n : Nat) : names (allTrue pos n) = (List.range n).map pos := by
  simp [allTrue, names, Function.comp_def]

omit hord in
theorem allTrue_mem (pos : Nat → ι) (n : Nat) (x : ι) : (x, true) ∈ allTrue pos n ↔ ∃ j < n, x = pos j := by
  simp [allTrue, eq_comm]

omit hord in
theorem allTrue_nodup {pos : Nat → ι} (hp : Function.Injective pos) (n : Nat) : (names (allTrue pos n)).Nodup := by
  rw [allTrue_names]
  exact List.Nodup.map hp List.nodup_range

omit [DecidableEq ι] hord in
theorem containedLoopL_error [DecidableEq ι] {df : Frame} {labels : List ι} (l : List Selector) (acc : List (ι × Bool)) {e : PyErr}
    (h : containedLoopL ord labels df l acc = .error e) :
    (e = .keyError ∧ ∃ s ∈ l, df.cols.lookup s.attr = none) ∨
    (∃ s ∈ l, ∃ col, df.cols.lookup s.attr = some col ∧ ∃ v ∈ col, s.op.evaluate v s.val = .error e) := by
  induction l generalizing acc with
  | nil => cases h
  | cons s l ih =>
    rw [containedLoopL] at h
    split at h
    · split at h
      · rename_i e' hc
        cases h
        left
        unfold Frame.col at hc
        split at hc
        · cases hc
        · cases hc; rename_i hn; exact ⟨rfl, s, by simp, hn⟩
      · rename_i col hc
        split at h
        · rename_i e' hm
          cases h
          right
          obtain ⟨v, hv, he⟩ := mapM_error hm
          refine ⟨s, by simp, col, ?_, v, hv, he⟩
          unfold Frame.col at hc
          split at hc
          · cases hc; assumption
          · cases hc
        · rcases ih _ h with ⟨h1, s', h2, h3⟩ | ⟨s', h2, h3⟩
          · exact .inl ⟨h1, s', by simp [h2], h3⟩
          · exact .inr ⟨s', by simp [h2], h3⟩
    · cases h

end Verif
