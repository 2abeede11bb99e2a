import Verif.Spec.Shuffle
import Verif.Lemmas.Nominal
/-! Lemmas for C94, C95: counts do not depend on the order of rows and columns. -/
namespace Verif
open Spec
section
open Classical
variable {df df' : Frame} {π : List Nat} {target : Str × Str}

theorem shuffle_row (h : Includes df df' π) {i : Nat} (hi : i < df.nrows) : ∃ j, π[i]? = some j ∧ j < df.nrows := by
  have hl : π.length = df.nrows := by rw [h.perm.length_eq, List.length_range]
  refine ⟨π[i], List.getElem?_eq_getElem (by omega), ?_⟩
  have := h.perm.mem_iff (a := π[i])
  rw [List.mem_range] at this
  exact this.1 (List.getElem_mem _)

theorem shuffle_cell (h : Includes df df' π) {name : Str} {col : List Val} (hc : df.cols.lookup name = some col) {i j : Nat} (hj : π[i]? = some j) :
    ∃ col', df'.cols.lookup name = some col' ∧ col'[i]? = col[j]? := by
  obtain ⟨col', h1, h2⟩ := h.cells name col hc
  refine ⟨col', h1, ?_⟩
  have := congrArg (fun l => l[i]?) h2
  simp only [List.getElem?_map, hj, Option.map_some] at this
  cases hx : col'[i]? with
  | none => rw [hx] at this; simp at this
  | some v => rw [hx] at this; simp at this; rw [← this]

/-- the attribute is a column of `df`, or of neither -/
def Known (df df' : Frame) (a : Str) : Prop := a ∈ df.cols.map (·.1) ∨ a ∉ df'.cols.map (·.1)

theorem lookup_of_name {df : Frame} {a : Str} (h : a ∈ df.cols.map (·.1)) : ∃ col, df.cols.lookup a = some col := by
  cases hl : df.cols.lookup a with
  | some c => exact ⟨c, rfl⟩
  | none => exact absurd h (lookup_none.1 hl)

theorem Spec.Includes.names (h : Includes df df' π) {a : Str} (ha : a ∈ df.cols.map (·.1)) : a ∈ df'.cols.map (·.1) := by
  obtain ⟨c, hc⟩ := lookup_of_name ha
  obtain ⟨c', h1, _⟩ := h.cells _ _ hc
  by_contra hn
  rw [lookup_none.2 hn] at h1
  cases h1

theorem Spec.Shuffled.known (h : Shuffled df df' π) (a : Str) : Known df df' a := by
  by_cases ha : a ∈ df.cols.map (·.1)
  · exact .inl ha
  · exact .inr (fun hh => ha (h.columns.mem_iff.1 hh))

theorem shuffle_matches (h : Includes df df' π) {s : Selector} (hs : Known df df' s.attr) {i j : Nat} (hj : π[i]? = some j) :
    MatchesAt df' s i ↔ MatchesAt df s j := by
  rcases hs with hs | hs
  · obtain ⟨col, hc⟩ := lookup_of_name hs
    obtain ⟨col', hc', he⟩ := shuffle_cell h hc hj
    unfold MatchesAt
    constructor
    · rintro ⟨c, v, a, b, d⟩
      rw [hc'] at a; cases a
      exact ⟨col, v, hc, by rw [← he]; exact b, d⟩
    · rintro ⟨c, v, a, b, d⟩
      rw [hc] at a; cases a
      exact ⟨col', v, hc', by rw [he]; exact b, d⟩
  · have h1 : df'.cols.lookup s.attr = none := lookup_none.2 hs
    have h2 : df.cols.lookup s.attr = none := lookup_none.2 (fun hh => hs (h.names hh))
    unfold MatchesAt
    rw [h1, h2]
    constructor <;> rintro ⟨c, v, a, _⟩ <;> cases a

theorem shuffle_covers (h : Includes df df' π) {X : List Selector} (hX : ∀ s ∈ X, Known df df' s.attr) {i j : Nat} (hj : π[i]? = some j) :
    Covers df' X i ↔ Covers df X j :=
  ⟨fun hc s hs => (shuffle_matches h (hX s hs) hj).1 (hc s hs), fun hc s hs => (shuffle_matches h (hX s hs) hj).2 (hc s hs)⟩

theorem shuffle_count (h : Includes df df' π) {P P' : Nat → Prop} [DecidablePred P] [DecidablePred P'] (hp : ∀ i j : Nat, π[i]? = some j → (P' i ↔ P j)) :
    ((List.range df'.nrows).filter (fun i => decide (P' i))).length = ((List.range df.nrows).filter (fun i => decide (P i))).length := by
  have hl : π.length = df.nrows := by rw [h.perm.length_eq, List.length_range]
  have hm : π = (List.range df.nrows).map (fun i => π.getD i 0) := by
    apply List.ext_getElem?
    intro i
    by_cases hi : i < df.nrows
    · rw [List.getElem?_map, List.getElem?_range hi, Option.map_some, List.getD_eq_getElem?_getD, List.getElem?_eq_getElem (by omega)]
      rfl
    · rw [List.getElem?_eq_none (by omega), List.getElem?_eq_none (by simp; omega)]
  rw [h.rows, ← ((h.perm.filter (fun i => decide (P i)))).length_eq]
  conv_rhs => rw [hm]
  rw [List.filter_map, List.length_map]
  congr 1
  apply List.filter_congr
  intro i hi
  have hi' : i < π.length := by rw [hl]; exact List.mem_range.1 hi
  have := hp i (π[i]) (List.getElem?_eq_getElem hi')
  simp only [Function.comp_apply, List.getD_eq_getElem?_getD, List.getElem?_eq_getElem hi', Option.getD_some]
  exact decide_eq_decide.2 this

theorem shuffle_tpOf (h : Includes df df' π) {X : List Selector} (hX : ∀ s ∈ X, Known df df' s.attr) (ht : Known df df' target.1) :
    tpOf df' target X = tpOf df target X :=
  shuffle_count h (fun _ _ hj => and_congr (shuffle_covers h hX hj) (shuffle_matches (s := targetSel target) h ht hj))

theorem shuffle_fpOf (h : Includes df df' π) {X : List Selector} (hX : ∀ s ∈ X, Known df df' s.attr) (ht : Known df df' target.1) :
    fpOf df' target X = fpOf df target X :=
  shuffle_count h (fun _ _ hj => and_congr (shuffle_covers h hX hj) (not_congr (shuffle_matches (s := targetSel target) h ht hj)))

theorem shuffle_occurs (h : Includes df df' π) {X : List Selector} (hX : ∀ s ∈ X, Known df df' s.attr) : OccursIn df' X ↔ OccursIn df X := by
  constructor
  · rintro ⟨i, hi, hc⟩
    obtain ⟨j, hj, hlt⟩ := shuffle_row h (h.rows ▸ hi)
    exact ⟨j, hlt, (shuffle_covers h hX hj).1 hc⟩
  · rintro ⟨j, hj, hc⟩
    have : j ∈ π := h.perm.mem_iff.2 (List.mem_range.2 hj)
    obtain ⟨i, hi⟩ := List.mem_iff_getElem?.1 this
    obtain ⟨hlt, _⟩ := List.getElem?_eq_some_iff.1 hi
    have hl : π.length = df.nrows := by rw [h.perm.length_eq, List.length_range]
    exact ⟨i, by rw [h.rows]; omega, (shuffle_covers h hX hi).2 hc⟩

/-- the cells of a column are the same, up to the order -/
theorem shuffle_mem (h : Includes df df' π) (hw : WF df) {name : Str} {col : List Val} (hc : df.cols.lookup name = some col) :
    ∃ col', df'.cols.lookup name = some col' ∧ ∀ v, v ∈ col' ↔ v ∈ col := by
  obtain ⟨col', h1, h2⟩ := h.cells name col hc
  refine ⟨col', h1, fun v => ?_⟩
  have hlen : col.length = df.nrows := hw _ (mem_of_lookup hc)
  constructor
  · intro hv
    have : some v ∈ π.map (fun i : Nat => col[i]?) := by rw [← h2]; exact List.mem_map_of_mem hv
    obtain ⟨i, _, hi⟩ := List.mem_map.1 this
    exact List.mem_of_getElem? hi
  · intro hv
    obtain ⟨i, hi⟩ := List.mem_iff_getElem?.1 hv
    have : some v ∈ col'.map some := by
      rw [h2]
      refine List.mem_map.2 ⟨i, ?_, hi⟩
      obtain ⟨hlt, _⟩ := List.getElem?_eq_some_iff.1 hi
      exact h.perm.mem_iff.2 (List.mem_range.2 (by omega))
    obtain ⟨w, hw', he⟩ := List.mem_map.1 this
    cases he
    exact hw'

theorem shuffle_nominal (h : Shuffled df df' π) (hf : NominalFrame df target) : NominalFrame df' target := by
  have hn : (df'.cols.map (·.1)).Nodup := h.columns.nodup_iff.2 hf.names
  have hcol : ∀ c ∈ df'.cols, ∃ col, df.cols.lookup c.1 = some col ∧ c.2.map some = π.map (fun i : Nat => col[i]?) ∧ ∀ v, v ∈ c.2 ↔ v ∈ col := by
    intro c hc
    have : c.1 ∈ df.cols.map (·.1) := h.columns.mem_iff.1 (List.mem_map_of_mem hc)
    obtain ⟨col, hl⟩ := lookup_of_name this
    obtain ⟨col', h1, h2⟩ := h.cells _ _ hl
    obtain ⟨col'', h3, h4⟩ := shuffle_mem h.toIncludes hf.wf hl
    have e := lookup_of_mem_nodup hn hc
    rw [e] at h1 h3
    cases h1; cases h3
    exact ⟨col, hl, h2, h4⟩
  refine ⟨?_, hn, ?_, h.columns.mem_iff.2 hf.target⟩
  · intro c hc
    obtain ⟨col, _, h2, _⟩ := hcol c hc
    have := congrArg List.length h2
    rw [List.length_map, List.length_map, h.perm.length_eq, List.length_range] at this
    rw [this, h.rows]
  · intro c hc v hv
    obtain ⟨col, h1, _, h3⟩ := hcol c hc
    exact hf.texts _ (mem_of_lookup h1) v ((h3 v).1 hv)

theorem shuffle_keys (h : Shuffled df df' π) (hf : NominalFrame df target) (hk : KeysFaithful df target) : KeysFaithful df' target := by
  have hn : (df'.cols.map (·.1)).Nodup := h.columns.nodup_iff.2 hf.names
  have hcol : ∀ c ∈ df'.cols, ∃ col, (c.1, col) ∈ df.cols ∧ ∀ v, v ∈ c.2 → v ∈ col := by
    intro c hc
    have : c.1 ∈ df.cols.map (·.1) := h.columns.mem_iff.1 (List.mem_map_of_mem hc)
    obtain ⟨col, hl⟩ := lookup_of_name this
    obtain ⟨col'', h3, h4⟩ := shuffle_mem h.toIncludes hf.wf hl
    rw [lookup_of_mem_nodup hn hc] at h3
    cases h3
    exact ⟨col, mem_of_lookup hl, fun v hv => (h4 v).1 hv⟩
  intro c hc c' hc' n1 n2 v hv v' hv' he
  obtain ⟨a, ha, ha'⟩ := hcol c hc
  obtain ⟨b, hb, hb'⟩ := hcol c' hc'
  exact hk _ ha _ hb n1 n2 v (ha' v hv) v' (hb' v' hv') he

theorem keys_includes (h : Includes df df' π) (hf : NominalFrame df target) (hk : KeysFaithful df' target) :
    KeysFaithful df target := by
  have hcol : ∀ c ∈ df.cols, ∃ col, (c.1, col) ∈ df'.cols ∧ ∀ v, v ∈ c.2 → v ∈ col := by
    intro c hc
    have hl := lookup_of_mem_nodup hf.names hc
    obtain ⟨col', h3, h4⟩ := shuffle_mem h hf.wf hl
    exact ⟨col', mem_of_lookup h3, fun v hv => (h4 v).2 hv⟩
  intro c hc c' hc' n1 n2 v hv v' hv' he
  obtain ⟨a, ha, ha'⟩ := hcol c hc
  obtain ⟨b, hb, hb'⟩ := hcol c' hc'
  exact hk _ ha _ hb n1 n2 v (ha' v hv) v' (hb' v' hv') he
end
end Verif
