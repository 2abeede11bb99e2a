import Verif.Lemmas.IDSD
/-! IDSD: `fit`. -/
namespace Verif.IDSD
open Spec BSD

/-! ### the reduced data -/

theorem length_reduceColumn (ties : TieOrder) (cats : Int) (col : List Val) : (reduceColumn ties cats col).length = col.length := by
  unfold reduceColumn
  simp only
  split <;> simp

theorem texts_reduceColumn (ties : TieOrder) (cats : Int) (col : List Val) (h : ∀ v ∈ col, ∃ s, v = .str s) : ∀ v ∈ reduceColumn ties cats col, ∃ s, v = .str s := by
  intro v hv
  unfold reduceColumn at hv
  simp only at hv
  split at hv
  · exact h v hv
  · obtain ⟨w, hw, rfl⟩ := List.mem_map.1 hv
    split
    · exact ⟨_, rfl⟩
    · exact h w hw

theorem reduce_cols {cats : Int} (h : cats ≠ -1) (df : Frame) (t : Str) :
    (reduceCategories ties cats df t).cols = df.cols.map (fun c => if c.1 = t then c else (c.1, reduceColumn ties cats c.2)) := by
  unfold reduceCategories; rw [if_neg h]

theorem reduce_nrows (ties : TieOrder) (cats : Int) (df : Frame) (t : Str) : (reduceCategories ties cats df t).nrows = df.nrows := by
  unfold reduceCategories; split <;> rfl

theorem reduce_names (ties : TieOrder) (cats : Int) (df : Frame) (t : Str) : (reduceCategories ties cats df t).cols.map (·.1) = df.cols.map (·.1) := by
  by_cases h : cats = -1
  · unfold reduceCategories; rw [if_pos h]
  · rw [reduce_cols h, List.map_map]
    apply List.map_congr_left
    intro c _
    simp only [Function.comp]
    split <;> rfl

theorem reduce_nominal {df : Frame} {target : Str × Str} (hf : NominalFrame df target) (cats : Int) : NominalFrame (reduceCategories ties cats df target.1) target := by
  by_cases h : cats = -1
  · unfold reduceCategories; rw [if_pos h]; exact hf
  · refine ⟨?_, by rw [reduce_names]; exact hf.names, ?_, by rw [reduce_names]; exact hf.target⟩
    · intro c hc
      rw [reduce_cols h] at hc
      obtain ⟨c', hc', rfl⟩ := List.mem_map.1 hc
      rw [reduce_nrows]
      split
      · exact hf.wf c' hc'
      · simp only [length_reduceColumn]; exact hf.wf c' hc'
    · intro c hc
      rw [reduce_cols h] at hc
      obtain ⟨c', hc', rfl⟩ := List.mem_map.1 hc
      split
      · exact hf.texts c' hc'
      · exact texts_reduceColumn ties cats c'.2 (hf.texts c' hc')

theorem lookup_map_target {l : List (Str × List Val)} {t : Str} (f : Str × List Val → Str × List Val) (h1 : ∀ c, (f c).1 = c.1) (h2 : ∀ c, c.1 = t → f c = c) :
    (l.map f).lookup t = l.lookup t := by
  induction l with
  | nil => rfl
  | cons c l ih =>
    rw [List.map_cons]
    obtain ⟨n, v⟩ := c
    have e1 := h1 (n, v)
    by_cases h : n = t
    · rw [h2 (n, v) h, List.lookup_cons, List.lookup_cons]
      simp [h]
    · have : f (n, v) = ((f (n, v)).1, (f (n, v)).2) := rfl
      have hn : (t == n) = false := by simpa using fun hh => h hh.symm
      rw [this, List.lookup_cons, List.lookup_cons, e1, ih]
      simp [hn]

theorem reduce_target (ties : TieOrder) (cats : Int) (df : Frame) (target : Str × Str) : targetMask (reduceCategories ties cats df target.1) target = targetMask df target := by
  by_cases h : cats = -1
  · unfold reduceCategories; rw [if_pos h]
  · unfold targetMask Frame.col
    rw [reduce_cols h, lookup_map_target]
    · intro c; split <;> rfl
    · intro c hc; rw [if_pos hc]

/-! ### the dictionary of the appearances -/

theorem lookup_setApp (d : List (Selector × Bits)) (k k' : Selector) (v : Bits) :
    (setApp d k v).lookup k' = if k' = k then some v else d.lookup k' := by
  have h1 : ∀ d : List (Selector × Bits), (d.map (fun e => if e.1 = k then (e.1, v) else e)).lookup k' =
      if k' = k then (if k ∈ d.map (·.1) then some v else none) else d.lookup k' := by
    intro d
    induction d with
    | nil => simp
    | cons e d ih =>
      obtain ⟨a, b⟩ := e
      rw [List.map_cons]
      by_cases ha : a = k
      · subst ha
        simp only [if_true, List.lookup_cons, ih]
        by_cases hk : k' = a
        · simp [hk]
        · have : (k' == a) = false := by simpa using hk
          simp [this, hk]
      · simp only [ha, if_false, List.lookup_cons, ih]
        by_cases hk : k' = k
        · subst hk
          have : (k' == a) = false := by simpa using fun h => ha h.symm
          simp only [this, if_true]
          by_cases hm : k' ∈ d.map (·.1)
          · rw [if_pos hm, if_pos (by rw [List.map_cons]; exact List.mem_cons_of_mem _ hm)]
          · rw [if_neg hm, if_neg]
            rw [List.map_cons, List.mem_cons]
            rintro (h | h)
            · exact ha h.symm
            · exact hm h
        · simp [hk]
  unfold setApp
  split
  · rename_i h
    rw [h1]
    rw [List.contains_iff_mem] at h
    simp [h]
  · rename_i h
    rw [List.contains_iff_mem] at h
    by_cases hk : k' = k
    · subst hk
      have : d.lookup k' = none := by
        rw [List.lookup_eq_none_iff]
        intro e he
        have : e.1 ≠ k' := fun hh => h (hh ▸ List.mem_map_of_mem he)
        simpa using this.symm
      rw [List.lookup_append, this]
      simp
    · rw [List.lookup_append]
      have : (k' == k) = false := by simpa using hk
      rw [if_neg hk, List.lookup_cons, this]
      simp

theorem head_setApp {n : Nat} {d : List (Selector × Bits)} {k : Selector} {v : Bits} (hv : n ≤ v.length) (h : ∀ a ∈ d.head?, n ≤ a.2.length) :
    ∀ a ∈ (setApp d k v).head?, n ≤ a.2.length := by
  unfold setApp
  cases d with
  | nil =>
    intro a ha
    simp at ha
    rw [← ha]; exact hv
  | cons e d =>
    have he := h e (by simp)
    split
    · intro a ha
      simp only [List.map_cons, List.head?_cons, Option.mem_some_iff] at ha
      rw [← ha]
      split
      · exact hv
      · exact he
    · intro a ha
      simp only [List.cons_append, List.head?_cons, Option.mem_some_iff] at ha
      rw [← ha]; exact he

theorem lookup_fold {l : List (Selector × Bits)} (hn : (l.map (·.1)).Nodup) (d : List (Selector × Bits)) (k : Selector) :
    (l.foldl (fun d e => setApp d e.1 e.2) d).lookup k = if k ∈ l.map (·.1) then l.lookup k else d.lookup k := by
  induction l generalizing d with
  | nil => simp
  | cons e l ih =>
    rw [List.map_cons, List.nodup_cons] at hn
    rw [List.foldl_cons, ih hn.2, lookup_setApp, List.map_cons]
    obtain ⟨a, b⟩ := e
    by_cases hk : k = a
    · subst hk
      simp [hn.1]
    · have : (k == a) = false := by simpa using hk
      rw [if_neg hk, List.lookup_cons, this]
      by_cases hm : k ∈ l.map (·.1)
      · rw [if_pos hm, if_pos (List.mem_cons_of_mem _ hm)]
      · rw [if_neg hm, if_neg]
        rw [List.mem_cons]
        rintro (h | h)
        · exact hk h
        · exact hm h

theorem head_fold {n : Nat} {l : List (Selector × Bits)} (hl : ∀ e ∈ l, n ≤ e.2.length) {d : List (Selector × Bits)} (h : ∀ a ∈ d.head?, n ≤ a.2.length) :
    ∀ a ∈ (l.foldl (fun d e => setApp d e.1 e.2) d).head?, n ≤ a.2.length := by
  induction l generalizing d with
  | nil => exact h
  | cons e l ih =>
    rw [List.foldl_cons]
    exact ih (fun e he => hl e (by simp [he])) (head_setApp (hl e (by simp)) h)

section
open Classical
variable {df : Frame} {target : Str × Str} {mask : List Bool} {cfg : IDSDConfig}

theorem pairs_length (hf : NominalFrame df target) : ∀ e ∈ selectorPairs df target.1, e.2.length = df.nrows := by
  intro a ha
  rw [selectorPairs_eq hf, List.mem_map] at ha
  obtain ⟨e, he, rfl⟩ := ha
  rw [item_bits hf he, covBits_length]

theorem appsOK_fold (hf : NominalFrame df target) {d : List (Selector × Bits)} (hd : ∀ a ∈ d.head?, df.nrows ≤ a.2.length) :
    AppsOK df target ((selectorPairs df target.1).foldl (fun d e => setApp d e.1 e.2) d) := by
  refine ⟨?_, head_fold (fun e he => le_of_eq (pairs_length hf e he).symm) hd⟩
  intro s hs
  rw [lookup_fold (nodup_sels hf), if_pos hs, lookup_pairs hf hs]

/-! ### `fit` -/

theorem matches_iff (hm : MaskOK df target mask) : mask.any id = true ↔ OccursIn df [targetSel target] := by
  rw [List.any_eq_true]
  constructor
  · rintro ⟨b, hb, h⟩
    obtain ⟨i, hi⟩ := List.mem_iff_getElem?.1 hb
    simp only [id] at h
    rw [h] at hi
    have hl : i < df.nrows := by rw [← hm.len]; exact (List.getElem?_eq_some_iff.1 hi).1
    exact ⟨i, hl, fun s hs => by rw [List.mem_singleton.1 hs]; exact (hm.iff i).1 hi⟩
  · rintro ⟨i, hi, hc⟩
    exact ⟨true, List.mem_iff_getElem?.2 ⟨i, (hm.iff i).2 (hc _ (by simp))⟩, rfl⟩

theorem fit_spec (hf : NominalFrame df target) (ht : OccursIn df [targetSel target]) (hnum : 0 < cfg.num) (st : IDSDState)
    (hA : ∀ a ∈ st.apps.head?, df.nrows ≤ a.2.length) :
    ∃ st' N, fit cfg st df target = .ok st' ∧
      st'.apps = (selectorPairs (reduceCategories cfg.ties cfg.cats df target.1) target.1).foldl (fun d e => setApp d e.1 e.2) st.apps ∧
      DeepSpec cfg (reduceCategories cfg.ties cfg.cats df target.1) target (maxComplexity cfg (reduceCategories cfg.ties cfg.cats df target.1)) st' N := by
  obtain ⟨mask, hm0, hm1, hm2⟩ := targetMask_ok hf
  have hf' := reduce_nominal hf (ties := cfg.ties) cfg.cats
  have hm' : MaskOK (reduceCategories cfg.ties cfg.cats df target.1) target mask := by
    obtain ⟨mask', h0, h1, h2⟩ := targetMask_ok hf'
    rw [reduce_target, hm0] at h0
    cases h0
    exact ⟨h1, h2⟩
  have hn : 0 < (reduceCategories cfg.ties cfg.cats df target.1).nrows := by
    rw [reduce_nrows]
    obtain ⟨i, hi, _⟩ := ht
    omega
  unfold fit
  rw [nominal_of hf, hm0]
  simp only [Bool.not_true, Bool.false_eq_true, if_false]
  rw [(matches_iff ⟨hm1, hm2⟩).2 ht]
  simp only [Bool.not_true, Bool.false_eq_true, if_false]
  generalize hdf : reduceCategories cfg.ties cfg.cats df target.1 = df' at *
  have hr : df.nrows = df'.nrows := by rw [← hdf, reduce_nrows]
  obtain ⟨hc1, hc2⟩ := count_true_mask hf' hm'.len hm'.iff
  rw [hr, hc2, hc1]
  obtain ⟨st', N, h1, h2, h3⟩ := deepen_spec (cfg := cfg) hf' hm' hn hnum (maxComplexity cfg df') 0
    { st with top := [], calls := [], apps := (selectorPairs df' target.1).foldl (fun d e => setApp d e.1 e.2) st.apps } []
    (appsOK_fold hf' (by rw [← hr]; exact hA))
    ⟨rfl, by simp, by simp, SInv.empty, by
      intro X _ h2 h3
      exact absurd (List.length_eq_zero_iff.1 (Nat.le_zero.1 h3)) h2⟩
  refine ⟨st', N, ?_, h2, by simpa using h3⟩
  rw [← h1]
  congr 1
  apply List.map_congr_left
  intro i _
  omega

end
end Verif.IDSD
