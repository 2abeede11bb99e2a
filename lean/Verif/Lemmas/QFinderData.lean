import Verif.Lemmas.QFinderTop
import Verif.Lemmas.Categories
import Verif.Lemmas.IDSDFit
import Verif.Props.Subgroup
/-! QFinder: candidates and their bitsets. -/
namespace Verif.QFinder
open Spec BSD
open IDSD (redundant otherLoop valueCounts covBits covBits_length covBits_getD covBits_congr alignAnd_covBits mem_new new_len sublist_ext add_new new_sels_eq)

variable {df : Frame} {target : Str × Str}

/-! ### combinations -/

theorem mem_combinations {α : Type} (n : Nat) (l X : List α) : X ∈ combinations n l ↔ X.Sublist l ∧ X.length = n := by
  induction l generalizing n X with
  | nil =>
    cases n with
    | zero => simp only [combinations, List.mem_singleton, List.sublist_nil]; exact ⟨fun h => ⟨h, by simp [h]⟩, fun h => h.1⟩
    | succ n =>
      simp only [combinations, List.not_mem_nil, List.sublist_nil, false_iff]
      rintro ⟨rfl, h⟩
      simp at h
  | cons a l ih =>
    cases n with
    | zero =>
      simp only [combinations, List.mem_singleton]
      constructor
      · rintro rfl; simp
      · rintro ⟨_, h⟩; exact List.length_eq_zero_iff.1 h
    | succ n =>
      rw [combinations, List.mem_append, List.mem_map, ih]
      constructor
      · rintro (⟨Y, hY, rfl⟩ | ⟨h1, h2⟩)
        · rw [ih] at hY
          exact ⟨hY.1.cons_cons a, by simp [hY.2]⟩
        · exact ⟨h1.cons a, h2⟩
      · rintro ⟨h1, h2⟩
        cases h1 with
        | cons _ h => exact .inr ⟨h, h2⟩
        | cons_cons _ h => exact .inl ⟨_, (ih _ _).2 ⟨h, by simpa using h2⟩, rfl⟩

theorem nodup_combinations {α : Type} {l : List α} (hl : l.Nodup) (n : Nat) : (combinations n l).Nodup := by
  induction l generalizing n with
  | nil => cases n <;> simp [combinations]
  | cons a l ih =>
    cases n with
    | zero => simp [combinations]
    | succ n =>
      rw [List.nodup_cons] at hl
      rw [combinations, List.nodup_append]
      refine ⟨(ih hl.2 n).map (fun x y h => by simpa using h), ih hl.2 _, ?_⟩
      rintro X hX Y hY rfl
      obtain ⟨Z, _, rfl⟩ := List.mem_map.1 hX
      exact hl.1 (((mem_combinations _ _ _).1 hY).1.subset (by simp))

/-! ### simple patterns -/

/-- the values of a column for which there is a simple pattern -/
def keptVals (ties : TieOrder) (cats : Int) (col : List Val) : List Val :=
  if ((pyUnique col).length : Int) ≤ cats ∨ cats = -1 then pyUnique col else nlargest (cats - 1).toNat (valueCounts ties col)

theorem kept_all {cats : Int} {col : List Val} (h : ((pyUnique col).length : Int) ≤ cats ∨ cats = -1) (v : Val) : v ∈ keptVals ties cats col ↔ v ∈ col := by
  unfold keptVals; rw [if_pos h]; exact mem_pyUnique col v

theorem nlargest_spec (k : Nat) (col : List Val) :
    (nlargest k (valueCounts ties col)).Nodup ∧ (∀ v ∈ nlargest k (valueCounts ties col), v ∈ col) ∧
    (nlargest k (valueCounts ties col)).length = min k (pyUnique col).length ∧
    ∀ v ∈ nlargest k (valueCounts ties col), ∀ w ∈ col, w ∉ nlargest k (valueCounts ties col) → col.count w ≤ col.count v := by
  set S := stableSort (fun a b : Val × Nat => decide (b.2 ≤ a.2)) (valueCounts ties col) with hS
  have hn : nlargest k (valueCounts ties col) = (S.take k).map (·.1) := rfl
  have hperm : S.Perm ((pyUnique col).map (fun v => (v, col.count v))) := (stableSort_perm _).trans ((stableSort_perm _).trans ((ties.perm _).map _))
  have hSfst : (S.map (·.1)).Perm (pyUnique col) := by
    have := hperm.map (·.1)
    rw [List.map_map] at this
    have e : ((fun p : Val × Nat => p.1) ∘ fun v => (v, col.count v)) = id := rfl
    rw [e, List.map_id] at this
    exact this
  have hSnod : (S.map (·.1)).Nodup := hSfst.nodup_iff.2 (nodup_pyUnique col)
  have hSsnd : ∀ p ∈ S, p.2 = col.count p.1 := by
    intro p hp
    obtain ⟨v, _, rfl⟩ := List.mem_map.1 (hperm.mem_iff.1 hp)
    rfl
  have hsorted : S.Pairwise (fun a b => b.2 ≤ a.2) := by
    have := pairwise_stableSort (le := fun a b : Val × Nat => decide (b.2 ≤ a.2))
      (fun a b c h1 h2 => by simp only [decide_eq_true_eq] at *; omega) (fun a b => by simp; omega) (valueCounts ties col)
    exact this.imp (fun h => by simpa using h)
  have hsplit : S = S.take k ++ S.drop k := (List.take_append_drop k S).symm
  rw [hn]
  refine ⟨hSnod.sublist (List.Sublist.map _ (List.take_sublist k S)), ?_, ?_, ?_⟩
  · intro v hv
    rw [← mem_pyUnique, ← hSfst.mem_iff]
    exact (List.Sublist.map _ (List.take_sublist k S)).subset hv
  · rw [List.length_map, List.length_take, ← hSfst.length_eq, List.length_map]
  · intro v hv w hw hwn
    obtain ⟨p, hp, rfl⟩ := List.mem_map.1 hv
    have hw' : w ∈ S.map (·.1) := hSfst.mem_iff.2 ((mem_pyUnique col w).2 hw)
    rw [hsplit, List.map_append, List.mem_append] at hw'
    obtain ⟨q, hq, rfl⟩ := List.mem_map.1 (hw'.resolve_left hwn)
    rw [← hSsnd p (List.mem_of_mem_take hp), ← hSsnd q (List.mem_of_mem_drop hq)]
    rw [hsplit, List.pairwise_append] at hsorted
    exact hsorted.2.2 p hp q hq

theorem keptVals_nodup (cats : Int) (col : List Val) : (keptVals ties cats col).Nodup := by
  unfold keptVals
  split
  · exact nodup_pyUnique col
  · exact (nlargest_spec _ col).1

theorem keptVals_sub (cats : Int) (col : List Val) : ∀ v ∈ keptVals ties cats col, v ∈ col := by
  unfold keptVals
  split
  · exact fun v hv => (mem_pyUnique col v).1 hv
  · exact (nlargest_spec _ col).2.1

/-- the simple patterns of a column: one per kept value, and possibly one for a text that is not a value -/
theorem simpleOf_eq (ties : TieOrder) (cats : Int) (c : Str × List Val) : ∃ E : List Str, simpleOf ties cats c = (keptVals ties cats c.2).map (fun v => (⟨c.1, .equal, v⟩ : Selector)) ++
    E.map (fun x => (⟨c.1, .equal, .str x⟩ : Selector)) ∧ E.Nodup ∧ ∀ x ∈ E, Val.str x ∉ c.2 := by
  unfold simpleOf keptVals
  simp only
  split
  · exact ⟨[], by simp⟩
  · refine ⟨[otherLoop (pyUnique c.2) ((pyUnique c.2).length + 1) c!"other"], by simp, by simp, ?_⟩
    intro x hx
    rw [List.mem_singleton] at hx
    subst hx
    have := otherLoop_spec (pyUnique c.2) _ c!"other" (exists_fresh (pyUnique c.2) _)
    rwa [mem_pyUnique] at this

theorem simpleOf_nodup (ties : TieOrder) (cats : Int) (c : Str × List Val) : (simpleOf ties cats c).Nodup := by
  obtain ⟨E, h1, h2, h3⟩ := simpleOf_eq ties cats c
  rw [h1, List.nodup_append]
  refine ⟨(keptVals_nodup _ _).map (fun a b h => by simpa using h), h2.map (fun a b h => by simpa using h), ?_⟩
  rintro a ha b hb rfl
  obtain ⟨v, hv, rfl⟩ := List.mem_map.1 ha
  obtain ⟨x, hx, h⟩ := List.mem_map.1 hb
  simp only [Selector.mk.injEq, true_and] at h
  exact h3 x hx (h ▸ keptVals_sub _ _ v hv)

theorem simpleOf_attr (ties : TieOrder) (cats : Int) (c : Str × List Val) {s : Selector} (hs : s ∈ simpleOf ties cats c) : s.attr = c.1 := by
  obtain ⟨E, h1, _, _⟩ := simpleOf_eq ties cats c
  rw [h1] at hs
  rcases List.mem_append.1 hs with hs | hs
  · obtain ⟨v, _, rfl⟩ := List.mem_map.1 hs; rfl
  · obtain ⟨v, _, rfl⟩ := List.mem_map.1 hs; rfl

theorem simples_nodup (hf : NominalFrame df target) (cats : Int) : (simples ties cats df target.1).Nodup := by
  unfold simples List.Nodup
  rw [List.pairwise_flatMap]
  refine ⟨fun c _ => simpleOf_nodup ties cats c, ?_⟩
  have h : ((otherCols df target.1).map (·.1)).Nodup := hf.names.sublist (List.Sublist.map _ List.filter_sublist)
  rw [List.Nodup, List.pairwise_map] at h
  refine h.imp ?_
  rintro c d hcd a ha b hb rfl
  exact hcd ((simpleOf_attr ties cats c ha).symm.trans (simpleOf_attr ties cats d hb))

/-- a selector on an attribute of the data other than the target -/
def InCols (df : Frame) (target : Str × Str) (s : Selector) : Prop := IsSel target s ∧ s.attr ∈ df.cols.map (·.1)

theorem simples_inCols (hf : NominalFrame df target) (cats : Int) {s : Selector} (hs : s ∈ simples ties cats df target.1) : InCols df target s := by
  obtain ⟨c, hc, hs⟩ := List.mem_flatMap.1 hs
  rw [mem_otherCols] at hc
  obtain ⟨E, h1, _, _⟩ := simpleOf_eq ties cats c
  rw [h1] at hs
  rcases List.mem_append.1 hs with hs | hs
  · obtain ⟨v, hv, rfl⟩ := List.mem_map.1 hs
    obtain ⟨x, rfl⟩ := hf.texts c hc.1 v (keptVals_sub _ _ v hv)
    exact ⟨⟨hc.2, rfl, x, rfl⟩, List.mem_map_of_mem hc.1⟩
  · obtain ⟨x, hx, rfl⟩ := List.mem_map.1 hs
    exact ⟨⟨hc.2, rfl, x, rfl⟩, List.mem_map_of_mem hc.1⟩

theorem occurs_single (hf : NominalFrame df target) {c : Str × List Val} (hc : c ∈ df.cols) (x : Str) :
    OccursIn df [⟨c.1, .equal, .str x⟩] ↔ Val.str x ∈ c.2 := by
  unfold OccursIn
  simp only [covers_item hf hc]
  constructor
  · rintro ⟨i, _, h⟩; exact List.mem_of_getElem? h
  · intro h
    obtain ⟨i, hi, h⟩ := List.getElem_of_mem h
    exact ⟨i, by rw [← hf.wf c hc]; exact hi, by rw [List.getElem?_eq_getElem hi, h]⟩

/-- the simple patterns that occur are those of the kept values -/
theorem simples_occurs (hf : NominalFrame df target) (cats : Int) (s : Selector) :
    (s ∈ simples ties cats df target.1 ∧ OccursIn df [s]) ↔ ∃ c ∈ df.cols, c.1 ≠ target.1 ∧ ∃ v ∈ keptVals ties cats c.2, s = ⟨c.1, .equal, v⟩ := by
  constructor
  · rintro ⟨hs, ho⟩
    obtain ⟨c, hc, hs⟩ := List.mem_flatMap.1 hs
    rw [mem_otherCols] at hc
    obtain ⟨E, h1, _, h3⟩ := simpleOf_eq ties cats c
    rw [h1] at hs
    rcases List.mem_append.1 hs with hs | hs
    · obtain ⟨v, hv, rfl⟩ := List.mem_map.1 hs
      exact ⟨c, hc.1, hc.2, v, hv, rfl⟩
    · obtain ⟨x, hx, rfl⟩ := List.mem_map.1 hs
      rw [occurs_single hf hc.1] at ho
      exact absurd ho (h3 x hx)
  · rintro ⟨c, hc, hct, v, hv, rfl⟩
    obtain ⟨x, rfl⟩ := hf.texts c hc v (keptVals_sub _ _ v hv)
    refine ⟨?_, (occurs_single hf hc x).2 (keptVals_sub _ _ _ hv)⟩
    obtain ⟨E, h1, _, _⟩ := simpleOf_eq ties cats c
    exact List.mem_flatMap.2 ⟨c, (mem_otherCols c).2 ⟨hc, hct⟩, by rw [h1]; exact List.mem_append_left _ (List.mem_map_of_mem (f := fun v => (⟨c.1, .equal, v⟩ : Selector)) hv)⟩

/-! ### candidates -/

/-- the greatest number of selectors of a candidate -/
def maxLen (cfg : QFConfig) (df : Frame) (tname : Str) : Nat :=
  max 1 (if cfg.maxC = -1 then ((otherCols df tname).length : Int) else cfg.maxC).toNat

/-- the sets of selectors of the candidates, in order -/
def candSets (cfg : QFConfig) (df : Frame) (tname : Str) : List (List Selector) :=
  (simples cfg.ties cfg.cats df tname).map (fun s => [s]) ++
    (List.range' 2 ((if cfg.maxC = -1 then ((otherCols df tname).length : Int) else cfg.maxC) - 1).toNat).flatMap
      (fun n => (combinations n (simples cfg.ties cfg.cats df tname)).filter (fun X => decide ((X.map (·.attr)).Nodup)))

theorem mem_candSets (cfg : QFConfig) (X : List Selector) :
    X ∈ candSets cfg df target.1 ↔ X ≠ [] ∧ X.Sublist (simples cfg.ties cfg.cats df target.1) ∧ (X.map (·.attr)).Nodup ∧ X.length ≤ maxLen cfg df target.1 := by
  unfold candSets maxLen
  set M := (if cfg.maxC = -1 then ((otherCols df target.1).length : Int) else cfg.maxC) with hM
  simp only [List.mem_append, List.mem_map, List.mem_flatMap, List.mem_filter, mem_combinations, decide_eq_true_eq, List.mem_range'_1]
  constructor
  · rintro (⟨s, hs, rfl⟩ | ⟨n, hn, ⟨h1, h2⟩, h3⟩)
    · exact ⟨by simp, List.singleton_sublist.2 hs, by simp, by simp⟩
    · refine ⟨fun h => ?_, h1, h3, by omega⟩
      rw [h] at h2
      simp at h2
      omega
  · rintro ⟨h0, h1, h2, h3⟩
    have hpos : 0 < X.length := List.length_pos_iff.2 h0
    by_cases hl : X.length = 1
    · obtain ⟨s, rfl⟩ := List.length_eq_one_iff.1 hl
      exact .inl ⟨s, List.singleton_sublist.1 h1, rfl⟩
    · exact .inr ⟨X.length, by omega, ⟨h1, rfl⟩, h2⟩

theorem nodup_candSets (hf : NominalFrame df target) (cfg : QFConfig) : (candSets cfg df target.1).Nodup := by
  have hn := simples_nodup (ties := cfg.ties) hf cfg.cats
  unfold candSets
  rw [List.nodup_append]
  refine ⟨hn.map (fun a b h => by simpa using h), ?_, ?_⟩
  · unfold List.Nodup
    rw [List.pairwise_flatMap]
    refine ⟨fun n _ => (nodup_combinations hn n).filter _, ?_⟩
    refine (List.nodup_range' (s := 2) _).imp ?_
    rintro m n hmn a ha b hb rfl
    rw [List.mem_filter, mem_combinations] at ha hb
    exact hmn (ha.1.2.symm.trans hb.1.2)
  · rintro a ha b hb rfl
    obtain ⟨s, _, rfl⟩ := List.mem_map.1 ha
    obtain ⟨n, hn', h⟩ := List.mem_flatMap.1 hb
    rw [List.mem_filter, mem_combinations] at h
    rw [List.mem_range'_1] at hn'
    have := h.1.2
    simp at this
    omega

theorem foldl_add (X : List Selector) : ∀ Y : List Selector, (∀ s ∈ Y ++ X, TextEq s) → X.foldl (fun p s => p.add s) (Pattern.new Y) = Pattern.new (Y ++ X) := by
  induction X with
  | nil => intro Y _; simp
  | cons s X ih =>
    intro Y h
    rw [List.foldl_cons]
    have : (Pattern.new Y).add s = Pattern.new (Y ++ [s]) := add_new (fun t ht => h t (by simp [ht])) (h s (by simp))
    rw [this, ih (Y ++ [s]) (by simpa using h)]
    simp

theorem candidates_eq (hf : NominalFrame df target) (cfg : QFConfig) : candidates cfg df target.1 = (candSets cfg df target.1).map Pattern.new := by
  unfold candidates candSets
  simp only
  rw [List.map_append, List.map_map, List.map_flatMap]
  congr 1
  apply List.flatMap_congr
  intro n _
  unfold complexOf
  apply List.map_congr_left
  intro X hX
  rw [List.mem_filter, mem_combinations] at hX
  have := foldl_add X [] (fun s hs => (simples_inCols hf cfg.cats (hX.1.1.subset (by simpa using hs))).1.2)
  simpa using this

end Verif.QFinder
