import Verif.Props.IDSD
import Verif.Lemmas.Categories
/-! Property C58: grouping of the less frequent values of the attributes (IDSD). -/
namespace Verif
open IDSD BSD

theorem mem_pyUniq (l : List Val) (v : Val) : v ∈ pyUnique l ↔ v ∈ l := BSD.mem_pyUnique l v

/-- C58: grouping the values of a column, with a limit of `cats` values. A column with at most `cats` values is left as it is. In
another one each cell is kept or replaced by one marker, a text that is not a value of the column; the values that are replaced are at most as frequent
as those that are kept; the result has exactly `cats` different values. -/
theorem C58_column (ties : TieOrder) (cats : Int) (hc : 1 ≤ cats) (col : List Val) :
    (((pyUnique col).length : Int) ≤ cats → reduceColumn ties cats col = col) ∧
    (cats < ((pyUnique col).length : Int) → ∃ (marker : Str) (G : List Val), (Val.str marker) ∉ col ∧ (∀ v ∈ G, v ∈ col) ∧
      reduceColumn ties cats col = col.map (fun v => if v ∈ G then .str marker else v) ∧
      (∀ v ∈ col, ∀ w ∈ G, v ∉ G → col.count w ≤ col.count v) ∧
      ((pyUnique (reduceColumn ties cats col)).length : Int) = cats) := by
  constructor
  · intro h
    unfold reduceColumn
    simp only
    rw [if_pos h]
  · intro h
    set vals := pyUnique col with hv
    have hm : Val.str (otherLoop vals (vals.length + 1) c!"other") ∉ vals := otherLoop_spec _ _ _ (exists_fresh vals _)
    set marker := otherLoop vals (vals.length + 1) c!"other" with hmk
    set k := ((vals.length : Int) - cats + 1).toNat with hk
    set S := stableSort (fun a b : Val × Nat => decide (a.2 ≤ b.2)) (valueCounts ties col) with hS
    have hperm : S.Perm (vals.map (fun v => (v, col.count v))) :=
      (stableSort_perm _).trans ((stableSort_perm _).trans ((ties.perm _).map _))
    have hG : nsmallest k (valueCounts ties col) = (S.take k).map (·.1) := rfl
    set G := (S.take k).map (·.1) with hGd
    have hSfst : (S.map (·.1)).Perm vals := by
      have := hperm.map (·.1)
      rw [List.map_map] at this
      have e : ((fun p : Val × Nat => p.1) ∘ fun v => (v, col.count v)) = id := rfl
      rw [e, List.map_id] at this
      exact this
    have hSnod : (S.map (·.1)).Nodup := hSfst.nodup_iff.2 (nodup_pyUnique col)
    have hSsnd : ∀ p ∈ S, p.2 = col.count p.1 := by
      intro p hp
      obtain ⟨v, _, rfl⟩ := List.mem_map.1 (hperm.mem_iff.1 hp)
      rfl
    have hsorted : S.Pairwise (fun a b => a.2 ≤ b.2) := by
      have := pairwise_stableSort (le := fun a b : Val × Nat => decide (a.2 ≤ b.2))
        (fun a b c h1 h2 => by simp only [decide_eq_true_eq] at *; omega) (fun a b => by simp; omega) (valueCounts ties col)
      exact this.imp (fun h => by simpa using h)
    have hSlen : S.length = vals.length := by simpa using hperm.length_eq
    have hsplit : S = S.take k ++ S.drop k := (List.take_append_drop k S).symm
    have hGsub : ∀ v ∈ G, v ∈ vals := fun v hv' => by
      rw [← hSfst.mem_iff]
      exact (List.Sublist.map _ (List.take_sublist k S)).subset hv'
    have hrest : ∀ v, v ∈ vals → (v ∉ G ↔ v ∈ (S.drop k).map (·.1)) := by
      intro v hvv
      rw [hsplit, List.map_append, List.nodup_append] at hSnod
      have hin : v ∈ (S.take k).map (·.1) ++ (S.drop k).map (·.1) := by
        rw [← List.map_append, ← hsplit]; exact hSfst.mem_iff.2 hvv
      constructor
      · intro hn; exact (List.mem_append.1 hin).resolve_left hn
      · intro hd hg; exact hSnod.2.2 v hg v hd rfl
    have hred : reduceColumn ties cats col = col.map (fun v => if v ∈ G then .str marker else v) := by
      unfold reduceColumn
      simp only
      rw [if_neg (not_le.2 h)]
      rfl
    refine ⟨marker, G, fun hh => hm ((mem_pyUniq col _).2 hh), fun v hv' => (mem_pyUniq col v).1 (hGsub v hv'), hred, ?_, ?_⟩
    · intro v hv' w hw hvG
      have h1 := (hrest v ((mem_pyUniq col v).2 hv')).1 hvG
      obtain ⟨p, hp, rfl⟩ := List.mem_map.1 h1
      obtain ⟨q, hq, rfl⟩ := List.mem_map.1 hw
      rw [← hSsnd p (List.mem_of_mem_drop hp), ← hSsnd q (List.mem_of_mem_take hq)]
      rw [hsplit, List.pairwise_append] at hsorted
      exact hsorted.2.2 q hq p hp
    · -- the values of the result
      have hkpos : 0 < k := by omega
      have hkle : k ≤ S.length := by rw [hSlen]; omega
      have hGne : ∃ g, g ∈ G := by
        have : 0 < (S.take k).length := by rw [List.length_take]; omega
        obtain ⟨p, hp⟩ := List.exists_mem_of_length_pos this
        exact ⟨p.1, List.mem_map_of_mem hp⟩
      have hp : (pyUnique (reduceColumn ties cats col)).Perm (Val.str marker :: (S.drop k).map (·.1)) := by
        rw [List.perm_ext_iff_of_nodup (nodup_pyUnique _)]
        · intro v
          rw [mem_pyUniq, hred, List.mem_map, List.mem_cons]
          constructor
          · rintro ⟨w, hw, rfl⟩
            by_cases hg : w ∈ G
            · rw [if_pos hg]; exact .inl rfl
            · rw [if_neg hg]; exact .inr ((hrest w ((mem_pyUniq col w).2 hw)).1 hg)
          · rintro (rfl | hd)
            · obtain ⟨g, hg⟩ := hGne
              exact ⟨g, (mem_pyUniq col g).1 (hGsub g hg), by rw [if_pos hg]⟩
            · have hvv : v ∈ vals := by
                rw [← hSfst.mem_iff]
                exact (List.Sublist.map _ (List.drop_sublist k S)).subset hd
              exact ⟨v, (mem_pyUniq col v).1 hvv, by rw [if_neg ((hrest v hvv).2 hd)]⟩
        · rw [List.nodup_cons]
          refine ⟨fun hd => hm ?_, hSnod.sublist (List.Sublist.map _ (List.drop_sublist k S))⟩
          rw [← hSfst.mem_iff]
          exact (List.Sublist.map _ (List.drop_sublist k S)).subset hd
      rw [hp.length_eq, List.length_cons, List.length_map, List.length_drop, hSlen]
      omega

/-- C58: the searched data have the rows, the attributes and the target column of the given ones, and each other column is grouped as in
`C58_column`; with `cats = -1` nothing changes. -/
theorem C58_frame (ties : TieOrder) (cats : Int) (df : Frame) (t : Str) :
    (cats = -1 → reduceCategories ties cats df t = df) ∧ (reduceCategories ties cats df t).nrows = df.nrows ∧
    (cats ≠ -1 → (reduceCategories ties cats df t).cols = df.cols.map (fun c => if c.1 = t then c else (c.1, reduceColumn ties cats c.2))) := by
  refine ⟨fun h => by unfold reduceCategories; rw [if_pos h], reduce_nrows ties cats df t, fun h => reduce_cols h df t⟩

/-- C58: `ties` leaves nothing out: every listing of the values of a column with their frequencies by decreasing frequency, however the equally frequent ones
are arranged, is the `value_counts()` of some `ties`; and every `value_counts()` is such a listing. So `C58_column` holds for every version of pandas. -/
theorem C58_any_order (col : List Val) (L : List (Val × Nat)) :
    (∃ ties, valueCounts ties col = L) ↔ L.Perm ((pyUnique col).map (fun v => (v, col.count v))) ∧ L.Pairwise (fun a b => b.2 ≤ a.2) := by
  constructor
  · rintro ⟨ties, rfl⟩
    refine ⟨(stableSort_perm _).trans ((ties.perm _).map _), ?_⟩
    have := pairwise_stableSort (le := fun a b : Val × Nat => decide (b.2 ≤ a.2))
      (fun a b c h1 h2 => by simp only [decide_eq_true_eq] at *; omega) (fun a b => by simp; omega)
      ((ties.order (pyUnique col)).map (fun v => (v, col.count v)))
    exact this.imp (fun h => by simpa using h)
  · rintro ⟨hp, hs⟩
    have hfst : (L.map (·.1)).Perm (pyUnique col) := by
      have := hp.map (·.1)
      rwa [List.map_map, show ((fun p : Val × Nat => p.1) ∘ fun v => (v, col.count v)) = id from rfl, List.map_id] at this
    have hback : (L.map (·.1)).map (fun v => (v, col.count v)) = L := by
      rw [List.map_map]
      conv => rhs; rw [← List.map_id L]
      refine List.map_congr_left (fun p hpL => ?_)
      obtain ⟨v, _, rfl⟩ := List.mem_map.1 (hp.mem_iff.1 hpL)
      rfl
    refine ⟨⟨fun l => if l = pyUnique col then L.map (·.1) else l, fun l => ?_⟩, ?_⟩
    · by_cases h : l = pyUnique col
      · rw [if_pos h, h]; exact hfst
      · rw [if_neg h]
    · unfold valueCounts
      simp only [if_pos, hback]
      rw [stableSort_eq]
      exact List.Pairwise.insertionSort_eq (hs.imp (fun h => by simpa using h))

/-- three values and a limit of two: the most frequent one is kept; the marker avoids a value of the data -/
example : reduceColumn .first 2 [.str c!"u", .str c!"v", .str c!"other", .str c!"u"] = [.str c!"u", .str c!"other_", .str c!"other_", .str c!"u"] := by
  decide +kernel

/-- with equally frequent values the order of pandas decides which ones are grouped -/
example : reduceColumn .first 2 [.str c!"u", .str c!"v", .str c!"w"] = [.str c!"other", .str c!"other", .str c!"w"] ∧
    reduceColumn .last 2 [.str c!"u", .str c!"v", .str c!"w"] = [.str c!"u", .str c!"other", .str c!"other"] := by
  decide +kernel

end Verif
