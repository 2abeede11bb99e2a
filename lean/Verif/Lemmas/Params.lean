import Verif.Model.Quality
/-! Lemmas about dictionaries of parameters. -/
namespace Verif

theorem lookup_cons_self' (d : Params) (k : Str) (v : Rat) : List.lookup k ((k, v) :: d) = some v := by
  simp [List.lookup_cons]
theorem lookup_cons_ne' (d : Params) {k a : Str} (v : Rat) (h : k ≠ a) : List.lookup k ((a, v) :: d) = d.lookup k := by
  have : (k == a) = false := by simpa using h
  simp only [List.lookup_cons, this]

theorem lookup_del (d : Params) (k k' : Str) : (d.del k).lookup k' = if k' = k then none else d.lookup k' := by
  induction d with
  | nil => simp [Dict.del]
  | cons e d ih =>
    obtain ⟨a, v⟩ := e
    simp only [Dict.del] at ih ⊢
    by_cases h : a = k
    · subst h
      simp only [List.filter_cons, bne_self_eq_false, Bool.false_eq_true, if_false, ih]
      by_cases h2 : k' = a
      · simp [h2]
      · rw [lookup_cons_ne' _ _ h2]
    · have : (a != k) = true := by simpa using h
      simp only [List.filter_cons, this, if_true]
      by_cases h2 : k' = a
      · subst h2; rw [lookup_cons_self', lookup_cons_self', if_neg h]
      · rw [lookup_cons_ne' _ _ h2, lookup_cons_ne' _ _ h2, ih]

theorem lookup_set (d : Params) (k k' : Str) (v : Rat) : (d.set k v).lookup k' = if k' = k then some v else d.lookup k' := by
  unfold Dict.set
  split
  · rename_i h
    induction d with
    | nil => simp at h
    | cons e d ih =>
      obtain ⟨a, w⟩ := e
      by_cases ha : a = k
      · subst ha
        by_cases h2 : k' = a
        · subst h2; simp
        · simp only [List.map_cons, beq_self_eq_true, if_true, if_neg h2]
          rw [lookup_cons_ne' _ _ h2, lookup_cons_ne' _ _ h2]
          by_cases hd : d.any (fun e => e.1 == a) = true
          · rw [ih hd, if_neg h2]
          · have hid : d.map (fun e => if e.1 == a then (a, v) else e) = d := by
              conv_rhs => rw [← List.map_id d]
              apply List.map_congr_left
              intro e he
              rw [if_neg]
              · rfl
              · intro hc
                exact hd (List.any_eq_true.2 ⟨e, he, hc⟩)
            rw [hid]
      · have hd : d.any (fun e => e.1 == k) = true := by simpa [ha] using h
        have hak : (a == k) = false := by simpa using ha
        simp only [List.map_cons, hak, Bool.false_eq_true, if_false]
        by_cases h2 : k' = a
        · subst h2; rw [lookup_cons_self', lookup_cons_self', if_neg ha]
        · rw [lookup_cons_ne' _ _ h2, lookup_cons_ne' _ _ h2, ih hd]
  · rename_i h
    have hn : d.lookup k = none := by
      rw [List.lookup_eq_none_iff]
      intro e he
      by_contra hc
      have hc' : k = e.1 := by simpa using hc
      exact h (List.any_eq_true.2 ⟨e, he, by simp [hc']⟩)
    rw [List.lookup_append]
    by_cases h2 : k' = k
    · subst h2; simp [hn]
    · rw [lookup_cons_ne' _ _ h2, if_neg h2]
      cases d.lookup k' <;> rfl

theorem lookup_update (d e : Params) (k : Str) (h : e.lookup k = none) : (d.update e).lookup k = d.lookup k := by
  unfold Dict.update
  induction e generalizing d with
  | nil => rfl
  | cons x e ih =>
    obtain ⟨a, v⟩ := x
    by_cases hk : k = a
    · subst hk; rw [lookup_cons_self'] at h; cases h
    · rw [lookup_cons_ne' _ _ hk] at h
      rw [List.foldl_cons, ih _ h, lookup_set, if_neg hk]

theorem lookup_update_congr (d d' e : Params) (k : Str) (h : d.lookup k = d'.lookup k) : (d.update e).lookup k = (d'.update e).lookup k := by
  unfold Dict.update
  induction e generalizing d d' with
  | nil => exact h
  | cons x e ih =>
    rw [List.foldl_cons, List.foldl_cons]
    apply ih
    rw [lookup_set, lookup_set, h]

/-- the dictionary of `join` and that of the other computations give the same under every key -/
theorem lookup_vlParams (tp fp TP FP : Nat) (e : Params) (h1 : e.lookup kTp = none) (h2 : e.lookup kFp = none) (k : Str) :
    (((Dict.update [(kTP, (TP : Rat)), (kFP, (FP : Rat))] e).set kTp tp).set kFp fp).lookup k = (paramsFor tp fp TP FP e).lookup k := by
  rw [lookup_set, lookup_set]
  unfold paramsFor
  by_cases hf : k = kFp
  · rw [if_pos hf, hf, lookup_update _ _ _ h2]; rfl
  · rw [if_neg hf]
    by_cases ht : k = kTp
    · rw [if_pos ht, ht, lookup_update _ _ _ h1]; rfl
    · rw [if_neg ht]
      apply lookup_update_congr
      rw [lookup_cons_ne' _ _ ht, lookup_cons_ne' _ _ hf]

end Verif
